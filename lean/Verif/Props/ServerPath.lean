import Verif.ServerPath
/-
C91: the paths of sources and included files.
-/
namespace Cheetah.ServerPath

/-- Where one gets from the directory `at_` (the last name first) by following the parts of a path, without looking at links: an empty part and
`.` stay, `..` goes up, and at the root it stays. -/
def walk : List Str → List Str → List Str
  | at_, [] => at_
  | at_, c :: cs => if c = [] ∨ c = c!"." then walk at_ cs else if c = c!".." then walk at_.tail cs else walk (c :: at_) cs

/-- A name of a file or directory: not empty, without slashes, and neither `.` nor `..`. -/
def Name (c : Str) : Prop := c ≠ [] ∧ '/' ∉ c ∧ c ≠ c!"." ∧ c ≠ c!".."

/-- The path from the root to a place. -/
def rooted (at_ : List Str) : Str := '/' :: joinStr c!"/" at_.reverse

/-- A path with exactly two slashes at its start keeps the second one: POSIX leaves its meaning to the system. -/
def second : Str → Str
  | '/' :: '/' :: '/' :: _ => []
  | '/' :: '/' :: _ => c!"/"
  | _ => []

/-- With slashes for backslashes. -/
def turned (p : Str) : Str := p.map fun c => if c = '\\' then '/' else c

/-- The path starts at the root. -/
def Absolute (p : Str) : Prop := p.head? = some '/'

instance (p : Str) : Decidable (Absolute p) := inferInstanceAs (Decidable (_ = _))

theorem fold_walk : ∀ (cs : List Str) (at_ : List Str), (∀ c ∈ cs, '/' ∉ c) → (∀ c ∈ at_, Name c) →
    cs.foldl (part true) at_ = walk at_ cs ∧ ∀ c ∈ walk at_ cs, Name c
  | [], _, _, h => ⟨rfl, h⟩
  | c :: cs, at_, hc, h => by
    have hcs : ∀ d ∈ cs, '/' ∉ d := fun d hd => hc d (List.mem_cons_of_mem _ hd)
    simp only [List.foldl_cons, walk]
    by_cases h1 : c = [] ∨ c = c!"."
    · rw [if_pos h1, show part true at_ c = at_ by simp only [part, if_pos h1]]
      exact fold_walk cs at_ hcs h
    · rw [if_neg h1]
      by_cases h2 : c = c!".."
      · rw [if_pos h2]
        have : part true at_ c = at_.tail := by
          unfold part
          rw [if_neg h1, if_neg]
          rintro (h3 | ⟨h3, -⟩ | h3)
          · exact h3 h2
          · cases h3
          · exact (h _ (List.mem_of_mem_head? h3)).2.2.2 rfl
        rw [this]
        exact fold_walk cs at_.tail hcs fun d hd => h d (List.mem_of_mem_tail hd)
      · rw [if_neg h2]
        have : part true at_ c = c :: at_ := by
          unfold part
          rw [if_neg h1, if_pos (.inl h2)]
        rw [this]
        refine fold_walk cs (c :: at_) hcs fun d hd => ?_
        rcases List.mem_cons.mp hd with rfl | hd
        · exact ⟨fun e => h1 (.inl e), hc _ (List.mem_cons_self ..), fun e => h1 (.inr e), h2⟩
        · exact h d hd

theorem walk_append : ∀ (xs ys at_ : List Str), walk at_ (xs ++ ys) = walk (walk at_ xs) ys
  | [], _, _ => rfl
  | c :: cs, ys, at_ => by
    simp only [List.cons_append, walk]
    split
    · exact walk_append cs ys _
    · split <;> exact walk_append cs ys _

theorem walk_names : ∀ (cs at_ : List Str), (∀ c ∈ cs, Name c) → walk at_ cs = cs.reverse ++ at_
  | [], _, _ => rfl
  | c :: cs, at_, h => by
    obtain ⟨h1, -, h2, h3⟩ := h c (List.mem_cons_self ..)
    simp only [walk]
    rw [if_neg (by rintro (e | e) <;> contradiction), if_neg h3, walk_names cs _ fun d hd => h d (List.mem_cons_of_mem _ hd)]
    simp

theorem slashes_abs {p : Str} (h : Absolute p) : slashes p = second p ++ c!"/" := by
  obtain ⟨q, rfl⟩ : ∃ q, p = '/' :: q := by
    cases p with
    | nil => cases h
    | cons c q => exact ⟨q, by cases h; rfl⟩
  cases q with
  | nil => rfl
  | cons c r =>
    by_cases hc : c = '/'
    · subst hc
      match r with
      | [] => rfl
      | d :: r =>
        by_cases hd : d = '/'
        · subst hd; rfl
        · have : second ('/' :: '/' :: d :: r) = c!"/" := by
            unfold second
            split
            · rename_i e; simp at e; exact absurd e.1 hd
            · rfl
            · rename_i e; exact absurd rfl (e _)
          rw [this]
          simp [slashes, startsWith, stripPrefix?, Ne.symm hd]
    · have : second ('/' :: c :: r) = [] := by
        unfold second
        split
        · rfl
        · rename_i e; simp at e; exact absurd e.1 hc
        · rfl
      rw [this]
      simp [slashes, startsWith, stripPrefix?, Ne.symm hc]

theorem norm_abs {p : Str} (h : Absolute p) : normpath p = second p ++ rooted (walk [] (splitCh '/' p)) := by
  unfold normpath
  have hp : p ≠ [] := by rintro rfl; cases h
  have hs := slashes_abs h
  have hr : (decide (slashes p ≠ [])) = true := by rw [hs]; simp
  rw [if_neg hp]
  simp only
  rw [hr, (fold_walk _ [] (splitCh_not_mem '/' p) (by simp)).1, hs]
  rw [if_neg (by simp)]
  simp [rooted]

theorem split_rooted (at_ : List Str) (h : ∀ c ∈ at_, Name c) : walk [] (splitCh '/' (rooted at_)) = at_ := by
  unfold rooted
  cases at_ with
  | nil => rfl
  | cons a as =>
    have e : splitCh '/' ('/' :: joinStr c!"/" (a :: as).reverse) = [] :: (a :: as).reverse := by
      rw [show splitCh '/' ('/' :: joinStr c!"/" (a :: as).reverse) = [] :: splitCh '/' (joinStr c!"/" (a :: as).reverse) by simp [splitCh]]
      rw [splitCh_join (by simp) fun c hc => (h c (List.mem_reverse.mp hc)).2.1]
    rw [e]
    simp only [walk, true_or, if_true]
    rw [walk_names _ _ fun c hc => h c (List.mem_reverse.mp hc)]
    simp

theorem join_head {xs : List Str} (h : ∀ c ∈ xs, Name c) : (joinStr c!"/" xs).head? ≠ some '/' := by
  match xs, h with
  | [], _ => simp [joinStr]
  | [x], h =>
    intro e
    exact (h x (by simp)).2.1 (List.mem_of_mem_head? e)
  | x :: y :: r, h =>
    obtain ⟨h1, h2, -⟩ := h x (by simp)
    cases x with
    | nil => exact absurd rfl h1
    | cons c cs =>
      intro e
      simp [joinStr] at e
      exact h2 (by simp [e])

theorem second_rooted {at_ : List Str} (h : ∀ c ∈ at_, Name c) : second (rooted at_) = [] := by
  have hj := join_head (xs := at_.reverse) fun c hc => h c (List.mem_reverse.mp hc)
  unfold rooted
  generalize joinStr c!"/" at_.reverse = j at hj
  unfold second
  split
  · rfl
  · rename_i e; simp at e; subst e; simp at hj
  · rfl

theorem second_rooted' {at_ : List Str} (h : ∀ c ∈ at_, Name c) : second ('/' :: rooted at_) = c!"/" := by
  have hj := join_head (xs := at_.reverse) fun c hc => h c (List.mem_reverse.mp hc)
  unfold rooted
  generalize joinStr c!"/" at_.reverse = j at hj
  unfold second
  split
  · rename_i e; simp at e; subst e; simp at hj
  · rfl
  · rename_i e; exact absurd rfl (e _)

theorem second_cases (p : Str) : second p = [] ∨ second p = c!"/" := by
  unfold second
  split <;> simp

theorem norm_again (p : Str) {at_ : List Str} (h : ∀ c ∈ at_, Name c) : normpath (second p ++ rooted at_) = second p ++ rooted at_ := by
  rcases second_cases p with e | e <;> rw [e]
  · rw [List.nil_append, norm_abs (p := rooted at_) (by rfl), second_rooted h, split_rooted at_ h]; rfl
  · rw [List.singleton_append, norm_abs (p := '/' :: rooted at_) (by rfl), second_rooted' h]
    rw [show walk [] (splitCh '/' ('/' :: rooted at_)) = at_ by
      rw [show splitCh '/' ('/' :: rooted at_) = [] :: splitCh '/' (rooted at_) by simp [splitCh]]
      simp only [walk, true_or, if_true]
      exact split_rooted at_ h]
    rfl

theorem replaced (p : Str) : replaceCh '\\' c!"/" p = turned p := by
  unfold replaceCh turned
  induction p with
  | nil => rfl
  | cons c cs ih => rw [List.flatMap_cons, ih, List.map_cons]; split <;> simp_all

theorem startsWith_abs (p : Str) : startsWith p c!"/" = true ↔ Absolute p := by
  unfold Absolute
  cases p with
  | nil => simp [startsWith, stripPrefix?]
  | cons c cs => simp only [startsWith, stripPrefix?, List.head?_cons, Option.some.injEq]; split <;> simp_all [eq_comm]

theorem join_last {a : Str} : ∀ (xs : List Str), a ≠ [] → (joinStr c!"/" (xs ++ [a])).getLast? = a.getLast?
  | [], _ => rfl
  | [x], h => by
    cases a with
    | nil => exact absurd rfl h
    | cons c cs => simp [joinStr, List.getLast?_append, List.getLast?_cons]
  | x :: y :: r, h => by
    have ih := join_last (y :: r) h
    rw [List.cons_append, List.cons_append, joinStr, ← List.cons_append, List.getLast?_append, ih]
    cases hl : a.getLast? with
    | none => exact absurd (List.getLast?_eq_none_iff.mp hl) h
    | some c => rfl

/-- The normal path that `abspath` gives. -/
theorem abs_place (here : List Str) (hh : ∀ c ∈ here, Name c) (p : Str) :
    abspath (rooted here) p = second p ++ rooted (walk (if Absolute p then [] else here) (splitCh '/' p)) := by
  unfold abspath
  by_cases ha : Absolute p
  · rw [if_pos ((startsWith_abs p).mpr ha), if_pos ha, norm_abs ha]
  · rw [if_neg (fun e => ha ((startsWith_abs p).mp e)), if_neg ha]
    have hs : second p = [] := by
      unfold second
      split
      · rfl
      · exact absurd rfl ha
      · rfl
    rw [hs, List.nil_append]
    cases here with
    | nil =>
      have e : (if rooted [] = [] ∨ (rooted []).getLast? = some '/' then rooted [] ++ p else rooted [] ++ '/' :: p) = '/' :: p := by
        simp [rooted, joinStr]
      rw [e, norm_abs (p := '/' :: p) (by rfl)]
      have : second ('/' :: p) = [] := by
        unfold second
        split
        · rfl
        · rename_i e; simp at e; subst e; exact absurd rfl ha
        · rfl
      rw [this, show splitCh '/' ('/' :: p) = [] :: splitCh '/' p by simp [splitCh]]
      simp [walk]
    | cons a as =>
      have hl : (rooted (a :: as)).getLast? ≠ some '/' := by
        obtain ⟨h1, h2, -⟩ := hh a (List.mem_cons_self ..)
        have e : joinStr c!"/" (a :: as).reverse ≠ [] := fun e => by
          have := join_last as.reverse h1
          rw [← List.reverse_cons, e] at this
          cases hl : a.getLast? with
          | none => exact h1 (List.getLast?_eq_none_iff.mp hl)
          | some c => rw [hl] at this; cases this
        unfold rooted
        rw [List.getLast?_cons, List.reverse_cons, join_last as.reverse h1]
        cases hl : a.getLast? with
        | none => exact absurd (List.getLast?_eq_none_iff.mp hl) h1
        | some c =>
          simp only [Option.getD_some, ne_eq, Option.some.injEq]
          rintro rfl
          exact h2 (List.mem_of_mem_getLast? hl)
      rw [if_neg (by rintro (e | e); · { simp [rooted] at e }; · exact hl e)]
      rw [norm_abs (p := rooted (a :: as) ++ '/' :: p) (by rfl), splitCh_append_sep, walk_append, split_rooted _ hh]
      have : second (rooted (a :: as) ++ '/' :: p) = [] := by
        have hj := join_head (xs := (a :: as).reverse) fun c hc => hh c (List.mem_reverse.mp hc)
        have hn : joinStr c!"/" (a :: as).reverse ≠ [] := fun e => by
          obtain ⟨h1, -⟩ := hh a (List.mem_cons_self ..)
          have := join_last as.reverse h1
          rw [← List.reverse_cons, e] at this
          cases hl : a.getLast? with
          | none => exact h1 (List.getLast?_eq_none_iff.mp hl)
          | some c => rw [hl] at this; cases this
        unfold rooted
        generalize joinStr c!"/" (a :: as).reverse = j at hj hn
        cases j with
        | nil => exact absurd rfl hn
        | cons c cs =>
          unfold second
          split
          · rfl
          · rename_i e; simp at e; rw [e.1] at hj; simp at hj
          · rfl
      rw [this]; rfl

theorem turned_id {p : Str} (h : '\\' ∉ p) : turned p = p := by
  unfold turned
  induction p with
  | nil => rfl
  | cons c cs ih =>
    simp only [List.mem_cons, not_or] at h
    rw [List.map_cons, ih h.2, if_neg (Ne.symm h.1)]

/-- **C91.** A path leads, from the working directory or from the root, to the place that one reaches by following its parts, with
slashes for backslashes; and the result is the path of that place from the root, all of whose parts are names. -/
theorem C91_place (here : List Str) (hh : ∀ c ∈ here, Name c) (filePath : Option Str) (path : Str) (hp : path ≠ []) :
    let there := walk (if Absolute (turned path) then [] else here) (splitCh '/' (turned path))
    serverSidePath (rooted here) filePath path = some (second (turned path) ++ rooted there) ∧ ∀ c ∈ there, Name c := by
  have hn : ∀ c ∈ walk (if Absolute (turned path) then [] else here) (splitCh '/' (turned path)), Name c :=
    (fold_walk _ _ (splitCh_not_mem '/' _) (by split <;> simp_all)).2
  refine ⟨?_, hn⟩
  unfold serverSidePath
  rw [if_pos hp, replaced, abs_place here hh, norm_again _ hn]

/-- **C91.** Without a path it is the place of the template's own file, if it has one. -/
theorem C91_own (here : List Str) (f : Str) :
    serverSidePath (rooted here) none [] = none ∧ serverSidePath (rooted here) (some []) [] = none ∧
    (f ≠ [] → '\\' ∉ f → serverSidePath (rooted here) (some f) [] = serverSidePath (rooted here) none f) := by
  refine ⟨rfl, rfl, fun h1 h2 => ?_⟩
  have := turned_id h2
  unfold serverSidePath
  rw [if_neg (by simp), if_pos h1, replaced, this]
  simp [h1]

/-- **C91.** A path that was made so stays as it is, in every working directory. -/
theorem C91_again (here here' : List Str) (hh : ∀ c ∈ here, Name c) (f f' : Option Str) (path r : Str) (hp : path ≠ [])
    (hr : serverSidePath (rooted here) f path = some r) (hb : '\\' ∉ r) : serverSidePath (rooted here') f' r = some r := by
  obtain ⟨h1, h2⟩ := C91_place here hh f path hp
  rw [hr] at h1
  simp only [Option.some.injEq] at h1
  have ht := turned_id hb
  have hne : r ≠ [] := by rw [h1]; simp [rooted]
  have ha : Absolute r := by
    rw [h1]
    rcases second_cases (turned path) with e | e <;> rw [e] <;> rfl
  unfold serverSidePath
  rw [if_pos hne, replaced, ht]
  have : abspath (rooted here') r = r := by
    unfold abspath
    rw [if_pos ((startsWith_abs r).mpr ha), h1, norm_again _ h2]
  rw [this, h1, norm_again _ h2]

/-- **C91 (violated).** A file whose name has a backslash, as systems with slashes allow, cannot be reached: the path leads where the one with
slashes leads. -/
theorem C91_backslash_counterexample (here : List Str) (f : Option Str) (a b : Str) :
    serverSidePath (rooted here) f (a ++ '\\' :: b) = serverSidePath (rooted here) f (a ++ '/' :: b) := by
  unfold serverSidePath
  rw [if_pos (by simp), if_pos (by simp), replaced, replaced]
  simp [turned]

example : ∀ c ∈ [c!"pages", c!"www"], Name c := by simp [Name]
example : rooted [c!"pages", c!"www"] = c!"/www/pages" := by decide +kernel
example : serverSidePath c!"/www/pages" none c!"../inc//./head.tmpl" = some c!"/www/inc/head.tmpl" := by decide +kernel
example : serverSidePath c!"/www/pages" none c!"/../a\\..\\b" = some c!"/b" := by decide +kernel
example : serverSidePath c!"/" none c!"x/" = some c!"/x" := by decide +kernel
example : serverSidePath c!"/www" none c!"//x/.." = some c!"//" := by decide +kernel
example : serverSidePath c!"/www" (some c!"t.tmpl") [] = some c!"/www/t.tmpl" := by decide +kernel

end Cheetah.ServerPath
