import Verif.SetDirective
import Mathlib.Tactic.SplitIfs
/-
C31: `#set` assigns the named target only.

The generated line is read back by a small reader of Python assignment targets
(`readTarget`), written here independently of the compiler, and run on an environment.
-/
namespace Cheetah.SetDirective

/-! ### Specification -/

/-- An identifier. -/
def Ident (s : Str) : Prop := s ≠ [] ∧ (∀ c, s.head? = some c → identStart c = true) ∧ ∀ c ∈ s, identChar c = true

/-- What may follow the name in a target: nothing, or an attribute or subscript part. -/
def Trailer (s : Str) : Prop := s = [] ∨ s.head? = some '.' ∨ s.head? = some '['

/-- What a Python target refers to first. -/
inductive Base where
  /-- a variable of the function, or of the module for a module-level line -/
  | var (name : Str)
  /-- `self._CHEETAH__globalSetVars["key"]` -/
  | globalSet (key : Str)
  deriving DecidableEq, Repr

/-- Read the start of an assignment target. The string subscript has no escapes. -/
def readTarget (s : Str) : Option (Base × Str) :=
  match stripPrefix? c!"self._CHEETAH__globalSetVars[\"" s with
  | some r =>
    let key := r.takeWhile fun c => c ≠ '"' ∧ c ≠ '\\' ∧ c ≠ '\n'
    match r.dropWhile fun c => c ≠ '"' ∧ c ≠ '\\' ∧ c ≠ '\n' with
    | '"' :: ']' :: t => some (.globalSet key, t)
    | _ => none
  | none =>
    let name := s.takeWhile identChar
    if name = [] then none else some (.var name, s.dropWhile identChar)

/-- The variables of the running method, and the template's global-set variables. -/
structure Env (Val : Type) where
  vars : Str → Option Val
  globalSet : Str → Option Val

/-- Assigning `v` to a target without trailers. -/
def Env.assign {Val : Type} (e : Env Val) (v : Val) : Base → Env Val
  | .var n => { e with vars := fun m => if m = n then some v else e.vars m }
  | .globalSet k => { e with globalSet := fun m => if m = k then some v else e.globalSet m }

/-! ### Lemmas -/

theorem find_none {c : Char} {s : Str} (h : c ∉ s) : find c s = -1 := by
  induction s with
  | nil => rfl
  | cons d s ih =>
    simp only [List.mem_cons, not_or] at h
    simp [find, ih h.2, Ne.symm h.1]

theorem find_append {c : Char} (a b : Str) (h : c ∉ a) : find c (a ++ c :: b) = a.length := by
  induction a with
  | nil => simp [find]
  | cons d a ih =>
    simp only [List.mem_cons, not_or] at h
    have := ih h.2
    simp only [List.cons_append, find, Ne.symm h.1, if_false, this, List.length_cons]
    split <;> omega

theorem find_after {c : Char} (a b : Str) (h : c ∉ a) : find c (a ++ b) = -1 ∨ (a.length : Int) ≤ find c (a ++ b) := by
  by_cases hb : c ∈ b
  · obtain ⟨x, y, rfl, hx⟩ := List.append_of_mem hb |>.elim fun x hx => hx.elim fun y hy => by
      have : ∃ x y, b = x ++ c :: y ∧ c ∉ x := by
        clear hx hy x y h
        induction b with
        | nil => simp at hb
        | cons d b ih =>
          by_cases hd : d = c
          · exact ⟨[], b, by simp [hd], by simp⟩
          · have hb' : c ∈ b := by
              rcases List.mem_cons.1 hb with rfl | h
              · exact absurd rfl hd
              · exact h
            obtain ⟨x, y, rfl, hx⟩ := ih hb'
            exact ⟨d :: x, y, rfl, by simp [hx, Ne.symm hd]⟩
      exact this
    right
    rw [← List.append_assoc, find_append (a ++ x) y (by simp [h, hx])]
    simp only [List.length_append]
    push_cast
    omega
  · left; exact find_none (by simp [h, hb])

theorem find_le (c : Char) (s : Str) : find c s = -1 ∨ (0 ≤ find c s ∧ find c s < s.length) := by
  induction s with
  | nil => left; rfl
  | cons d s ih =>
    simp only [find, List.length_cons]
    split
    · right; constructor <;> omega
    · split
      · left; rfl
      · right; rcases ih with h | ⟨h1, h2⟩
        · omega
        · constructor <;> push_cast <;> omega

theorem split_join (l : Str) : (splitTarget l).1 ++ (splitTarget l).2 = l := by
  unfold splitTarget
  simp only
  generalize (if find '.' l > 0 ∧ find '[' l = -1 then find '.' l
    else if find '.' l > 0 ∧ find '.' l < max (find '[' l) 0 then find '.' l else find '[' l) = pos
  split <;> simp

theorem splitTarget_eq (name t : Str) (hn : name ≠ []) (h1 : '.' ∉ name) (h2 : '[' ∉ name) (ht : Trailer t) :
    splitTarget (name ++ t) = (name, t) := by
  have hpos : (0 : Int) < name.length := by
    have := List.length_pos_iff.2 hn; omega
  rcases ht with rfl | h | h
  · simp [splitTarget, find_none h1, find_none h2]
  · obtain ⟨r, rfl⟩ : ∃ r, t = '.' :: r := by cases t <;> simp_all
    have e1 := find_append name r h1
    have e2 := find_after name ('.' :: r) h2
    have e3 : find '[' (name ++ '.' :: r) ≠ name.length := by
      have : find '[' ((name ++ ['.']) ++ r) = -1 ∨ ((name ++ ['.']).length : Int) ≤ find '[' ((name ++ ['.']) ++ r) :=
        find_after _ _ (by simp [h2])
      simp only [List.append_assoc, List.singleton_append, List.length_append, List.length_singleton] at this
      rcases this with h | h
      · rw [h]; omega
      · push_cast at h; omega
    have hp : (if find '.' (name ++ '.' :: r) > 0 ∧ find '[' (name ++ '.' :: r) = -1 then find '.' (name ++ '.' :: r)
        else if find '.' (name ++ '.' :: r) > 0 ∧ find '.' (name ++ '.' :: r) < max (find '[' (name ++ '.' :: r)) 0
        then find '.' (name ++ '.' :: r) else find '[' (name ++ '.' :: r)) = (name.length : Int) := by
      rw [e1]; rw [Int.max_def]; split_ifs <;> omega
    simp only [splitTarget, hp]
    simp [hn]
  · obtain ⟨r, rfl⟩ : ∃ r, t = '[' :: r := by cases t <;> simp_all
    have e1 := find_append name r h2
    have e2 := find_after name ('[' :: r) h1
    have hp : (if find '.' (name ++ '[' :: r) > 0 ∧ find '[' (name ++ '[' :: r) = -1 then find '.' (name ++ '[' :: r)
        else if find '.' (name ++ '[' :: r) > 0 ∧ find '.' (name ++ '[' :: r) < max (find '[' (name ++ '[' :: r)) 0
        then find '.' (name ++ '[' :: r) else find '[' (name ++ '[' :: r)) = (name.length : Int) := by
      rw [e1, Int.max_eq_left (by omega), if_neg (by omega), if_neg (by omega)]
    simp only [splitTarget, hp]
    simp [hn]

theorem ident_facts {s : Str} (h : Ident s) :
    '.' ∉ s ∧ '[' ∉ s ∧ ∀ c ∈ s, c ≠ '"' ∧ c ≠ '\\' ∧ c ≠ '\n' := by
  refine ⟨fun hc => ?_, fun hc => ?_, fun c hc => ⟨?_, ?_, ?_⟩⟩
  · exact absurd (h.2.2 _ hc) (by decide)
  · exact absurd (h.2.2 _ hc) (by decide)
  all_goals rintro rfl; exact absurd (h.2.2 _ hc) (by decide)

theorem takeWhile_stop {p : Char → Bool} {a t : Str} (ha : ∀ c ∈ a, p c = true) (ht : ∀ c, t.head? = some c → p c = false) :
    (a ++ t).takeWhile p = a ∧ (a ++ t).dropWhile p = t := by
  induction a with
  | nil =>
    cases t with
    | nil => simp
    | cons c t => simp [ht c rfl]
  | cons c a ih =>
    have := ih fun x hx => ha x (by simp [hx])
    simp [ha c (by simp), this]

theorem stripPrefix_append (p s : Str) : stripPrefix? p (p ++ s) = some s := by
  induction p with
  | nil => rfl
  | cons c p ih => simp [stripPrefix?, ih]

theorem readTarget_global (k t : Str) (hk : ∀ c ∈ k, c ≠ '"' ∧ c ≠ '\\' ∧ c ≠ '\n') :
    readTarget (globalPrefix ++ k ++ c!"\"]" ++ t) = some (.globalSet k, t) := by
  have h1 : stripPrefix? c!"self._CHEETAH__globalSetVars[\"" (globalPrefix ++ k ++ c!"\"]" ++ t) =
      some (k ++ c!"\"]" ++ t) := by
    rw [List.append_assoc, List.append_assoc, List.append_assoc]; exact stripPrefix_append _ _
  obtain ⟨h2, h3⟩ := takeWhile_stop (p := fun c => decide (c ≠ '"' ∧ c ≠ '\\' ∧ c ≠ '\n')) (a := k) (t := c!"\"]" ++ t)
    (fun c hc => by simpa using hk c hc) (by intro c hc; simp at hc; subst hc; decide)
  simp only [readTarget, h1]
  rw [List.append_assoc, h2, h3]
  rfl

theorem readTarget_local (n t : Str) (hn : Ident n) (ht : ∀ c, t.head? = some c → identChar c = false)
    (hs : n ≠ c!"self") : readTarget (n ++ t) = some (.var n, t) := by
  have h1 : stripPrefix? c!"self._CHEETAH__globalSetVars[\"" (n ++ t) = none := by
    cases hsp : stripPrefix? c!"self._CHEETAH__globalSetVars[\"" (n ++ t) with
    | none => rfl
    | some r =>
      exfalso
      have key : ∀ (p s r : Str), stripPrefix? p s = some r → s = p ++ r := by
        intro p
        induction p with
        | nil => intro s r h; simpa [stripPrefix?] using h
        | cons c p ih =>
          intro s r h
          cases s with
          | nil => simp [stripPrefix?] at h
          | cons d s =>
            simp only [stripPrefix?] at h
            split at h
            · next hcd => rw [ih s r h, hcd]; rfl
            · simp at h
      have h := key _ _ _ hsp
      have t1 := (takeWhile_stop (p := identChar) hn.2.2 ht).1
      rw [h] at t1
      have : (c!"self._CHEETAH__globalSetVars[\"" ++ r).takeWhile identChar = c!"self" := by
        have := (takeWhile_stop (p := identChar) (a := c!"self") (t := c!"._CHEETAH__globalSetVars[\"" ++ r)
          (by decide) (by intro c hc; simp at hc; subst hc; decide)).1
        exact this
      rw [this] at t1
      exact hs t1.symm
  obtain ⟨h2, h3⟩ := takeWhile_stop (p := identChar) hn.2.2 ht
  simp only [readTarget, h1, h2, h3, hn.1, if_false]

/-! ### Theorems -/

/-- **C31, nothing is lost**: for every left-hand side the two parts are the whole. -/
theorem C31_split_loses_nothing (lvalue op rvalue : Str) :
    ∃ a b, a ++ b = lvalue ∧
      addSet lvalue op rvalue .global =
        .inMethod (c!"self._CHEETAH__globalSetVars[\"" ++ a ++ c!"\"]" ++ b ++ c!" " ++ op ++ c!" " ++ strip rvalue) :=
  ⟨_, _, split_join lvalue, rfl⟩

/-- **C31, `#set global`**: with a name followed by any attribute or subscript part, the
generated line is an assignment inside the method to exactly that part of the global-set variable of
that name. -/
theorem C31_global_target (name trailer op rvalue : Str) (hn : Ident name) (ht : Trailer trailer) :
    ∃ line, addSet (name ++ trailer) op rvalue .global = .inMethod line ∧
      readTarget line = some (.globalSet name, trailer ++ c!" " ++ op ++ c!" " ++ strip rvalue) := by
  obtain ⟨h1, h2, h3⟩ := ident_facts hn
  refine ⟨globalPrefix ++ name ++ c!"\"]" ++ trailer ++ c!" " ++ op ++ c!" " ++ strip rvalue, ?_, ?_⟩
  · simp only [addSet, splitTarget_eq name trailer hn.1 h1 h2 ht]
  have := readTarget_global name (trailer ++ c!" " ++ op ++ c!" " ++ strip rvalue) h3
  simpa [List.append_assoc] using this

/-- **C31, `#set` and `#set module`**: the generated line assigns to the variable of that name; it
is in the method for a local one and at the top of the module for a module one. -/
theorem C31_local_target (name trailer op rvalue : Str) (hn : Ident name) (hs : name ≠ c!"self") (ht : Trailer trailer) :
    ∃ line, addSet (name ++ trailer) op rvalue .local = .inMethod line ∧
      addSet (name ++ trailer) op rvalue .module = .inModule line ∧
      readTarget line = some (.var name, trailer ++ c!" " ++ op ++ c!" " ++ strip rvalue) := by
  refine ⟨_, rfl, rfl, ?_⟩
  have := readTarget_local name (trailer ++ c!" " ++ op ++ c!" " ++ strip rvalue) hn (by
    intro c hc
    rcases ht with rfl | h | h
    · simp at hc; subst hc; decide
    · cases trailer with
      | nil => simp at h
      | cons d t => simp at h hc; subst h; subst hc; decide
    · cases trailer with
      | nil => simp at h
      | cons d t => simp at h hc; subst h; subst hc; decide) hs
  simpa [List.append_assoc] using this

/-- **C31, only the named target**: running the generated line for a plain name changes that
one binding, in the right scope, and nothing else. -/
theorem C31_assigns_only_the_name {Val : Type} (e : Env Val) (v : Val) (name op rvalue : Str) (hn : Ident name)
    (hs : name ≠ c!"self") :
    (∃ line base rest, addSet name op rvalue .global = .inMethod line ∧ readTarget line = some (base, rest) ∧
      (e.assign v base).globalSet name = some v ∧ (e.assign v base).vars = e.vars ∧
      ∀ m, m ≠ name → (e.assign v base).globalSet m = e.globalSet m) ∧
    (∃ line base rest, addSet name op rvalue .local = .inMethod line ∧ readTarget line = some (base, rest) ∧
      (e.assign v base).vars name = some v ∧ (e.assign v base).globalSet = e.globalSet ∧
      ∀ m, m ≠ name → (e.assign v base).vars m = e.vars m) := by
  constructor
  · obtain ⟨line, h1, h2⟩ := C31_global_target name [] op rvalue hn (.inl rfl)
    rw [List.append_nil] at h1
    exact ⟨line, _, _, h1, h2, by simp [Env.assign], rfl, fun m hm => by simp [Env.assign, hm]⟩
  · obtain ⟨line, h1, _, h2⟩ := C31_local_target name [] op rvalue hn hs (.inl rfl)
    rw [List.append_nil] at h1
    exact ⟨line, _, _, h1, h2, by simp [Env.assign], rfl, fun m hm => by simp [Env.assign, hm]⟩

/-- A run of blanks, tabs and form feeds. -/
def Blank (s : Str) : Prop := ∀ c ∈ s, c = ' ' ∨ c = '\t' ∨ c = '\x0c'

theorem afterSpace_eq {w t : Str} (hw : Blank w) (ht : ∀ c, t.head? = some c → c ≠ ' ' ∧ c ≠ '\t' ∧ c ≠ '\x0c') :
    afterSpace (w ++ t) = t := by
  refine (takeWhile_stop (p := fun c => c == ' ' || c == '\x0c' || c == '\t') ?_ ?_).2
  · intro c hc
    rcases hw c hc with rfl | rfl | rfl <;> decide
  · intro c hc
    obtain ⟨h1, h2, h3⟩ := ht c hc
    simp [h1, h2, h3]

/-- **C31, the style words** - the full claim is that only the words `local`, `global` and
`module` select a style. Proved: they do when the target starts with `$`, however much blank
space there is, and without a word the assignment is local. -/
theorem C31_style_partial (w1 w2 target : Str) (h1 : Blank w1) (h2 : Blank w2) :
    readStyle (w1 ++ '$' :: target) = some (.local, '$' :: target) ∧
    readStyle (w1 ++ c!"local" ++ w2 ++ '$' :: target) = some (.local, '$' :: target) ∧
    readStyle (w1 ++ c!"global" ++ w2 ++ '$' :: target) = some (.global, '$' :: target) ∧
    readStyle (w1 ++ c!"module" ++ w2 ++ '$' :: target) = some (.module, '$' :: target) := by
  have key : ∀ w : Str, Blank w → afterSpace (w ++ '$' :: target) = '$' :: target :=
    fun w hw => afterSpace_eq hw (by intro c hc; simp at hc; subst hc; decide)
  have stop : ∀ c, (w2 ++ '$' :: target).head? = some c → identChar c = false := by
    intro c hc
    cases w2 with
    | nil => simp at hc; subst hc; decide
    | cons d w2 =>
      simp at hc; subst hc
      rcases h2 d (by simp) with rfl | rfl | rfl <;> decide
  have word : ∀ (k : Char) (ks : Str), (∀ c ∈ ks, identChar c = true) → identStart k = true →
      afterIdent (k :: ks ++ (w2 ++ '$' :: target)) = some (w2 ++ '$' :: target) := by
    intro k ks hks hk
    have := (takeWhile_stop (p := identChar) hks stop).2
    simp only [List.cons_append, afterIdent, hk, if_true, this]
  have sp : ∀ (k : Char) (ks : Str), k ≠ ' ' ∧ k ≠ '\t' ∧ k ≠ '\x0c' →
      afterSpace (w1 ++ (k :: ks ++ (w2 ++ '$' :: target))) = k :: ks ++ (w2 ++ '$' :: target) := by
    intro k ks hk
    exact afterSpace_eq h1 (by intro c hc; simp at hc; subst hc; exact hk)
  refine ⟨?_, ?_, ?_, ?_⟩
  · simp only [readStyle, key w1 h1]
    rfl
  · simp only [readStyle, List.append_assoc]
    rw [sp 'l' c!"ocal" (by decide)]
    simp only [word 'l' c!"ocal" (by decide) (by decide), Option.map_some, key w2 h2]
    rfl
  · simp only [readStyle, List.append_assoc]
    rw [sp 'g' c!"lobal" (by decide)]
    simp only [word 'g' c!"lobal" (by decide) (by decide), Option.map_some, key w2 h2]
    rfl
  · simp only [readStyle, List.append_assoc]
    rw [sp 'm' c!"odule" (by decide)]
    simp only [word 'm' c!"odule" (by decide) (by decide), Option.map_some, key w2 h2]
    rfl

/-- A target without `$` whose name merely starts with a style word is swallowed:
`#set globalCount = 1` becomes a global assignment with an empty left-hand side, to the
key `""`; the name is lost. -/
theorem C31_word_prefix_counterexample :
    readStyle c!" globalCount = 1" = some (.global, c!"= 1") ∧
    readStyle c!" localVar = 1" = some (.local, c!"= 1") ∧
    readStyle c!" moduleName = 1" = some (.module, c!"= 1") ∧
    addSet [] c!"=" c!" 1" .global = .inMethod c!"self._CHEETAH__globalSetVars[\"\"] = 1" := by decide +kernel

/-- A global assignment to several targets sets one variable with a comma in its name. -/
theorem C31_tuple_counterexample :
    addSet c!"a, b" c!"=" c!" 1, 2" .global = .inMethod c!"self._CHEETAH__globalSetVars[\"a, b\"] = 1, 2" ∧
    readTarget c!"self._CHEETAH__globalSetVars[\"a, b\"] = 1, 2" = some (.globalSet c!"a, b", c!" = 1, 2") := by decide +kernel

example : Ident c!"a_1" ∧ Trailer c!"[0].b" ∧
    addSet c!"a_1[0].b" c!"+=" c!" 2 " .global =
      .inMethod c!"self._CHEETAH__globalSetVars[\"a_1\"][0].b += 2" := by
  refine ⟨⟨by decide, ?_, by decide⟩, .inr (.inr rfl), by decide +kernel⟩
  intro c hc; simp at hc; subst hc; decide
example : readStyle c!"  global\t $x.y = 1" = some (.global, c!"$x.y = 1") := by decide

end Cheetah.SetDirective
