import Verif.MakeDirs
import Mathlib.Tactic.ByContra
import Mathlib.Data.List.Infix
/-
C88: directories of compiled templates become packages.
-/
namespace Cheetah.MakeDirs

/-! ### Specification -/

/-- Everything lies in a directory. -/
def Tree (fs : FS) : Prop := ∀ c up, up ≠ [] → fs (c :: up) ≠ none → ∃ i, fs up = some (.dir i)

/-- No file is in the way. -/
def Free (fs : FS) (p : Path) : Prop := ∀ q, q <:+ p → fs q ≠ some .file

/-- What is wanted: each missing directory of the path is there and is a package, all else is as it was. -/
def packaged (fs : FS) (p : Path) : FS := fun q => if q ≠ [] ∧ q <:+ p ∧ fs q = none then some (.dir true) else fs q

/-! ### Lemmas -/

theorem steps_add : ∀ (m n : Nat) (fs : FS) (r : Run), steps (m + n) fs r = steps n (steps m fs r).1 (steps m fs r).2
  | 0, n, fs, r => by rw [Nat.zero_add]; rfl
  | m + 1, n, fs, r => by
    rw [Nat.add_right_comm, steps, steps_add m n]
    rfl

theorem exists_up {fs : FS} (ht : Tree fs) : ∀ (p q : Path), fs p ≠ none → q ≠ [] → q <:+ p → fs q ≠ none
  | [], q, h, hq, hs => by rw [List.suffix_nil.1 hs]; exact h
  | c :: up, q, h, hq, hs => by
    rcases List.suffix_cons_iff.1 hs with rfl | hs
    · exact h
    · have hu : up ≠ [] := by rintro rfl; exact hq (List.suffix_nil.1 hs)
      obtain ⟨i, hi⟩ := ht c up hu h
      exact exists_up ht up q (by rw [hi]; exact nofun) hq hs

theorem packaged_there {fs : FS} (ht : Tree fs) {p : Path} (h : fs p ≠ none) : packaged fs p = fs := by
  funext q
  unfold packaged
  split
  · rename_i hq
    exact absurd hq.2.2 (exists_up ht p q h hq.1 hq.2.1)
  · rfl

theorem not_suffix_self {c : Str} {up : Path} : ¬ (c :: up) <:+ up := by
  intro h
  have := h.length_le
  simp at this
  omega

/-- Making one directory in its parent. -/
theorem make_one {fs fs' : FS} {c : Str} {up : Path} (h0 : fs (c :: up) = none) (hfs : ∀ q, fs' q = packaged fs up q) (hd : up ≠ [] → ∃ i, fs' up = some (.dir i))
    (k : List Task) : steps 3 fs' (.left (.test (c :: up) :: k)) = (packaged fs (c :: up), .left k) := by
  have h1 : fs' (c :: up) = none := by
    rw [hfs]
    unfold packaged
    rw [if_neg fun h => not_suffix_self h.2.1]
    exact h0
  have hm : canMake fs' (c :: up) = true := by
    unfold canMake
    rw [h1]
    cases up with
    | nil => rfl
    | cons d up =>
      obtain ⟨i, hi⟩ := hd nofun
      simp [hi]
  have e : put (put fs' (c :: up) (.dir false)) (c :: up) (.dir true) = packaged fs (c :: up) := by
    funext q
    unfold put
    by_cases hq : q = c :: up
    · subst hq
      rw [if_pos rfl, packaged, if_pos ⟨nofun, List.suffix_rfl, h0⟩]
    · rw [if_neg hq, if_neg hq, hfs]
      unfold packaged
      have : q <:+ c :: up ↔ q <:+ up := by
        rw [List.suffix_cons_iff]
        exact ⟨fun h => h.resolve_left hq, Or.inr⟩
      simp only [this]
  rw [steps, next, step, if_pos h1]
  simp only [List.cons_append, List.nil_append]
  rw [steps, next, step, if_pos hm]
  simp only [List.nil_append]
  rw [steps, next, step]
  simp only [List.nil_append, steps, e]

theorem enter_packages {fs : FS} (ht : Tree fs) : ∀ (p : Path), Free fs p → ∀ k : List Task,
    ∃ n, steps n fs (.left (.enter p :: k)) = (packaged fs p, .left k)
  | [], hf, k => ⟨1, by
    rw [steps, next, step]
    simp only [steps, List.nil_append]
    congr 1
    funext q
    unfold packaged
    rw [if_neg fun h => h.1 (List.suffix_nil.1 h.2.1)]⟩
  | c :: up, hf, k => by
    by_cases hu : up ≠ [] ∧ fs up = none
    · have hfu : Free fs up := fun q hq => hf q (hq.trans (List.suffix_cons _ _))
      obtain ⟨n, hn⟩ := enter_packages ht up hfu (.test (c :: up) :: k)
      have h0 : fs (c :: up) = none := by
        by_contra h
        obtain ⟨i, hi⟩ := ht c up hu.1 h
        rw [hu.2] at hi
        cases hi
      refine ⟨1 + (n + 3), ?_⟩
      rw [steps_add]
      have e1 : steps 1 fs (.left (.enter (c :: up) :: k)) = (fs, .left (.enter up :: .test (c :: up) :: k)) := by
        rw [steps, next, step, if_pos hu]
        rfl
      rw [e1, steps_add, hn]
      refine make_one h0 (fun q => rfl) (fun _ => ⟨true, ?_⟩) k
      unfold packaged
      rw [if_pos ⟨hu.1, List.suffix_rfl, hu.2⟩]
    · have e1 : steps 1 fs (.left (.enter (c :: up) :: k)) = (fs, .left (.test (c :: up) :: k)) := by
        rw [steps, next, step, if_neg hu]
        rfl
      have hup : up ≠ [] → ∃ i, fs up = some (.dir i) := by
        intro h
        cases hk : fs up with
        | none => exact absurd ⟨h, hk⟩ hu
        | some kd =>
          cases kd with
          | file => exact absurd hk (hf up (List.suffix_cons _ _))
          | dir i => exact ⟨i, rfl⟩
      by_cases h0 : fs (c :: up) = none
      · refine ⟨1 + 3, ?_⟩
        rw [steps_add, e1]
        refine make_one h0 (fun q => ?_) hup k
        by_cases hu0 : up = []
        · subst hu0
          unfold packaged
          rw [if_neg fun h => h.1 (List.suffix_nil.1 h.2.1)]
        · obtain ⟨i, hi⟩ := hup hu0
          rw [packaged_there ht (by rw [hi]; exact nofun)]
      · refine ⟨1 + 1, ?_⟩
        rw [steps_add, e1, packaged_there ht h0]
        rw [steps, next, step, if_neg h0]
        rfl

/-! ### C88 -/

/-- C88: a run to its end makes each missing directory of the path, as a package, and changes nothing else. -/
theorem C88_packages (fs : FS) (ht : Tree fs) (p : Path) (hf : Free fs p) : ∃ n, steps n fs (start p) = (packaged fs p, .left []) :=
  enter_packages ht p hf []

/-- C88: once it is at its end, it stays there: there is one outcome. -/
theorem C88_one_outcome (fs : FS) (p : Path) (n m : Nat) (fs' : FS) (h : steps n fs (start p) = (fs', .left [])) : steps (n + m) fs (start p) = (fs', .left []) := by
  rw [steps_add, h]
  induction m with
  | zero => rfl
  | succ m ih => rw [steps]; exact ih

/-- What a task is about. -/
def About (fs : FS) (p : Path) : Task → Prop
  | .enter q => q <:+ p
  | .test q => q <:+ p ∧ q ≠ []
  | .mkdir q => q <:+ p ∧ q ≠ [] ∧ fs q = none
  | .init q => q <:+ p ∧ q ≠ [] ∧ fs q = none

/-- Tasks that change nothing. -/
def Looks : Task → Prop
  | .enter _ => True
  | .test _ => True
  | _ => False

/-- The missing directories of the path that are there now are packages, and nothing else has changed. -/
def Clean (fs : FS) (p : Path) (fs' : FS) : Prop := ∀ q, fs' q = fs q ∨ (q ≠ [] ∧ q <:+ p ∧ fs q = none ∧ fs' q = some (.dir true))

/-- The points of a run: looking, about to make a directory, about to make its `__init__.py`, or failed. -/
inductive Along (fs : FS) (p : Path) : FS → Run → Prop where
  | looks {fs' : FS} {ts : List Task} : Clean fs p fs' → (∀ t ∈ ts, About fs p t ∧ Looks t) → Along fs p fs' (.left ts)
  | makes {fs' : FS} {ts : List Task} {q : Path} : Clean fs p fs' → About fs p (.mkdir q) → (∀ t ∈ ts, About fs p t ∧ Looks t) →
      Along fs p fs' (.left (.mkdir q :: .init q :: ts))
  | made {fs' : FS} {ts : List Task} {q : Path} : Clean fs p fs' → About fs p (.init q) → (∀ t ∈ ts, About fs p t ∧ Looks t) →
      Along fs p (put fs' q (.dir false)) (.left (.init q :: ts))
  | failed {fs' : FS} : Clean fs p fs' → Along fs p fs' .failed

theorem next_along {fs fs' : FS} {p : Path} {r : Run} (h : Along fs p fs' r) : Along fs p (next fs' r).1 (next fs' r).2 := by
  cases h with
  | failed h => exact .failed h
  | @looks _ ts hc h =>
    cases ts with
    | nil => exact .looks hc h
    | cons t ts =>
      have hts : ∀ t' ∈ ts, About fs p t' ∧ Looks t' := fun t' ht' => h t' (List.mem_cons_of_mem _ ht')
      obtain ⟨ht, hl⟩ := h t List.mem_cons_self
      cases t with
      | mkdir q => exact hl.elim
      | init q => exact hl.elim
      | enter q =>
        cases q with
        | nil => exact .looks hc hts
        | cons c up =>
          by_cases hu : up ≠ [] ∧ fs' up = none
          · have e : next fs' (.left (.enter (c :: up) :: ts)) = (fs', .left (.enter up :: .test (c :: up) :: ts)) := by
              rw [next, step, if_pos hu]
              rfl
            rw [e]
            refine .looks hc ?_
            intro t' ht'
            rcases List.mem_cons.1 ht' with rfl | ht'
            · exact ⟨(List.suffix_cons _ _).trans ht, trivial⟩
            rcases List.mem_cons.1 ht' with rfl | ht'
            · exact ⟨⟨ht, nofun⟩, trivial⟩
            · exact hts t' ht'
          · have e : next fs' (.left (.enter (c :: up) :: ts)) = (fs', .left (.test (c :: up) :: ts)) := by
              rw [next, step, if_neg hu]
              rfl
            rw [e]
            refine .looks hc ?_
            intro t' ht'
            rcases List.mem_cons.1 ht' with rfl | ht'
            · exact ⟨⟨ht, nofun⟩, trivial⟩
            · exact hts t' ht'
      | test q =>
        by_cases hq : fs' q = none
        · have e : next fs' (.left (.test q :: ts)) = (fs', .left (.mkdir q :: .init q :: ts)) := by
            rw [next, step, if_pos hq]
            rfl
          rw [e]
          refine .makes hc ⟨ht.1, ht.2, ?_⟩ hts
          rcases hc q with h | ⟨_, _, c, _⟩
          · rw [← h]; exact hq
          · exact c
        · have e : next fs' (.left (.test q :: ts)) = (fs', .left ts) := by
            rw [next, step, if_neg hq]
            rfl
          rw [e]
          exact .looks hc hts
  | @makes _ ts q hc ha hts =>
    by_cases hm : canMake fs' q = true
    · have e : next fs' (.left (.mkdir q :: .init q :: ts)) = (put fs' q (.dir false), .left (.init q :: ts)) := by
        rw [next, step, if_pos hm]
        rfl
      rw [e]
      exact .made hc ha hts
    · have e : next fs' (.left (.mkdir q :: .init q :: ts)) = (fs', .failed) := by
        rw [next, step, if_neg hm]
      rw [e]
      exact .failed hc
  | @made fs2 ts q hc ha hts =>
    have e : next (put fs2 q (.dir false)) (.left (.init q :: ts)) = (put (put fs2 q (.dir false)) q (.dir true), .left ts) := by
      rw [next, step]
      rfl
    rw [e]
    refine .looks (fun q' => ?_) hts
    by_cases hq : q' = q
    · subst hq
      exact Or.inr ⟨ha.2.1, ha.1, ha.2.2, by simp [put]⟩
    · have : put (put fs2 q (.dir false)) q (.dir true) q' = fs2 q' := by simp [put, hq]
      show put (put fs2 q (.dir false)) q (.dir true) q' = fs q' ∨ (q' ≠ [] ∧ q' <:+ p ∧ fs q' = none ∧
        put (put fs2 q (.dir false)) q (.dir true) q' = some (.dir true))
      rw [this]
      exact hc q'

theorem steps_along {fs : FS} {p : Path} : ∀ (n : Nat) {fs' : FS} {r : Run}, Along fs p fs' r → Along fs p (steps n fs' r).1 (steps n fs' r).2
  | 0, _, _, h => h
  | n + 1, _, _, h => steps_along n (next_along h)

theorem start_along (fs : FS) (p : Path) : Along fs p fs (start p) :=
  .looks (fun _ => Or.inl rfl) fun t ht => by
    rw [List.mem_singleton] at ht
    subst ht
    exact ⟨List.suffix_rfl, trivial⟩

theorem put_tree {fs : FS} (ht : Tree fs) {q : Path} {i : Bool} (h : ∀ c up, q = c :: up → up ≠ [] → ∃ j, fs up = some (.dir j)) : Tree (put fs q (.dir i)) := by
  intro c up hu hn
  by_cases hup : up = q
  · exact ⟨i, by simp [put, hup]⟩
  · have e : put fs q (.dir i) up = fs up := by simp [put, hup]
    rw [e]
    by_cases hc : c :: up = q
    · exact h c up hc.symm hu
    · have e2 : put fs q (.dir i) (c :: up) = fs (c :: up) := by simp [put, hc]
      rw [e2] at hn
      exact ht c up hu hn

theorem canMake_up {fs : FS} {q : Path} (h : canMake fs q = true) : ∀ c up, q = c :: up → up ≠ [] → ∃ j, fs up = some (.dir j) := by
  rintro c up rfl hu
  cases up with
  | nil => exact absurd rfl hu
  | cons d up =>
    unfold canMake at h
    simp only [Bool.and_eq_true] at h
    obtain ⟨_, h⟩ := h
    split at h
    · rename_i j e; exact ⟨j, e⟩
    · cases h

theorem next_tree {fs fs' : FS} {p : Path} {r : Run} (h : Along fs p fs' r) (ht : Tree fs') : Tree (next fs' r).1 := by
  cases r with
  | failed => exact ht
  | left ts =>
    cases ts with
    | nil => exact ht
    | cons t ts =>
      cases t with
      | enter q =>
        cases q with
        | nil => exact ht
        | cons c up =>
          have : (next fs' (.left (.enter (c :: up) :: ts))).1 = fs' := by
            rw [next, step]
            by_cases hu : up ≠ [] ∧ fs' up = none
            · rw [if_pos hu]
            · rw [if_neg hu]
          rw [this]
          exact ht
      | test q =>
        have : (next fs' (.left (.test q :: ts))).1 = fs' := by
          rw [next, step]
          by_cases hq : fs' q = none
          · rw [if_pos hq]
          · rw [if_neg hq]
        rw [this]
        exact ht
      | mkdir q =>
        by_cases hm : canMake fs' q = true
        · have : (next fs' (.left (.mkdir q :: ts))).1 = put fs' q (.dir false) := by
            rw [next, step, if_pos hm]
          rw [this]
          exact put_tree ht (canMake_up hm)
        · have : (next fs' (.left (.mkdir q :: ts))).1 = fs' := by
            rw [next, step, if_neg hm]
          rw [this]
          exact ht
      | init q =>
        have e : (next fs' (.left (.init q :: ts))).1 = put fs' q (.dir true) := by
          rw [next, step]
        rw [e]
        refine put_tree ht ?_
        rintro c up rfl hu
        refine ht c up hu ?_
        cases h with
        | looks hc h => exact (h _ List.mem_cons_self).2.elim
        | made hc ha hts => simp [put]

theorem steps_tree {fs : FS} {p : Path} : ∀ (n : Nat) {fs' : FS} {r : Run}, Along fs p fs' r → Tree fs' → Tree (steps n fs' r).1
  | 0, _, _, _, ht => ht
  | n + 1, _, _, h, ht => steps_tree n (next_along h) (next_tree h ht)

/-- After a clean part of a run, another run does the rest. -/
theorem clean_packaged {fs fs' : FS} {p : Path} (hc : Clean fs p fs') : packaged fs' p = packaged fs p := by
  funext q
  unfold packaged
  rcases hc q with h | ⟨h1, h2, h3, h4⟩
  · rw [h]
  · rw [if_neg (by rw [h4]; exact fun h => nomatch h.2.2), if_pos ⟨h1, h2, h3⟩, h4]

/-- C88, stopping: wherever a run stops, what it changed is missing directories of the path, now there, and all of them are packages but at most the last one,
whose `__init__.py` was next. -/
theorem C88_stopped (fs : FS) (p : Path) (n : Nat) :
    Clean fs p (steps n fs (start p)).1 ∨
    ∃ q ts fs', q ≠ [] ∧ q <:+ p ∧ fs q = none ∧ Clean fs p fs' ∧ (steps n fs (start p)).2 = .left (.init q :: ts) ∧
      (steps n fs (start p)).1 = fun q' => if q' = q then some (.dir false) else fs' q' := by
  have h := steps_along n (start_along fs p)
  generalize (steps n fs (start p)).1 = a at h
  generalize (steps n fs (start p)).2 = b at h
  cases h with
  | looks hc _ => exact Or.inl hc
  | makes hc _ _ => exact Or.inl hc
  | made hc ha hts => exact Or.inr ⟨_, _, _, ha.2.1, ha.1, ha.2.2, hc, rfl, rfl⟩
  | failed hc => exact Or.inl hc

/-- C88, stopping and starting again (partial): unless the first run stopped between a directory and its `__init__.py`, the second one ends with what one run
would have made. Missing: that point (`C88_stopped_counterexample`). -/
theorem C88_restart_partial (fs : FS) (p : Path) (n : Nat) (ht : Tree fs) (hc : Clean fs p (steps n fs (start p)).1)
    (hf : Free fs p) : ∃ m, steps m (steps n fs (start p)).1 (start p) = (packaged fs p, .left []) := by
  have hf' : Free (steps n fs (start p)).1 p := by
    intro q hq h
    rcases hc q with h1 | ⟨_, _, _, h4⟩
    · exact hf q hq (h1 ▸ h)
    · rw [h4] at h; cases h
  obtain ⟨m, hm⟩ := C88_packages _ (steps_tree n (start_along fs p) ht) p hf'
  exact ⟨m, by rw [hm, clean_packaged hc]⟩

/-- C88, violated where a run stops between making a directory and its `__init__.py`: no later run makes it. -/
theorem C88_stopped_counterexample (fs : FS) (c : Str) (h : fs [c] = none) :
    (steps 3 fs (start [c])).1 [c] = some (.dir false) ∧ ∀ m, (steps m (steps 3 fs (start [c])).1 (start [c])).1 [c] = some (.dir false) := by
  have e : steps 3 fs (start [c]) = (put fs [c] (.dir false), .left [.init [c]]) := by
    simp [steps, next, step, start, h, canMake]
  rw [e]
  have h0 : put fs [c] (.dir false) [c] = some (.dir false) := by simp [put]
  refine ⟨h0, fun m => ?_⟩
  have hstay : ∀ m, steps m (put fs [c] (.dir false)) (.left []) = (put fs [c] (.dir false), .left []) := by
    intro m
    induction m with
    | zero => rfl
    | succ m ih => rw [steps]; exact ih
  match m with
  | 0 => exact h0
  | 1 => exact h0
  | m + 2 =>
    have e2 : steps (m + 2) (put fs [c] (.dir false)) (start [c]) = steps m (put fs [c] (.dir false)) (.left []) := by
      simp [steps, next, step, start, h0]
    rw [e2, hstay]
    exact h0

/-- C88, violated for two workers of `--parallel` that need the same new directory: the second one fails, and its template is not written. -/
theorem C88_parallel_counterexample (fs : FS) (c : Str) (h : fs [c] = none) :
    (turns [true, false, true, false, true, false] fs (start [c]) (start [c])).2 = (.left [.init [c]], .failed) := by
  simp [turns, next, step, start, h, canMake, put]

/-- What two runs may change: missing directories of their paths come into being. -/
def Only (fs : FS) (p p' : Path) (fs' : FS) : Prop :=
  ∀ q, fs' q = fs q ∨ (q ≠ [] ∧ (q <:+ p ∨ q <:+ p') ∧ fs q = none ∧ ∃ i, fs' q = some (.dir i))

/-- All tasks of a run are about its path. -/
def Bound (fs : FS) (p : Path) : Run → Prop
  | .left ts => ∀ t ∈ ts, About fs p t
  | .failed => True

theorem put_only {fs fs' : FS} {p p' q : Path} {i : Bool} (h : Only fs p p' fs') (hq : q ≠ []) (hp : q <:+ p ∨ q <:+ p') (h0 : fs q = none) :
    Only fs p p' (put fs' q (.dir i)) := by
  intro q'
  by_cases e : q' = q
  · subst e
    exact Or.inr ⟨hq, hp, h0, i, by simp [put]⟩
  · have : put fs' q (.dir i) q' = fs' q' := by simp [put, e]
    rw [this]
    exact h q'

theorem next_only {fs fs' : FS} {p p' r : Path} {run : Run} (hr : r = p ∨ r = p') (h : Only fs p p' fs') (hb : Bound fs r run) :
    Only fs p p' (next fs' run).1 ∧ Bound fs r (next fs' run).2 := by
  have sub : ∀ {q}, q <:+ r → q <:+ p ∨ q <:+ p' := by
    rintro q hq
    rcases hr with rfl | rfl
    · exact Or.inl hq
    · exact Or.inr hq
  cases run with
  | failed => exact ⟨h, trivial⟩
  | left ts =>
    cases ts with
    | nil => exact ⟨h, hb⟩
    | cons t ts =>
      have hts : ∀ t' ∈ ts, About fs r t' := fun t' ht' => hb t' (List.mem_cons_of_mem _ ht')
      have ht := hb t List.mem_cons_self
      cases t with
      | enter q =>
        cases q with
        | nil => exact ⟨h, hts⟩
        | cons c up =>
          by_cases hu : up ≠ [] ∧ fs' up = none
          · have e : next fs' (.left (.enter (c :: up) :: ts)) = (fs', .left (.enter up :: .test (c :: up) :: ts)) := by
              rw [next, step, if_pos hu]
              rfl
            rw [e]
            refine ⟨h, fun t' ht' => ?_⟩
            rcases List.mem_cons.1 ht' with rfl | ht'
            · exact (List.suffix_cons _ _).trans ht
            rcases List.mem_cons.1 ht' with rfl | ht'
            · exact ⟨ht, nofun⟩
            · exact hts t' ht'
          · have e : next fs' (.left (.enter (c :: up) :: ts)) = (fs', .left (.test (c :: up) :: ts)) := by
              rw [next, step, if_neg hu]
              rfl
            rw [e]
            refine ⟨h, fun t' ht' => ?_⟩
            rcases List.mem_cons.1 ht' with rfl | ht'
            · exact ⟨ht, nofun⟩
            · exact hts t' ht'
      | test q =>
        by_cases hq : fs' q = none
        · have e : next fs' (.left (.test q :: ts)) = (fs', .left (.mkdir q :: .init q :: ts)) := by
            rw [next, step, if_pos hq]
            rfl
          rw [e]
          have h0 : fs q = none := by
            rcases h q with h | ⟨_, _, c, _⟩
            · rw [← h]; exact hq
            · exact c
          refine ⟨h, fun t' ht' => ?_⟩
          rcases List.mem_cons.1 ht' with rfl | ht'
          · exact ⟨ht.1, ht.2, h0⟩
          rcases List.mem_cons.1 ht' with rfl | ht'
          · exact ⟨ht.1, ht.2, h0⟩
          · exact hts t' ht'
        · have e : next fs' (.left (.test q :: ts)) = (fs', .left ts) := by
            rw [next, step, if_neg hq]
            rfl
          rw [e]
          exact ⟨h, hts⟩
      | mkdir q =>
        by_cases hm : canMake fs' q = true
        · have e : next fs' (.left (.mkdir q :: ts)) = (put fs' q (.dir false), .left ts) := by
            rw [next, step, if_pos hm]
            rfl
          rw [e]
          exact ⟨put_only h ht.2.1 (sub ht.1) ht.2.2, hts⟩
        · have e : next fs' (.left (.mkdir q :: ts)) = (fs', .failed) := by
            rw [next, step, if_neg hm]
          rw [e]
          exact ⟨h, trivial⟩
      | init q =>
        have e : next fs' (.left (.init q :: ts)) = (put fs' q (.dir true), .left ts) := by
          rw [next, step]
          rfl
        rw [e]
        exact ⟨put_only h ht.2.1 (sub ht.1) ht.2.2, hts⟩

/-- C88, two workers (partial): in whatever order they take turns, and wherever they are, they have only made missing directories of their paths; nothing that
was there is changed. Missing: that both succeed (`C88_parallel_counterexample`). -/
theorem C88_parallel_partial (fs : FS) (p p' : Path) (sched : List Bool) (q : Path) :
    (turns sched fs (start p) (start p')).1 q = fs q ∨
      (q ≠ [] ∧ (q <:+ p ∨ q <:+ p') ∧ fs q = none ∧ ∃ i, (turns sched fs (start p) (start p')).1 q = some (.dir i)) := by
  have key : ∀ (sched : List Bool) (fs' : FS) (a b : Run), Only fs p p' fs' → Bound fs p a → Bound fs p' b → Only fs p p' (turns sched fs' a b).1 := by
    intro sched
    induction sched with
    | nil => intro fs' a b h _ _; exact h
    | cons x sched ih =>
      intro fs' a b h ha hb
      cases x with
      | true =>
        obtain ⟨h1, h2⟩ := next_only (Or.inl rfl) h ha
        exact ih _ _ _ h1 h2 hb
      | false =>
        obtain ⟨h1, h2⟩ := next_only (Or.inr rfl) h hb
        exact ih _ _ _ h1 ha h2
  have hs : ∀ p, Bound fs p (start p) := by
    intro p t ht
    rw [List.mem_singleton] at ht
    subst ht
    exact List.suffix_rfl
  exact key sched fs _ _ (fun _ => Or.inl rfl) (hs p) (hs p') q

/-! ### Examples -/

/-- A directory `w` with a file in it. -/
def demoFS : FS := fun p => if p = [c!"w"] then some (.dir false) else if p = [c!"f", c!"w"] then some .file else none

example : Tree demoFS := by
  intro c up hu h
  unfold demoFS at h ⊢
  split at h
  · rename_i e; cases e; exact absurd rfl hu
  · split at h
    · rename_i e; cases e; exact ⟨false, rfl⟩
    · exact absurd rfl h
example : Free demoFS [c!"b", c!"a", c!"w"] := by
  intro q hq h
  have : q ∈ ([[c!"b", c!"a", c!"w"], [c!"a", c!"w"], [c!"w"], []] : List Path) := by
    exact (List.mem_tails _ _).2 hq
  simp only [List.mem_cons, List.not_mem_nil, or_false] at this
  rcases this with rfl | rfl | rfl | rfl <;> exact absurd h (by decide)
example : let fs := packaged demoFS [c!"b", c!"a", c!"w"]
    fs [c!"b", c!"a", c!"w"] = some (.dir true) ∧ fs [c!"a", c!"w"] = some (.dir true) ∧ fs [c!"w"] = some (.dir false) := by decide
example : (steps 10 demoFS (start [c!"b", c!"a", c!"w"])).2 = .left [] := by decide +kernel
example : Clean demoFS [c!"a", c!"w"] (steps 1 demoFS (start [c!"a", c!"w"])).1 := fun _ => Or.inl rfl

end Cheetah.MakeDirs
