import Verif.ImportLock
/-
C53: the import lock.
-/
namespace Cheetah.ImportLock

/-- A thread is inside the critical section. -/
def Inside (s : State) (t : Nat) : Prop := 0 < (s.th t).depth

/-- A thread has the lock but has not written its name and the count yet (lines 584-585). -/
def Entering (s : State) (t : Nat) : Prop := (s.th t).pc = .setLocker ∨ (s.th t).pc = .setCount

/-- Executions in which lines 583-585 of one thread are not interleaved with other threads,
and no exception leaves the critical section. -/
inductive AtomicExec : State → State → Prop
  | nil {s} : AtomicExec s s
  | snoc {s s' s'' t} : AtomicExec s s' → Step (.run t) s' s'' → (∀ u, u ≠ t → ¬ Entering s' u) → AtomicExec s s''

@[simp] theorem put_self (s : State) (t : Nat) (x : Thread) : (s.put t x).th t = x := by simp [State.put]

theorem put_other (s : State) {t u : Nat} (x : Thread) (h : u ≠ t) : (s.put t x).th u = s.th u := by
  simp [State.put, h]

/-- Positions of a thread that neither has nor is taking the lock. -/
def Away (p : PC) : Prop := p = .idle ∨ p = .chk ∨ p = .cmp ∨ p = .want

/-- Positions of a thread that has the lock; what `lockcount` and the depth are there. -/
def Owns (s : State) (o : Nat) : Prop :=
  ((s.th o).pc = .setLocker ∧ (s.th o).depth = 0) ∨
  ((s.th o).pc = .setCount ∧ (s.th o).depth = 0 ∧ s.locker = some o) ∨
  (((s.th o).pc = .idle ∨ (s.th o).pc = .chk ∨ (s.th o).pc = .cmp ∨ (s.th o).pc = .inc ∨ (s.th o).pc = .rel) ∧
    (s.th o).depth = s.count + 1 ∧ s.locker = some o) ∨
  ((s.th o).pc = .dec ∧ (s.th o).depth = s.count + 1 ∧ s.count ≠ 0 ∧ s.locker = some o) ∨
  ((s.th o).pc = .unlock ∧ (s.th o).depth = 1 ∧ s.count = 0 ∧ s.locker = some o)

/-- The invariant, where `o` is the thread that has the lock if it is held. -/
def Inv (s : State) (o : Nat) : Prop :=
  (s.locked = false → ∀ t, (s.th t).depth = 0 ∧ Away (s.th t).pc) ∧
  (s.locked = true → Owns s o) ∧
  (s.locked = true → ∀ t, t ≠ o → (s.th t).depth = 0 ∧ Away (s.th t).pc) ∧
  (∀ t, (s.th t).pc = .cmp → (s.th t).depth = 0 → s.locker ≠ some t)

theorem inv_init : Inv init 0 :=
  ⟨fun _ t => ⟨rfl, .inl rfl⟩, by simp [init], by simp [init], by simp [init]⟩

/-- Who has the lock after a step of `t`. -/
def owner' (s : State) (t o : Nat) : Nat := if (s.th t).pc = .want then t else o

theorem inv_step {s s' : State} {t o : Nat} (hs : Step (.run t) s s') (ha : ∀ u, u ≠ t → ¬ Entering s u)
    (h : Inv s o) : Inv s' (owner' s t o) := by
  obtain ⟨h1, h2, h3, h4⟩ := h
  generalize hl : Label.run t = l at hs
  unfold Inv owner'
  have h1t := fun h => h1 h t
  have h3t := fun h => h3 h t
  have h4t := h4 t
  have hao := ha o
  cases hs with
  | raised _ => cases hl
  | _ =>
    injection hl with hl; subst hl
    simp only [State.put, Owns, Away, Entering] at *
    refine ⟨?_, ?_, ?_, ?_⟩
    · grind
    · grind
    · grind
    · grind

theorem inv_atomic {s s' : State} (hs : AtomicExec s s') {o : Nat} (h : Inv s o) : ∃ o', Inv s' o' := by
  induction hs with
  | nil => exact ⟨o, h⟩
  | snoc _ st ha ih =>
    obtain ⟨o', h'⟩ := ih
    exact ⟨_, inv_step st ha h'⟩

/-- **C53 (partial)**: if no thread runs while another is between line 583 and the end of
line 585, and no exception leaves the critical section, then no two threads are ever inside
it together.

Missing: executions that interleave there (`C53_race_counterexample`), and executions in
which an import raises (`C53_raised_counterexample`). -/
theorem C53_mutual_exclusion_partial {s : State} (h : AtomicExec init s) {t u : Nat} (ht : Inside s t)
    (hu : Inside s u) : t = u := by
  obtain ⟨o, h1, h2, h3, -⟩ := inv_atomic h inv_init
  unfold Inside at ht hu
  cases hl : s.locked with
  | false => have := (h1 hl t).1; omega
  | true =>
    have a : t = o := Classical.byContradiction fun hn => by have := (h3 hl t hn).1; omega
    have b : u = o := Classical.byContradiction fun hn => by have := (h3 hl u hn).1; omega
    rw [a, b]

/-- **C53 (partial)**: the lock is re-entrant: a thread that is inside and acquires again is
never made to wait (it never reaches the line that waits for the lock); and the count of its
acquisitions is kept, so that the lock is free exactly when no thread is inside or entering. -/
theorem C53_reentrant_partial {s : State} (h : AtomicExec init s) {t : Nat} (ht : Inside s t) :
    (s.th t).pc ≠ .want ∧ s.locked = true ∧ s.locker = some t := by
  obtain ⟨o, h1, h2, h3, -⟩ := inv_atomic h inv_init
  unfold Inside at ht
  have hl : s.locked = true := by
    cases hl : s.locked with
    | false => have := (h1 hl t).1; omega
    | true => rfl
  have a : t = o := Classical.byContradiction fun hn => by have := (h3 hl t hn).1; omega
  subst a
  have h2 := h2 hl
  unfold Owns at h2
  grind

/-- **C53 (partial)**: when all threads have released what they acquired and are out of the
two methods, the lock is free. -/
theorem C53_released_partial {s : State} (h : AtomicExec init s)
    (hall : ∀ t, s.th t = ⟨.idle, 0⟩) : s.locked = false := by
  obtain ⟨o, h1, h2, h3, -⟩ := inv_atomic h inv_init
  cases hl : s.locked with
  | false => rfl
  | true =>
    have h2 := h2 hl
    have ho := hall o
    unfold Owns at h2
    grind

/-- **C53 (partial)**: a thread that holds the lock once and releases it frees it for the others, and
one that holds it twice keeps it: after the release it is still held. -/
theorem C53_release_step_partial {s s' : State} {t : Nat} (h : AtomicExec init s) (hs : Step (.run t) s s')
    (ha : ∀ u, u ≠ t → ¬ Entering s u) (hd : (s'.th t).depth < (s.th t).depth) :
    (s'.locked = true ↔ 0 < (s'.th t).depth) := by
  obtain ⟨o, hi⟩ := inv_atomic h inv_init
  obtain ⟨k1, k2, k3, -⟩ := inv_step hs ha hi
  obtain ⟨h1, h2, h3, -⟩ := hi
  have k1t := fun h => k1 h t
  have k3t := fun h => k3 h t
  have h1t := fun h => h1 h t
  have h3t := fun h => h3 h t
  generalize hl : Label.run t = l at hs
  cases hs with
  | raised _ => cases hl
  | _ =>
    injection hl with hl; subst hl
    simp only [State.put, Owns, Away, owner'] at *
    grind

/-- **C53 (counterexample)**: the lock does not exclude. Thread 0 imports something and
releases the lock, which leaves its name in `locker`. Thread 1 takes the lock (line 583) and is
stopped before line 584. Thread 0 imports again: the lock is held, `locker` is thread 0, so it
enters. Then thread 1 goes on: both are inside, and no exception was raised. -/
theorem C53_race_counterexample :
    ∃ ls s, Exec ls init s ∧ (∀ l ∈ ls, ∃ t, l = .run t) ∧ Inside s 0 ∧ Inside s 1 := by
  refine ⟨[.run 0, .run 0, .run 0, .run 0, .run 0, .run 0, .run 0, .run 0, .run 1, .run 1, .run 1, .run 0,
    .run 0, .run 0, .run 0, .run 1, .run 1], ?s, ?_, by simp, ?_⟩
  case refine_1 =>
    refine .cons (.call (d := 0) rfl) ?_
    refine .cons (.chk (d := 0) rfl) ?_
    refine .cons (.want (d := 0) rfl rfl) ?_
    refine .cons (.setLocker (d := 0) rfl) ?_
    refine .cons (.setCount (d := 0) rfl) ?_
    refine .cons (.callRel (d := 0) rfl) ?_
    refine .cons (.rel (d := 1) rfl) ?_
    refine .cons (.unlock (d := 1) rfl) ?_
    refine .cons (.call (d := 0) rfl) ?_
    refine .cons (.chk (d := 0) rfl) ?_
    refine .cons (.want (d := 0) rfl rfl) ?_
    refine .cons (.call (d := 0) rfl) ?_
    refine .cons (.chk (d := 0) rfl) ?_
    refine .cons (.cmp (d := 0) rfl) ?_
    refine .cons (.inc (d := 0) rfl) ?_
    refine .cons (.setLocker (d := 0) rfl) ?_
    refine .cons (.setCount (d := 0) rfl) ?_
    exact .nil
  · exact ⟨by unfold Inside; decide, by unfold Inside; decide⟩

/-- **C53 (counterexample)**: an import that raises leaves the lock held though nobody is
inside, and then every other thread waits for ever: no step frees the lock. -/
theorem C53_raised_counterexample :
    ∃ ls s, Exec ls init s ∧ s.locked = true ∧ ∀ t, s.th t = ⟨.idle, 0⟩ := by
  refine ⟨[.run 0, .run 0, .run 0, .run 0, .run 0, .raised 0], ?s, ?_, ?_⟩
  case refine_1 =>
    refine .cons (.call (d := 0) rfl) ?_
    refine .cons (.chk (d := 0) rfl) ?_
    refine .cons (.want (d := 0) rfl rfl) ?_
    refine .cons (.setLocker (d := 0) rfl) ?_
    refine .cons (.setCount (d := 0) rfl) ?_
    refine .cons (.raised (d := 0) rfl) ?_
    exact .nil
  · refine ⟨rfl, fun t => ?_⟩
    by_cases h : t = 0
    · subst h; rfl
    · simp [State.put, init, h]

/-- The hypotheses are met: a thread that acquires is inside. -/
example : ∃ s, AtomicExec init s ∧ Inside s 0 ∧ (s.th 0).depth = 1 ∧ s.locked = true := by
  refine ⟨_, .snoc (.snoc (.snoc (.snoc (.snoc .nil (.call (t := 0) (d := 0) rfl) ?_) (.chk (t := 0) (d := 0) rfl) ?_)
    (.want (t := 0) (d := 0) rfl rfl) ?_) (.setLocker (t := 0) (d := 0) rfl) ?_) (.setCount (t := 0) (d := 0) rfl) ?_, ?_⟩
  all_goals first
    | (intro u hu h
       simp only [Entering, State.put, init] at h
       grind)
    | exact ⟨by unfold Inside; decide, by decide, by decide⟩

end Cheetah.ImportLock
