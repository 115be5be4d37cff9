import Verif.Turbo
/-
C92: templates loaded for TurboGears are those of the current files.
-/
namespace Cheetah.Turbo

variable {C : Type}

/-- What happens in the life of a server: a file is changed or removed, or a template is loaded. -/
inductive Event where
  | edit (name : Str) (f : Option File)
  | load (name : Str)

/-- The state after an event. -/
def after (e : Env C) (s : St C) : Event → St C
  | .edit n f => { s with files := put s.files n f }
  | .load n => (load e s n [] []).2

/-- The state after a history. -/
def run (e : Env C) (s : St C) (h : List Event) : St C := h.foldl (after e) s

/-- The versions of templates that come up are those of `V`; each can be compiled, and the time of change tells the versions of a template
apart. -/
structure Versions (e : Env C) (V : Str → File → Prop) : Prop where
  good : ∀ n f, V n f → ∃ c, e.compile f.source = some c
  apart : ∀ n f g, V n f → V n g → f.mtime = g.mtime → f = g

/-- All files of the history are in `V`. -/
def Among (V : Str → File → Prop) (h : List Event) : Prop := ∀ n f, Event.edit n (some f) ∈ h → V n f

/-- A server that has just started: nothing has been loaded. -/
def Fresh (V : Str → File → Prop) (s : St C) : Prop := (∀ n, s.times n = none) ∧ ∀ n f, s.files n = some f → V n f

/-- The templates that have been loaded are compiled from the version whose time was noted. -/
def Inv (e : Env C) (V : Str → File → Prop) (s : St C) : Prop :=
  (∀ n f, s.files n = some f → V n f) ∧
  ∀ n t, s.times n = some t → ∃ f, V n f ∧ f.mtime = t ∧ s.modules n = e.compile f.source

theorem load_name (e : Env C) (s : St C) {n : Str} (hn : n ≠ []) : load e s n [] [] = loadModule e s n := by
  unfold load
  simp [hn]

theorem load_empty (e : Env C) (s : St C) : load e s [] [] [] = (.error .typeError, s) := rfl

/-- One load, in a state that satisfies the invariant. -/
theorem load_inv {e : Env C} {V : Str → File → Prop} (hv : Versions e V) (hp : e.precompiled = false) {s : St C} (hi : Inv e V s) (n : Str) :
    Inv e V (loadModule e s n).2 ∧ ∀ f, '.' ∈ n → s.files n = some f → ∃ c, e.compile f.source = some c ∧ (loadModule e s n).1 = .ok c := by
  unfold loadModule
  by_cases hd : '.' ∉ n
  · rw [if_pos hd]; exact ⟨hi, fun f h => absurd h hd⟩
  rw [if_neg hd, hp]
  simp only [Bool.false_eq_true, if_false]
  obtain ⟨hf, ht⟩ := hi
  cases hfile : s.files n with
  | none => cases s.times n <;> exact ⟨⟨hf, ht⟩, by simp⟩
  | some f =>
    have vf := hf n f hfile
    obtain ⟨c, hc⟩ := hv.good n f vf
    have step : ∀ m, Inv e V { files := s.files, times := put s.times n (some f.mtime), modules := put m n (some c) } ∨ ∃ k, k ≠ n ∧ m k ≠ s.modules k := by
      intro m
      by_cases hm : ∀ k, k ≠ n → m k = s.modules k
      · left
        refine ⟨hf, fun k t hk => ?_⟩
        by_cases e1 : k = n
        · subst e1
          simp [put] at hk
          exact ⟨f, vf, hk, by simp [put, hc]⟩
        · simp [put, e1] at hk
          obtain ⟨g, h1, h2, h3⟩ := ht k t hk
          exact ⟨g, h1, h2, by simp [put, e1, hm k e1, h3]⟩
      · right
        simp only [Classical.not_forall] at hm
        obtain ⟨k, h1, h2⟩ := hm
        exact ⟨k, h1, h2⟩
    cases htime : s.times n with
    | none =>
      simp only [recompile, hc]
      refine ⟨?_, fun g _ hg => ⟨c, by cases hg; exact ⟨hc, rfl⟩⟩⟩
      rcases step s.modules with h | ⟨k, _, h⟩
      · exact h
      · exact absurd rfl h
    | some t =>
      obtain ⟨g, h1, h2, h3⟩ := ht n t htime
      obtain ⟨d, hd'⟩ := hv.good n g h1
      rw [hd'] at h3
      by_cases e1 : t = f.mtime
      · have : g = f := hv.apart n g f h1 vf (h2.trans e1)
        subst this
        simp only [e1, ne_eq, not_true_eq_false, if_false, import_, h3]
        exact ⟨⟨hf, ht⟩, fun k _ hk => ⟨d, by cases hk; exact ⟨hd', rfl⟩⟩⟩
      · simp only [ne_eq, e1, not_false_eq_true, if_true, h3, recompile, hc]
        refine ⟨?_, fun g _ hg => ⟨c, by cases hg; exact ⟨hc, rfl⟩⟩⟩
        rcases step (put s.modules n none) with h | ⟨k, h0, h⟩
        · exact h
        · exact absurd (by simp [put, h0]) h

theorem run_inv {e : Env C} {V : Str → File → Prop} (hv : Versions e V) (hp : e.precompiled = false) :
    ∀ (h : List Event) (s : St C), Inv e V s → Among V h → Inv e V (run e s h)
  | [], _, hi, _ => hi
  | ev :: h, s, hi, ha => by
    refine run_inv hv hp h _ ?_ fun n f hm => ha n f (List.mem_cons_of_mem _ hm)
    cases ev with
    | edit n f =>
      refine ⟨fun k g hk => ?_, hi.2⟩
      by_cases e1 : k = n
      · subst e1
        simp [after, put] at hk
        subst hk
        exact ha k g (List.mem_cons_self ..)
      · simp [after, put, e1] at hk
        exact hi.1 k g hk
    | load n =>
      by_cases hn : n = []
      · subst hn; exact hi
      · show Inv e V (load e s n [] []).2
        rw [load_name e s hn]
        exact (load_inv hv hp hi n).1

/-- **C92 (partial).** After every history of changes and loads, a template in a package that is loaded comes from its current file.
Missing: versions that do not compile (`C92_stuck_counterexample`) and versions with the same time (`C92_stale_counterexample`). -/
theorem C92_current_partial (e : Env C) (V : Str → File → Prop) (hv : Versions e V) (hp : e.precompiled = false) (s : St C) (hs : Fresh V s)
    (h : List Event) (ha : Among V h) (n : Str) (f : File) (hd : '.' ∈ n) (hf : (run e s h).files n = some f) :
    ∃ c, e.compile f.source = some c ∧ (load e (run e s h) n [] []).1 = .ok c := by
  have hi : Inv e V s := ⟨hs.2, fun n t ht => by rw [hs.1 n] at ht; cases ht⟩
  rw [load_name e _ (by rintro rfl; cases hd)]
  exact (load_inv hv hp (run_inv hv hp h s hi ha) n).2 f hd hf

/-- The template has been tried and is not among the modules. -/
def Lost (s : St C) (n : Str) : Prop := (∃ t, s.times n = some t) ∧ s.modules n = none

theorem load_lost {e : Env C} (hp : e.precompiled = false) {s : St C} {n : Str} (hd : e.disk n = none) (hl : Lost s n) :
    Lost (loadModule e s n).2 n ∧ ∃ err, (loadModule e s n).1 = .error err := by
  obtain ⟨⟨t, ht⟩, hm⟩ := hl
  unfold loadModule
  by_cases hn : '.' ∉ n
  · rw [if_pos hn]; exact ⟨⟨⟨t, ht⟩, hm⟩, _, rfl⟩
  rw [if_neg hn, hp]
  simp only [Bool.false_eq_true, if_false, ht]
  cases hf : s.files n with
  | none => exact ⟨⟨⟨t, ht⟩, hm⟩, _, rfl⟩
  | some f =>
    by_cases e1 : t = f.mtime
    · simp only [e1, ne_eq, not_true_eq_false, if_false, import_, hm, hd]
      exact ⟨⟨⟨t, ht⟩, hm⟩, _, rfl⟩
    · simp only [ne_eq, e1, not_false_eq_true, if_true, hm]
      exact ⟨⟨⟨f.mtime, by simp [put]⟩, hm⟩, _, rfl⟩

theorem other_kept (e : Env C) (s : St C) {n k : Str} (h : k ≠ n) :
    (loadModule e s n).2.times k = s.times k ∧ (loadModule e s n).2.modules k = s.modules k := by
  unfold loadModule recompile import_
  repeat' split
  all_goals simp [put, h]

theorem run_lost {e : Env C} (hp : e.precompiled = false) {n : Str} (hd : e.disk n = none) :
    ∀ (h : List Event) (s : St C), Lost s n → Lost (run e s h) n
  | [], _, hl => hl
  | ev :: h, s, hl => by
    refine run_lost hp hd h _ ?_
    cases ev with
    | edit k f => exact hl
    | load k =>
      by_cases hk : k = []
      · subst hk; exact hl
      · show Lost (load e s k [] []).2 n
        rw [load_name e s hk]
        by_cases e1 : n = k
        · subst e1; exact (load_lost hp hd hl).1
        · obtain ⟨h1, h2⟩ := other_kept e s e1
          unfold Lost
          rw [h1, h2]
          exact hl

/-- **C92 (violated).** A template that is loaded once while it does not compile can never be loaded again, whatever is done to its file afterwards. -/
theorem C92_stuck_counterexample (e : Env C) (hp : e.precompiled = false) (s : St C) (n : Str) (f : File) (hn : '.' ∈ n) (hd : e.disk n = none)
    (h0 : s.times n = none) (hm : s.modules n = none) (hf : s.files n = some f) (hc : e.compile f.source = none) (h : List Event) :
    ∃ err, (load e (run e s (.load n :: h)) n [] []).1 = .error err := by
  have hne : n ≠ [] := by rintro rfl; cases hn
  have hl : Lost (after e s (.load n)) n := by
    show Lost (load e s n [] []).2 n
    rw [load_name e s hne]
    unfold loadModule
    rw [if_neg (by simpa using hn), hp]
    simp only [Bool.false_eq_true, if_false, h0, hf, recompile, hc]
    exact ⟨⟨f.mtime, by simp [put]⟩, hm⟩
  rw [load_name e _ hne]
  exact (load_lost hp hd (run_lost hp hd h _ hl)).2

/-- **C92 (violated).** A change of the file that keeps its time is not noticed. -/
theorem C92_stale_counterexample (e : Env C) (hp : e.precompiled = false) (s : St C) (n : Str) (f g : File) (c : C) (hn : '.' ∈ n)
    (h0 : s.times n = none) (hf : s.files n = some f) (hc : e.compile f.source = some c) (ht : g.mtime = f.mtime) :
    (load e (run e s [.load n, .edit n (some g)]) n [] []).1 = .ok c := by
  have hne : n ≠ [] := by rintro rfl; cases hn
  rw [load_name e _ hne]
  simp only [run, List.foldl_cons, List.foldl_nil, after]
  rw [load_name e s hne]
  simp [loadModule, hn, hp, h0, hf, recompile, hc, put, ht, import_]

/-- **C92.** Exactly one of the three arguments must be given, and templates must be in a package. -/
theorem C92_arguments (e : Env C) (s : St C) (t x f : Str) (c : C) (h : (load e s t x f).1 = .ok c) : x = [] ∧ f = [] ∧ '.' ∈ t := by
  unfold load at h
  split at h
  · cases h
  · rename_i h1
    split at h
    · rename_i h2
      by_cases hx : x = [] <;> by_cases hf : f = [] <;> simp [h2, hx, hf] at h1
      refine ⟨hx, hf, ?_⟩
      unfold loadModule at h
      split at h
      · cases h
      · rename_i h3; simpa using h3
    · cases h

/-- **C92.** With the option `cheetah.precompiled` the files of the templates are never looked at. -/
theorem C92_precompiled (e : Env C) (hp : e.precompiled = true) (s : St C) (n : Str) (files : Str → Option File) :
    (load e { s with files := files } n [] []).1 = (load e s n [] []).1 := by
  by_cases hn : n = []
  · subst hn; rfl
  · rw [load_name _ _ hn, load_name _ _ hn]
    unfold loadModule import_
    rw [hp]
    simp only [if_true]
    repeat' split
    all_goals simp_all

/-- A compiler that refuses texts with an exclamation mark; the class is the text. -/
def demoEnv : Env Str := { compile := fun s => if '!' ∈ s then none else some s, disk := fun _ => none, precompiled := false }

/-- A server with one template. -/
def demoSt : St Str := { files := fun n => if n = c!"p.t" then some ⟨1, c!"one"⟩ else none, times := fun _ => none, modules := fun _ => none }

/-- Its versions. -/
def demoV (n : Str) (f : File) : Prop := n = c!"p.t" ∧ (f = ⟨1, c!"one"⟩ ∨ f = ⟨2, c!"two"⟩)

example : Versions demoEnv demoV := by
  constructor
  · rintro n f ⟨-, rfl | rfl⟩
    · exact ⟨c!"one", by decide⟩
    · exact ⟨c!"two", by decide⟩
  · rintro n f g ⟨-, rfl | rfl⟩ ⟨-, rfl | rfl⟩ h <;> first | rfl | (simp at h)
example : Fresh demoV demoSt := by
  refine ⟨fun _ => rfl, fun n f h => ?_⟩
  simp only [demoSt] at h
  split at h
  · rename_i h'; cases h; exact ⟨h', .inl rfl⟩
  · cases h
example : Among demoV [.load c!"p.t", .edit c!"p.t" (some ⟨2, c!"two"⟩)] := by
  intro n f h
  simp at h
  exact ⟨h.1, .inr h.2⟩
example : (load demoEnv (run demoEnv demoSt [.load c!"p.t", .edit c!"p.t" (some ⟨2, c!"two"⟩)]) c!"p.t" [] []).1 = .ok c!"two" := by decide +kernel
example : (load demoEnv (run demoEnv demoSt [.edit c!"p.t" (some ⟨2, c!"two!"⟩), .load c!"p.t", .edit c!"p.t" (some ⟨3, c!"two"⟩)]) c!"p.t" [] []).1 =
    .error .keyError := by decide +kernel

end Cheetah.Turbo
