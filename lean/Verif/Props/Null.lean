import Verif.Null
import Verif.Props.NameMapper
/-
C87: the object that stands for nothing.
-/
namespace Cheetah.Null
open NameMapper

variable {Obj σ : Type}

/-! ### Specification -/

/-- A link of a chain: `.a.b.c` as the name mapper reads it (with or without calling), `[i]`, or `(args)`. -/
inductive Link (Obj : Type) where
  | name (dotted : Str) (exec : Bool)
  | item (i : Option Obj)
  | call (args : List (Option Obj))

/-- The outcome of one link; `c` tells whether names are looked up by the C or by the Python name mapper. -/
def follow (c : Bool) (w : CWorld Obj σ) (own : Str → Obj) (item : Obj → Option Obj → Except Exc (Option Obj))
    (call : σ → Obj → List (Option Obj) → Except Exc (Option Obj) × σ) (s : σ) (x : Option Obj) : Link Obj → Except Exc (Option Obj) × σ
  | .name d exec =>
    let r := if c then cValueForName (withNull w own) exec s x d else valueForName (withNull w own).toWorld exec s x d
    (r.val, r.st)
  | .item i => (getItem item x i, s)
  | .call as => callWith call s x as

/-- The outcome of a chain. -/
def followAll (c : Bool) (w : CWorld Obj σ) (own : Str → Obj) (item : Obj → Option Obj → Except Exc (Option Obj))
    (call : σ → Obj → List (Option Obj) → Except Exc (Option Obj) × σ) : σ → Option Obj → List (Link Obj) → Except Exc (Option Obj) × σ
  | s, x, [] => (.ok x, s)
  | s, x, l :: ls =>
    match follow c w own item call s x l with
    | (.error e, s) => (.error e, s)
    | (.ok y, s) => followAll c w own item call s y ls

/-- A dotted name of ordinary words: not empty, and none begins with two underscores. -/
def Ordinary (d : Str) : Prop := ∀ k ∈ splitCh '.' d, k ≠ [] ∧ ¬ c!"__" <+: k

/-! ### Lemmas -/

theorem not_own {k : Str} (h : ¬ c!"__" <+: k) : k ∉ ownAttrs := by
  have all : ∀ a ∈ ownAttrs, c!"__" <+: a := by decide
  exact fun hk => h (all k hk)

theorem isInstance_null (w : CWorld Obj σ) (own : Str → Obj) (s : σ) : isInstanceOrClass (withNull w own).toWorld s none = .ok true := by
  have h1 : hasattr (withNull w own).toWorld s none c!"__class__" = .ok true := by
    have : c!"__class__" ∈ ownAttrs := by decide
    simp [hasattr, withNull, this]
  have h2 : hasattr (withNull w own).toWorld s none c!"mro" = .ok true := by
    have : c!"mro" ∉ ownAttrs := by decide
    simp [hasattr, withNull, this]
  unfold isInstanceOrClass
  rw [h1, h2]
  rfl

theorem chunks_null (w : CWorld Obj σ) (own : Str → Obj) (exec : Bool) (s : σ) : ∀ ks : List Str, (∀ k ∈ ks, ¬ c!"__" <+: k) →
    valueForChunks (withNull w own).toWorld exec s none ks = ⟨.ok none, s, []⟩
  | [], _ => rfl
  | k :: ks, h => by
    have hk := not_own (h k List.mem_cons_self)
    have hn : nextObj (withNull w own).toWorld s none k = .ok none := by
      simp [nextObj, withNull, hk]
    have ha : autocall (withNull w own).toWorld exec s none = ⟨.ok none, s, []⟩ := by
      unfold autocall
      rw [isInstance_null]
      split <;> rfl
    rw [valueForChunks, hn]
    simp only [ha]
    rw [chunks_null w own exec s ks fun k' h' => h k' (List.mem_cons_of_mem _ h')]
    rfl

theorem cChunks_null (w : CWorld Obj σ) (own : Str → Obj) (exec : Bool) (s : σ) : ∀ ks : List Str,
    cValueForChunks (withNull w own) exec s none ks = ⟨.ok none, s, []⟩
  | [] => rfl
  | k :: ks => by
    have hc : cIsInstanceOrClass (withNull w own) s none = true := by
      have h1 : cHasAttr (withNull w own) s none c!"__class__" = true := by
        have : c!"__class__" ∈ ownAttrs := by decide
        simp [cHasAttr, withNull, this, Except.toOption]
      have h2 : cHasAttr (withNull w own) s none c!"mro" = true := by
        have : c!"mro" ∉ ownAttrs := by decide
        simp [cHasAttr, withNull, this, Except.toOption]
      simp [cIsInstanceOrClass, h1, h2]
    have hn : cNextObj (withNull w own) s none k = .ok none := rfl
    rw [cValueForChunks, hn]
    simp only [hc, Bool.not_true, Bool.and_false, Bool.false_eq_true, if_false]
    exact cChunks_null w own exec s ks

/-! ### C87 -/

/-- C87: whatever is asked of a null, by dotted names, subscripts and calls in any number and order, is the null, and nothing else happens; both name mappers
agree. The C name mapper takes at most thirteen periods in one name. -/
theorem C87_nothing_comes_of_nothing (c : Bool) (w : CWorld Obj σ) (own : Str → Obj) (item : Obj → Option Obj → Except Exc (Option Obj))
    (call : σ → Obj → List (Option Obj) → Except Exc (Option Obj) × σ) (ls : List (Link Obj))
    (h : ∀ d exec, Link.name d exec ∈ ls → Ordinary d ∧ ∃ k ks, getNameChunks d = .ok (k :: ks)) (s : σ) :
    followAll c w own item call s none ls = (.ok none, s) := by
  induction ls with
  | nil => rfl
  | cons l ls ih =>
    have h1 : follow c w own item call s none l = (.ok none, s) := by
      cases l with
      | name d exec =>
        obtain ⟨ho, k, ks, hk⟩ := h d exec List.mem_cons_self
        cases c with
        | true =>
          show ((cValueForName (withNull w own) exec s none d).val, (cValueForName (withNull w own) exec s none d).st) = _
          unfold cValueForName
          rw [hk]
          simp only [cChunks_null]
          rfl
        | false =>
          show ((valueForName (withNull w own).toWorld exec s none d).val, (valueForName (withNull w own).toWorld exec s none d).st) = _
          unfold valueForName valueForName'
          rw [chunks_null w own exec s _ fun k hk => (ho k hk).2]
          rfl
      | item i => rfl
      | call as => rfl
    rw [followAll, h1]
    exact ih fun d exec hm => h d exec (List.mem_cons_of_mem _ hm)

/-- C87: its text is empty, so a placeholder of it writes nothing; it equals what is false and differs from what is true. -/
theorem C87_text_and_equality_partial (str : Obj → Str) (truth : Obj → Option Bool) (x : Obj) (b : Bool) (h : truth x = some b) :
    strOf str none = [] ∧ eqNull truth (some x) = some (!b) ∧ neNull truth (some x) = some b := by
  refine ⟨rfl, ?_, ?_⟩
  · simp only [eqNull, truthOf, h, Option.map_some]
    cases b <;> rfl
  · simp only [neNull, truthOf, h, Option.map_some]
    cases b <;> rfl

/-- C87, violated in Python 3: testing a null, as in `#if $form.f1`, raises `TypeError`, because `__bool__` gives 0 and not `False`; so does comparing two
nulls. -/
theorem C87_truth_counterexample (truth : Obj → Option Bool) :
    truthOf truth none = none ∧ eqNull truth none = none ∧ neNull truth none = none := ⟨rfl, rfl, rfl⟩

/-- C87, violated for names that every object has: the Python name mapper finds the null's own attribute, the C one does not look there. -/
theorem C87_own_attribute_counterexample (w : CWorld Obj σ) (own : Str → Obj) (s : σ) :
    (valueForName (withNull w own).toWorld false s none c!"__doc__").val = .ok (some (own c!"__doc__")) ∧
    (cValueForName (withNull w own) false s none c!"__doc__").val = .ok none := ⟨rfl, rfl⟩

/-! ### Examples -/

example : Ordinary c!"anything.might" ∧ ∃ k ks, getNameChunks c!"anything.might" = .ok (k :: ks) :=
  ⟨by unfold Ordinary; decide, _, _, rfl⟩

end Cheetah.Null
