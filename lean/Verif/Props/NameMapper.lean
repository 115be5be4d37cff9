import Verif.NameMapper
/-
Properties C01-C08: NameMapper lookups.
-/
namespace Cheetah.NameMapper
variable {Obj σ : Type}

/-! ### Specification vocabulary -/

/-- "`o` has the component `k` with value `v`": a mapping's key first, an
attribute otherwise. -/
inductive Component (w : World Obj σ) (s : σ) (o : Obj) (k : Str) : Obj → Prop
  | key {v} : w.isMapping o = true → w.item s o k = some v → Component w s o k v
  | attr {v} : ¬ (w.isMapping o = true ∧ ∃ u, w.item s o k = some u) →
      w.attr s o k = .ok v → Component w s o k v

/-- "`o` has the component `k`". -/
def Has (w : World Obj σ) (s : σ) (o : Obj) (k : Str) : Prop := ∃ v, Component w s o k v

/-- "`o` does not have the component `k`": no such key, and reading the attribute raises
AttributeError. -/
def Lacks (w : World Obj σ) (s : σ) (o : Obj) (k : Str) : Prop :=
  ¬ (w.isMapping o = true ∧ ∃ v, w.item s o k = some v) ∧ w.attr s o k = .error .attributeError

/-- The first component of a dotted name: the text before the first dot. -/
def head (name : Str) : Str := name.takeWhile (· != '.')

/-- Reading an attribute never raises anything but AttributeError. -/
def Benign (w : World Obj σ) : Prop :=
  ∀ s o k e, w.attr s o k = .error e → e = .attributeError

/-- Calling an object never raises. -/
def CallsSucceed (w : World Obj σ) : Prop :=
  ∀ s o, w.callable o = true → ∃ v, (w.call s o).1 = .ok v

/-- "has an attribute", in the sense of a successful `getattr`. -/
def HasAttr (w : World Obj σ) (s : σ) (o : Obj) (k : Str) : Prop :=
  ∃ v, w.attr s o k = .ok v

/-- A class or a plain instance (docs: such objects are never autocalled):
a type; or an object with a `mro`; or one with an `__init__` that is not a
function, method or builtin. -/
def ClassOrInstance (w : World Obj σ) (s : σ) (o : Obj) : Prop :=
  w.isType o = true ∨
  (HasAttr w s o c!"__class__" ∧
    (HasAttr w s o c!"mro" ∨
      (¬ HasAttr w s o c!"__func__" ∧ ¬ HasAttr w s o c!"__code__" ∧ ¬ HasAttr w s o c!"__self__" ∧
        HasAttr w s o c!"__init__")))

/-- Autocalling applies to `v`. -/
def AutoCalled (w : World Obj σ) (exec : Bool) (s : σ) (v : Obj) : Prop :=
  exec = true ∧ w.callable v = true ∧ ¬ ClassOrInstance w s v

/-- Reading the components of a dotted name one after the other from `o`,
calling what has to be called: final state, final value, objects called. -/
inductive Walk (w : World Obj σ) (exec : Bool) :
    σ → Obj → List Str → σ → Obj → List Obj → Prop
  | done {s o} : Walk w exec s o [] s o []
  | pass {s o k v ks s' o' cs} : Component w s o k v → ¬ AutoCalled w exec s v →
      Walk w exec s v ks s' o' cs → Walk w exec s o (k :: ks) s' o' cs
  | call {s o k v v' s1 ks s' o' cs} : Component w s o k v → AutoCalled w exec s v →
      w.call s v = (.ok v', s1) →
      Walk w exec s1 v' ks s' o' cs → Walk w exec s o (k :: ks) s' o' (v :: cs)

/-! ### Helper lemmas (kept next to their only users) -/

theorem nextObj_ok_iff {w : World Obj σ} {s o k v} :
    nextObj w s o k = .ok v ↔ Component w s o k v := by
  constructor
  · intro h
    unfold nextObj at h
    split at h
    · next h1 h2 => cases h; exact .key h1 h2
    · next hne =>
      split at h
      · next h3 =>
        cases h
        refine .attr ?_ h3
        rintro ⟨h1, u, h2⟩
        exact hne u h1 h2
      · exact absurd h (by simp)
      · exact absurd h (by simp)
  · intro h
    unfold nextObj
    cases h with
    | key h1 h2 => rw [h1, h2]
    | attr h1 h2 =>
      split
      · next a b => exact absurd ⟨a, _, b⟩ h1
      · rw [h2]

theorem nextObj_error {w : World Obj σ} (hb : Benign w) {s o k e}
    (h : nextObj w s o k = .error e) : e = .notFound (notFoundMsg k) ∧ ¬ Has w s o k := by
  have hn : ¬ Has w s o k := by
    rintro ⟨v, hv⟩
    rw [nextObj_ok_iff.2 hv] at h; cases h
  refine ⟨?_, hn⟩
  unfold nextObj at h
  split at h
  · cases h
  · split at h
    · cases h
    · cases h; rfl
    · next e' hne he =>
      exact absurd (hb _ _ _ _ he) hne

theorem hasattr_benign {w : World Obj σ} (hb : Benign w) (s o) (k : Str) :
    ∃ b, hasattr w s o k = .ok b ∧ (b = true ↔ HasAttr w s o k) := by
  unfold hasattr HasAttr
  cases h : w.attr s o k with
  | ok v => exact ⟨true, by simp⟩
  | error e => cases hb _ _ _ _ h; exact ⟨false, by simp⟩

theorem isInstanceOrClass_benign {w : World Obj σ} (hb : Benign w) (s o) :
    ∃ b, isInstanceOrClass w s o = .ok b ∧ (b = true ↔ ClassOrInstance w s o) := by
  obtain ⟨b1, h1, e1⟩ := hasattr_benign hb s o c!"__class__"
  obtain ⟨b2, h2, e2⟩ := hasattr_benign hb s o c!"mro"
  obtain ⟨b3, h3, e3⟩ := hasattr_benign hb s o c!"__func__"
  obtain ⟨b4, h4, e4⟩ := hasattr_benign hb s o c!"__code__"
  obtain ⟨b5, h5, e5⟩ := hasattr_benign hb s o c!"__self__"
  obtain ⟨b6, h6, e6⟩ := hasattr_benign hb s o c!"__init__"
  unfold isInstanceOrClass ClassOrInstance
  simp only [h1, h2, h3, h4, h5, h6, ← e1, ← e2, ← e3, ← e4, ← e5, ← e6]
  cases w.isType o <;> cases b1 <;> cases b2 <;> cases b3 <;> cases b4 <;> cases b5 <;> cases b6 <;>
    simp [bind, Except.bind, pure, Except.pure]

theorem autocall_benign {w : World Obj σ} (hb : Benign w) (exec s v) :
    (¬ AutoCalled w exec s v ∧ autocall w exec s v = ⟨.ok v, s, []⟩) ∨
    (AutoCalled w exec s v ∧ autocall w exec s v = ⟨(w.call s v).1, (w.call s v).2, [v]⟩) := by
  obtain ⟨b, h, e⟩ := isInstanceOrClass_benign hb s v
  unfold autocall AutoCalled
  by_cases hx : (exec && w.callable v) = true
  · simp only [hx, if_true, h]
    simp at hx
    cases b with
    | true => exact Or.inl ⟨by simp [← e], rfl⟩
    | false => exact Or.inr ⟨by simp [hx, ← e], rfl⟩
  · simp only [hx]
    left
    simp at hx ⊢
    intro h1 h2
    exact absurd (hx h1) (by simp [h2])

theorem valueForChunks_append (w : World Obj σ) (exec : Bool) (ks ls : List Str) :
    ∀ (s : σ) (o : Obj), valueForChunks w exec s o (ks ++ ls) =
      match valueForChunks w exec s o ks with
      | ⟨.error e, s', cs⟩ => ⟨.error e, s', cs⟩
      | ⟨.ok v, s', cs⟩ =>
        let r := valueForChunks w exec s' v ls
        ⟨r.val, r.st, cs ++ r.calls⟩ := by
  induction ks with
  | nil => intro s o; simp [valueForChunks]
  | cons k ks ih =>
    intro s o
    simp only [List.cons_append, valueForChunks]
    cases nextObj w s o k with
    | error e => rfl
    | ok v =>
      simp only
      cases ha : autocall w exec s v with
      | mk val s' cs =>
        cases val with
        | error e => rfl
        | ok v' =>
          simp only [ih]
          cases hv : valueForChunks w exec s' v' ks with
          | mk val2 s2 cs2 => cases val2 <;> simp

theorem valueForChunks_ok_iff {w : World Obj σ} (hb : Benign w) {exec : Bool} (ks : List Str) :
    ∀ {s o v s' cs}, valueForChunks w exec s o ks = ⟨.ok v, s', cs⟩ ↔
      Walk w exec s o ks s' v cs := by
  induction ks with
  | nil =>
    intro s o v s' cs
    simp only [valueForChunks]
    constructor
    · intro h; cases h; exact .done
    · intro h; cases h; rfl
  | cons k ks ih =>
    intro s o v s' cs
    simp only [valueForChunks]
    constructor
    · intro h
      split at h
      · cases h
      · next u hu =>
        rcases autocall_benign hb exec s u with ⟨h1, h2⟩ | ⟨h1, h2⟩
        · rw [h2] at h
          simp only [List.nil_append] at h
          refine .pass (nextObj_ok_iff.1 hu) h1 (ih.1 ?_)
          exact h
        · rw [h2] at h
          split at h
          · next hh => simp at h
          · next v' s1 cs1 hh =>
            simp at hh
            simp only [Res.mk.injEq] at h
            obtain ⟨hv, hs, hc⟩ := h
            rw [← hc, ← hh.2.2]
            refine .call (nextObj_ok_iff.1 hu) h1 (Prod.ext hh.1 hh.2.1) (ih.1 ?_)
            cases hr : valueForChunks w exec s1 v' ks with
            | mk a b c => rw [hr] at hv hs; simp_all
    · intro h
      cases h with
      | @pass _ _ _ u _ _ _ _ hc hn hw =>
        rw [nextObj_ok_iff.2 hc]
        rcases autocall_benign hb exec s u with ⟨h1, h2⟩ | ⟨h1, h2⟩
        · simp only [h2]
          rw [ih.2 hw]; simp
        · exact absurd h1 hn
      | @call _ _ _ u _ _ _ _ _ _ hc hn hcall hw =>
        rw [nextObj_ok_iff.2 hc]
        rcases autocall_benign hb exec s u with ⟨h1, h2⟩ | ⟨h1, h2⟩
        · exact absurd hn h1
        · simp only [h2, hcall]
          rw [ih.2 hw]; simp

theorem hasKey_eq {w : World Obj σ} {s o k b} (h : hasKey w s o k = .ok b) :
    (b = true ↔ Has w s o k) := by
  unfold hasKey at h
  split at h
  · next hc =>
    simp at hc
    cases h
    obtain ⟨v, hv⟩ := Option.isSome_iff_exists.1 hc.2
    simp only [true_iff]
    exact ⟨v, .key hc.1 hv⟩
  · next hc =>
    have hc' : ¬ (w.isMapping o = true ∧ ∃ u, w.item s o k = some u) := by
      rintro ⟨h1, u, h2⟩; simp [h1, h2] at hc
    unfold hasattr at h
    split at h
    · next v hv => cases h; simp only [true_iff]; exact ⟨v, .attr hc' hv⟩
    · next hv =>
      cases h; simp only [Bool.false_eq_true, false_iff]
      rintro ⟨v, hv'⟩
      cases hv' with
      | key h1 h2 => exact hc' ⟨h1, _, h2⟩
      | attr _ h2 => rw [hv] at h2; cases h2
    · cases h

theorem hasKey_benign {w : World Obj σ} (hb : Benign w) (s o k) :
    ∃ b, hasKey w s o k = .ok b := by
  unfold hasKey hasattr
  split
  · exact ⟨_, rfl⟩
  · cases h : w.attr s o k with
    | ok v => exact ⟨_, rfl⟩
    | error e => cases hb _ _ _ _ h; exact ⟨_, rfl⟩

theorem searchLoop_skip (w : World Obj σ) (s key) (found : Obj → Res Obj σ) (pre rest : List Obj)
    (h : ∀ n ∈ pre, hasKey w s n key = .ok false) :
    searchLoop w s key found (pre ++ rest) = searchLoop w s key found rest := by
  induction pre with
  | nil => rfl
  | cons n pre ih =>
    simp only [List.cons_append, searchLoop, h n (by simp)]
    exact ih fun m hm => h m (by simp [hm])

theorem splitCh_head (name : Str) : ∃ ks, splitCh '.' name = head name :: ks := by
  induction name with
  | nil => exact ⟨[], rfl⟩
  | cons c cs ih =>
    obtain ⟨ks, ih⟩ := ih
    by_cases hc : c = '.'
    · subst hc; exact ⟨_, by simp [splitCh, head]; rfl⟩
    · refine ⟨ks, ?_⟩
      simp [splitCh, hc, ih, head]

theorem firstChunk_eq (name : Str) : firstChunk name = head name := by
  obtain ⟨ks, h⟩ := splitCh_head name
  simp [firstChunk, h]

theorem hasKey_has {w : World Obj σ} {s : σ} {o : Obj} {k : Str} (h : Has w s o k) : hasKey w s o k = .ok true := by
  obtain ⟨v, h⟩ := h
  unfold hasKey hasattr
  cases h with
  | key h1 h2 => simp [h1, h2]
  | attr h1 h2 => split <;> simp [h2]

theorem hasKey_lacks {w : World Obj σ} {s : σ} {o : Obj} {k : Str} (h : Lacks w s o k) : hasKey w s o k = .ok false := by
  obtain ⟨h1, h2⟩ := h
  unfold hasKey hasattr
  rw [h2, if_neg]
  intro h
  simp only [Bool.and_eq_true, Option.isSome_iff_exists] at h
  exact h1 h

/-! ### C01 -/

/-- **C01.** If `ns` is the first namespace that has the first component of the
name (the earlier ones answer "no" to the has-key test), the whole lookup is
the lookup inside `ns`, whatever namespaces come after: no later namespace
influences value, error, calls or state, and there is no backtracking. -/
theorem C01_first_namespace_wins (w : World Obj σ) (exec : Bool) (s : σ)
    (pre : List Obj) (ns : Obj) (post : List Obj) (name : Str)
    (hpre : ∀ n ∈ pre, Lacks w s n (head name))
    (hns : Has w s ns (head name)) :
    valueFromSearchList w exec s (pre ++ ns :: post) name = valueForName' w exec s ns name := by
  unfold valueFromSearchList
  rw [firstChunk_eq, searchLoop_skip _ _ _ _ _ _ (fun n hn => hasKey_lacks (hpre n hn))]
  simp [searchLoop, hasKey_has hns]

/-- **C01, completeness.** A has-key test answering `b` means exactly that the
namespace does (`b = true`) or does not have the component. -/
theorem C01_hasKey_iff (w : World Obj σ) (s : σ) (o : Obj) (k : Str) (b : Bool)
    (h : hasKey w s o k = .ok b) : b = true ↔ Has w s o k := hasKey_eq h

/-- **C01, no namespace.** If no namespace has the component, the lookup raises
NotFound for that component and changes nothing. -/
theorem C01_none (w : World Obj σ) (exec : Bool) (s : σ) (sl : List Obj) (name : Str)
    (h : ∀ n ∈ sl, Lacks w s n (head name)) :
    valueFromSearchList w exec s sl name =
      ⟨.error (.notFound (notFoundMsg (head name))), s, []⟩ := by
  unfold valueFromSearchList
  rw [firstChunk_eq]
  have := searchLoop_skip w s (head name) (fun ns => valueForName' w exec s ns name) sl [] (fun n hn => hasKey_lacks (h n hn))
  rw [List.append_nil] at this
  rw [this]; rfl

/-! ### C02 -/

/-- **C02.** Looking up `p.q` is looking up `p`, then `q` on the result: same
value or error, same final state, same calls in the same order. -/
theorem C02_dotted_composition (w : World Obj σ) (exec : Bool) (s : σ) (o : Obj) (p q : Str) :
    valueForName' w exec s o (p ++ '.' :: q) =
      match valueForName' w exec s o p with
      | ⟨.error e, s', cs⟩ => ⟨.error e, s', cs⟩
      | ⟨.ok v, s', cs⟩ =>
        ⟨(valueForName' w exec s' v q).val, (valueForName' w exec s' v q).st,
          cs ++ (valueForName' w exec s' v q).calls⟩ := by
  unfold valueForName'
  rw [splitCh_append_sep, valueForChunks_append]

/-- **C02 for the exported `valueForName`.** The same up to the annotation of a
NotFound message: values, non-NotFound errors, states and calls agree. -/
theorem C02_valueForName (w : World Obj σ) (exec : Bool) (s : σ) (o : Obj) (p q : Str)
    (v : Obj) (s' : σ) (cs : List Obj)
    (h : valueForName w exec s o p = ⟨.ok v, s', cs⟩) :
    (valueForName w exec s o (p ++ '.' :: q)).st = (valueForName w exec s' v q).st ∧
    (valueForName w exec s o (p ++ '.' :: q)).calls = cs ++ (valueForName w exec s' v q).calls ∧
    (∀ u, (valueForName w exec s o (p ++ '.' :: q)).val = .ok u ↔
      (valueForName w exec s' v q).val = .ok u) ∧
    ((∃ m, (valueForName w exec s o (p ++ '.' :: q)).val = .error (.notFound m)) ↔
      (∃ m, (valueForName w exec s' v q).val = .error (.notFound m))) := by
  unfold valueForName Res.wrap at *
  have hp : valueForName' w exec s o p = ⟨.ok v, s', cs⟩ := by
    cases hr : valueForName' w exec s o p with
    | mk a b c =>
      rw [hr] at h
      simp only [Res.mk.injEq] at h
      cases a with
      | ok a => simp [Except.mapError] at h; simp [h]
      | error e => simp [Except.mapError] at h
  rw [C02_dotted_composition, hp]
  simp only [true_and]
  cases (valueForName' w exec s' v q).val with
  | ok u => simp [Except.mapError]
  | error e => cases e <;> simp [Except.mapError, wrapExc]

/-! ### C03 -/

/-- Some component of the path is missing: the components before it can be
walked and the value reached does not have the next one, `k`. -/
def MissingAt (w : World Obj σ) (exec : Bool) (s : σ) (o : Obj) (ks : List Str) (k : Str) : Prop :=
  ∃ pre post s' o' cs, ks = pre ++ k :: post ∧ Walk w exec s o pre s' o' cs ∧ ¬ Has w s' o' k

theorem chunks_trichotomy {w : World Obj σ} (hb : Benign w) (hc : CallsSucceed w) {exec : Bool}
    (ks : List Str) : ∀ s o,
      (∃ v s' cs, valueForChunks w exec s o ks = ⟨.ok v, s', cs⟩ ∧
        ∀ k, ¬ MissingAt w exec s o ks k) ∨
      (∃ k, MissingAt w exec s o ks k ∧
        (∀ k', MissingAt w exec s o ks k' → k' = k) ∧
        (valueForChunks w exec s o ks).val = .error (.notFound (notFoundMsg k))) := by
  induction ks with
  | nil =>
    intro s o
    refine Or.inl ⟨o, s, [], rfl, ?_⟩
    rintro k ⟨pre, post, _, _, _, h, _⟩
    simp at h
  | cons k ks ih =>
    intro s o
    simp only [valueForChunks]
    cases hn : nextObj w s o k with
    | error e =>
      obtain ⟨rfl, hh⟩ := nextObj_error hb hn
      refine Or.inr ⟨k, ⟨[], ks, s, o, [], rfl, .done, hh⟩, ?_, rfl⟩
      rintro k' ⟨pre, post, s', o', cs, he, hw, hm⟩
      cases pre with
      | nil => simp at he; exact he.1.symm
      | cons p pre =>
        simp at he
        obtain ⟨rfl, rfl⟩ := he
        cases hw with
        | pass h1 _ _ => exact absurd ⟨_, h1⟩ hh
        | call h1 _ _ _ => exact absurd ⟨_, h1⟩ hh
    | ok v =>
      have hcomp := nextObj_ok_iff.1 hn
      -- the object passed on, its state and the calls made
      obtain ⟨v1, s1, c1, ha, hwalk⟩ : ∃ v1 s1 c1, autocall w exec s v = ⟨.ok v1, s1, c1⟩ ∧
          (∀ {pre s' o' cs}, Walk w exec s o (k :: pre) s' o' cs ↔
            ∃ cs', cs = c1 ++ cs' ∧ Walk w exec s1 v1 pre s' o' cs') := by
        have huniq : ∀ u, Component w s o k u → u = v := by
          intro u hu; rw [← nextObj_ok_iff] at hu; rw [hn] at hu; cases hu; rfl
        rcases autocall_benign hb exec s v with ⟨h1, h2⟩ | ⟨h1, h2⟩
        · refine ⟨v, s, [], h2, ?_⟩
          intro pre s' o' cs
          constructor
          · intro h
            cases h with
            | pass a b c => cases huniq _ a; exact ⟨_, rfl, c⟩
            | call a b c d => cases huniq _ a; exact absurd b h1
          · rintro ⟨cs', rfl, h⟩; exact .pass hcomp h1 h
        · obtain ⟨v', hv'⟩ := hc s v h1.2.1
          refine ⟨v', (w.call s v).2, [v], by rw [h2, hv'], ?_⟩
          intro pre s' o' cs
          constructor
          · intro h
            cases h with
            | pass a b c => cases huniq _ a; exact absurd h1 b
            | call a b c d =>
              cases huniq _ a
              rw [c] at hv'; cases hv'
              rw [c]; exact ⟨_, rfl, d⟩
          · rintro ⟨cs', rfl, h⟩; exact .call hcomp h1 (Prod.ext hv' rfl) h
      have hmiss : ∀ k', MissingAt w exec s o (k :: ks) k' ↔ MissingAt w exec s1 v1 ks k' := by
        intro k'
        constructor
        · rintro ⟨pre, post, s', o', cs, he, hw, hm⟩
          cases pre with
          | nil =>
            simp at he
            obtain ⟨rfl, rfl⟩ := he
            cases hw
            exact absurd ⟨_, hcomp⟩ hm
          | cons p pre =>
            simp at he
            obtain ⟨rfl, rfl⟩ := he
            obtain ⟨cs', _, hw'⟩ := hwalk.1 hw
            exact ⟨pre, post, s', o', cs', rfl, hw', hm⟩
        · rintro ⟨pre, post, s', o', cs, he, hw, hm⟩
          exact ⟨k :: pre, post, s', o', c1 ++ cs, by simp [he], hwalk.2 ⟨_, rfl, hw⟩, hm⟩
      simp only [ha]
      rcases ih s1 v1 with ⟨u, s', cs, h1, h2⟩ | ⟨k', h1, h2, h3⟩
      · refine Or.inl ⟨u, s', c1 ++ cs, by rw [h1], fun k' => by rw [hmiss]; exact h2 k'⟩
      · exact Or.inr ⟨k', (hmiss k').2 h1, fun k'' h => h2 k'' ((hmiss k'').1 h), h3⟩

theorem firstChunk_head (name : Str) : ∃ ks, splitCh '.' name = firstChunk name :: ks := by
  unfold firstChunk
  obtain ⟨k, ks, h⟩ := List.exists_cons_of_ne_nil (splitCh_ne_nil '.' name)
  rw [h]; exact ⟨ks, rfl⟩

/-- **C03, dichotomy.** When attribute reads raise only AttributeError and calls
succeed, a lookup in a search list either returns a value, and then no
component is missing, or raises NotFound naming the missing component `k`:
the first component if no namespace has it, otherwise the one missing on the
path inside the first namespace that has the first component. -/
theorem C03_value_or_notFound (w : World Obj σ) (hb : Benign w) (hc : CallsSucceed w)
    (exec : Bool) (s : σ) (sl : List Obj) (name : Str) :
    ((∀ ns ∈ sl, ¬ Has w s ns (head name)) ∧
      (valueFromSearchList w exec s sl name).val =
        .error (.notFound (notFoundMsg (head name)))) ∨
    (∃ pre ns post, sl = pre ++ ns :: post ∧ (∀ n ∈ pre, ¬ Has w s n (head name)) ∧
      Has w s ns (head name) ∧
      ((∃ v s' cs, Walk w exec s ns (splitCh '.' name) s' v cs ∧
          (∀ k, ¬ MissingAt w exec s ns (splitCh '.' name) k) ∧
          valueFromSearchList w exec s sl name = ⟨.ok v, s', cs⟩) ∨
       (∃ k, MissingAt w exec s ns (splitCh '.' name) k ∧
          (valueFromSearchList w exec s sl name).val = .error (.notFound (notFoundMsg k))))) := by
  have hkey : ∀ n, Lacks w s n (head name) ↔ ¬ Has w s n (head name) := by
    intro n
    constructor
    · rintro ⟨h1, h2⟩ ⟨v, h⟩
      cases h with
      | key h3 h4 => exact h1 ⟨h3, _, h4⟩
      | attr h3 h4 => rw [h2] at h4; cases h4
    · intro h
      have hno : ¬ (w.isMapping n = true ∧ ∃ v, w.item s n (head name) = some v) :=
        fun ⟨h1, v, h2⟩ => h ⟨v, .key h1 h2⟩
      refine ⟨hno, ?_⟩
      cases ha : w.attr s n (head name) with
      | ok v => exact absurd ⟨v, .attr hno ha⟩ h
      | error e => rw [hb _ _ _ _ ha]
  by_cases hall : ∀ ns ∈ sl, ¬ Has w s ns (head name)
  · left
    refine ⟨hall, ?_⟩
    rw [C01_none w exec s sl name (fun n hn => (hkey n).2 (hall n hn))]
  · right
    -- split at the first namespace having the component
    have : ∃ pre ns post, sl = pre ++ ns :: post ∧ (∀ n ∈ pre, ¬ Has w s n (head name)) ∧
        Has w s ns (head name) := by
      clear hkey
      induction sl with
      | nil => simp at hall
      | cons n sl ih =>
        by_cases hn : Has w s n (head name)
        · exact ⟨[], n, sl, rfl, by simp, hn⟩
        · have : ¬ ∀ ns ∈ sl, ¬ Has w s ns (head name) := by
            intro h; apply hall; intro m hm
            simp at hm; rcases hm with rfl | hm
            · exact hn
            · exact h m hm
          obtain ⟨pre, ns, post, rfl, h1, h2⟩ := ih this
          exact ⟨n :: pre, ns, post, rfl, by
            intro m hm; simp at hm; rcases hm with rfl | hm
            · exact hn
            · exact h1 m hm, h2⟩
    obtain ⟨pre, ns, post, rfl, h1, h2⟩ := this
    refine ⟨pre, ns, post, rfl, h1, h2, ?_⟩
    rw [C01_first_namespace_wins w exec s pre ns post name
      (fun n hn => (hkey n).2 (h1 n hn)) h2]
    unfold valueForName'
    rcases chunks_trichotomy hb hc (exec := exec) (splitCh '.' name) s ns with
      ⟨v, s', cs, h3, h4⟩ | ⟨k, h3, _, h5⟩
    · exact Or.inl ⟨v, s', cs, (valueForChunks_ok_iff hb _).1 h3, h4, h3⟩
    · exact Or.inr ⟨k, h3, h5⟩

/-- **C03, exactness.** The lookup raises NotFound if and only if no namespace
has the first component or a component is missing inside the first namespace
that has it. -/
theorem C03_notFound_iff (w : World Obj σ) (hb : Benign w) (hc : CallsSucceed w)
    (exec : Bool) (s : σ) (sl : List Obj) (name : Str) :
    (∃ m, (valueFromSearchList w exec s sl name).val = .error (.notFound m)) ↔
      (∀ ns ∈ sl, ¬ Has w s ns (head name)) ∨
      (∃ pre ns post, sl = pre ++ ns :: post ∧ (∀ n ∈ pre, ¬ Has w s n (head name)) ∧
        Has w s ns (head name) ∧ ∃ k, MissingAt w exec s ns (splitCh '.' name) k) := by
  rcases C03_value_or_notFound w hb hc exec s sl name with
    ⟨h1, h2⟩ | ⟨pre, ns, post, h1, h2, h3, ⟨v, s', cs, h4, h5, h6⟩ | ⟨k, h4, h5⟩⟩
  · exact ⟨fun _ => Or.inl h1, fun _ => ⟨_, h2⟩⟩
  · constructor
    · rintro ⟨m, hm⟩; rw [h6] at hm; cases hm
    · rintro (h | ⟨pre', ns', post', h1', h2', h3', k, hk⟩)
      · exact absurd h3 (h ns (by simp [h1]))
      · exfalso
        have : pre = pre' ∧ ns = ns' := by
          clear h5 h6 hk
          subst h1
          clear h4
          induction pre generalizing pre' with
          | nil =>
            cases pre' with
            | nil => simp at h1'; exact ⟨rfl, h1'.1⟩
            | cons p pre' =>
              simp at h1'
              exact absurd h3 (by rw [h1'.1]; exact h2' p (by simp))
          | cons p pre ih =>
            cases pre' with
            | nil =>
              simp at h1'
              exact absurd h3' (by rw [← h1'.1]; exact h2 p (by simp))
            | cons p' pre' =>
              simp at h1'
              have := ih (fun n hn => h2 n (by simp [hn])) pre'
                (fun n hn => h2' n (by simp [hn])) h1'.2
              exact ⟨by rw [h1'.1, this.1], this.2⟩
        obtain ⟨rfl, rfl⟩ := this
        exact h5 k hk
  · exact ⟨fun _ => Or.inr ⟨pre, ns, post, h1, h2, h3, k, h4⟩, fun _ => ⟨_, h5⟩⟩

/-- **C03 for `hasName`.** On one object, `hasName` is True exactly when the
lookup without autocalling succeeds. -/
theorem C03_hasName_iff (w : World Obj σ) (hb : Benign w) (s : σ) (o : Obj) (name : Str) :
    (hasName w s o name = .ok true ↔ ∃ v cs, Walk w false s o (splitCh '.' name) s v cs) ∧
    (hasName w s o name = .ok true ∨ hasName w s o name = .ok false) := by
  have hst : ∀ (ks : List Str) (s : σ) (o : Obj), (valueForChunks w false s o ks).st = s := by
    intro ks
    induction ks with
    | nil => intro s o; rfl
    | cons k ks ih =>
      intro s o
      simp only [valueForChunks]
      cases nextObj w s o k with
      | error e => rfl
      | ok v => simp [autocall, ih]
  have herr : ∀ (ks : List Str) (s : σ) (o : Obj) e,
      (valueForChunks w false s o ks).val = .error e → ∃ m, e = .notFound m := by
    intro ks
    induction ks with
    | nil => intro s o e h; simp [valueForChunks] at h
    | cons k ks ih =>
      intro s o e h
      simp only [valueForChunks] at h
      cases hn : nextObj w s o k with
      | error e' => rw [hn] at h; simp at h; cases h; exact ⟨_, (nextObj_error hb hn).1⟩
      | ok v => rw [hn] at h; simp [autocall] at h; exact ih _ _ _ h
  have hval : (∃ v, (valueForChunks w false s o (splitCh '.' name)).val = .ok v) ↔
      ∃ v cs, Walk w false s o (splitCh '.' name) s v cs := by
    constructor
    · rintro ⟨v, hv⟩
      refine ⟨v, (valueForChunks w false s o (splitCh '.' name)).calls,
        (valueForChunks_ok_iff hb _).1 ?_⟩
      have := hst (splitCh '.' name) s o
      cases hr : valueForChunks w false s o (splitCh '.' name)
      rw [hr] at this hv; simp_all
    · rintro ⟨v, cs, hw⟩
      exact ⟨v, by rw [(valueForChunks_ok_iff hb _).2 hw]⟩
  obtain ⟨b, hk⟩ := hasKey_benign hb s o (firstChunk name)
  have hke := hasKey_eq hk
  unfold hasName valueForName Res.wrap valueForName'
  rw [hk]
  cases b with
  | false =>
    simp only [Except.ok.injEq, Bool.false_eq_true, false_iff, not_exists,
      or_true, and_true]
    intro v cs hw
    obtain ⟨ks, hks⟩ := firstChunk_head name
    rw [hks] at hw
    simp at hke
    cases hw with
    | pass a _ _ => exact hke ⟨_, a⟩
    | call a _ _ _ => exact hke ⟨_, a⟩
  | true =>
    rw [← hval]
    cases hr : (valueForChunks w false s o (splitCh '.' name)).val with
    | ok v => simp [Except.mapError]
    | error e =>
      obtain ⟨m, rfl⟩ := herr _ _ _ _ hr
      simp [Except.mapError, wrapExc]

/-! ### C04 -/

/-- **C04.** At any step (after the components `pre` have led to `o'`), if the
value reached is a mapping having the next component as a key, the lookup goes
on from the key's value, whatever attributes the mapping has. -/
theorem C04_mapping_key_first (w : World Obj σ) (exec : Bool) (s : σ) (o : Obj)
    (pre : List Str) (k : Str) (post : List Str) (o' v : Obj) (s' : σ) (cs : List Obj)
    (hpre : valueForChunks w exec s o pre = ⟨.ok o', s', cs⟩)
    (hm : w.isMapping o' = true) (hk : w.item s' o' k = some v) :
    valueForChunks w exec s o (pre ++ k :: post) =
      match autocall w exec s' v with
      | ⟨.error e, s'', c⟩ => ⟨.error e, s'', cs ++ c⟩
      | ⟨.ok v', s'', c⟩ =>
        ⟨(valueForChunks w exec s'' v' post).val, (valueForChunks w exec s'' v' post).st,
          cs ++ (c ++ (valueForChunks w exec s'' v' post).calls)⟩ := by
  rw [valueForChunks_append, hpre]
  simp only [valueForChunks, nextObj_ok_iff.2 (Component.key hm hk)]
  cases autocall w exec s' v with
  | mk a b c => cases a <;> simp

/-- **C04, one step.** `valueForKey` gives the value of a mapping's key even if there is an attribute of that name. -/
theorem C04_valueForKey_mapping (w : World Obj σ) (s : σ) (o : Obj) (k : Str) (v : Obj)
    (hm : w.isMapping o = true) (hk : w.item s o k = some v) : valueForKey w s o k = .ok v := by
  simp only [valueForKey, hm, hk]

/-- **C04, one step.** For every key, `valueForKey` gives what a lookup of that name without automatic calls gives, be it a value,
an exception of the attribute or NotFound. -/
theorem C04_valueForKey_is_lookup (w : World Obj σ) (s : σ) (o : Obj) (k : Str) :
    valueForKey w s o k = (valueForChunks w false s o [k]).val := by
  simp only [valueForKey, valueForChunks, nextObj, hasattr]
  cases hm : w.isMapping o <;> cases hi : w.item s o k <;> try simp [autocall]
  all_goals cases ha : w.attr s o k with
    | ok v => simp
    | error e => cases e <;> simp

/-- **C04, independence.** Two worlds that differ only in the attributes of
mappings under names which are also keys of those mappings give the same
lookups (without autocalling, where nothing else is read). -/
theorem C04_attributes_of_keys_irrelevant (w w' : World Obj σ)
    (hmap : w'.isMapping = w.isMapping) (hitem : w'.item = w.item)
    (hattr : ∀ s o k, ¬ (w.isMapping o = true ∧ ∃ v, w.item s o k = some v) →
      w'.attr s o k = w.attr s o k)
    (ks : List Str) (s : σ) (o : Obj) :
    valueForChunks w' false s o ks = valueForChunks w false s o ks := by
  induction ks generalizing s o with
  | nil => rfl
  | cons k ks ih =>
    have hn : nextObj w' s o k = nextObj w s o k := by
      unfold nextObj
      rw [hmap, hitem]
      split
      · rfl
      · next h =>
        rw [hattr s o k (by rintro ⟨h1, v, h2⟩; exact h v h1 h2)]
    simp only [valueForChunks, hn, autocall, Bool.false_and]
    cases nextObj w s o k with
    | error e => rfl
    | ok v => simp [ih]

/-! ### C05 -/

/-- **C05.** In a template method a placeholder is looked up in the locals, then
the search list in order, then globals, then builtins: the first of these that
has the first component decides. -/
theorem C05_precedence (w : World Obj σ) (exec : Bool) (s : σ) (f : Frame Obj) (sl : List Obj)
    (name : Str) (pre : List Obj) (ns : Obj) (post : List Obj)
    (horder : [f.locals] ++ sl ++ [f.globals] ++ [f.builtins] = pre ++ ns :: post)
    (hpre : ∀ n ∈ pre, Lacks w s n (head name))
    (hns : Has w s ns (head name)) :
    valueFromFrameOrSearchList w exec s f sl name = (valueForName w exec s ns name) := by
  unfold valueFromFrameOrSearchList
  have : namespaces f sl = pre ++ ns :: post := by rw [← horder]; simp [namespaces]
  rw [this, firstChunk_eq, searchLoop_skip _ _ _ _ _ _ (fun n hn => hasKey_lacks (hpre n hn))]
  simp [searchLoop, hasKey_has hns, valueForName]

/-- **C05, locals shadow everything.** -/
theorem C05_locals_first (w : World Obj σ) (exec : Bool) (s : σ) (f : Frame Obj) (sl sl' : List Obj)
    (g b : Obj) (name : Str) (h : Has w s f.locals (head name)) :
    valueFromFrameOrSearchList w exec s f sl name =
      valueFromFrameOrSearchList w exec s ⟨f.locals, g, b⟩ sl' name := by
  rw [C05_precedence w exec s f sl name [] f.locals _ (by simp; rfl) (by simp) h,
    C05_precedence w exec s ⟨f.locals, g, b⟩ sl' name [] f.locals _ (by simp; rfl) (by simp) h]

/-- **C05, nothing found.** NotFound names the first component. -/
theorem C05_not_found (w : World Obj σ) (exec : Bool) (s : σ) (f : Frame Obj) (sl : List Obj)
    (name : Str)
    (h : ∀ n ∈ [f.locals] ++ sl ++ [f.globals] ++ [f.builtins],
      Lacks w s n (head name)) :
    valueFromFrameOrSearchList w exec s f sl name =
      ⟨.error (.notFound (notFoundMsg (head name))), s, []⟩ := by
  unfold valueFromFrameOrSearchList
  rw [firstChunk_eq]
  have := searchLoop_skip w s (head name)
    (fun ns => (valueForName' w exec s ns name).wrap name) (namespaces f sl) []
    (by intro n hn; apply hasKey_lacks; apply h; simpa [namespaces] using hn)
  rw [List.append_nil] at this
  rw [this]; rfl

/-- **C05 for `valueFromFrame`.** The same with an empty search list. -/
theorem C05_valueFromFrame (w : World Obj σ) (exec : Bool) (s : σ) (f : Frame Obj) (name : Str)
    (pre : List Obj) (ns : Obj) (post : List Obj)
    (horder : [f.locals, f.globals, f.builtins] = pre ++ ns :: post)
    (hpre : ∀ n ∈ pre, Lacks w s n (head name))
    (hns : Has w s ns (head name)) :
    valueFromFrame w exec s f name = valueForName w exec s ns name :=
  C05_precedence w exec s f [] name pre ns post (by simpa using horder) hpre hns

/-! ### C06 -/

/-- **C06.** A successful lookup is exactly a step-by-step walk that calls each
reached value that is callable and is not a class or instance, once, in order,
with its result replacing it (`Walk` above), and calls nothing else. -/
theorem C06_walk (w : World Obj σ) (hb : Benign w) (exec : Bool) (s : σ) (o : Obj) (name : Str)
    (v : Obj) (s' : σ) (cs : List Obj) :
    valueForName' w exec s o name = ⟨.ok v, s', cs⟩ ↔
      Walk w exec s o (splitCh '.' name) s' v cs :=
  valueForChunks_ok_iff hb _

/-- **C06, autocalling off.** Nothing is called, the state does not change, and
the result does not depend on what calling objects would do. -/
theorem C06_off (w : World Obj σ) (call' : σ → Obj → Except Exc Obj × σ) (s : σ) (o : Obj)
    (name : Str) :
    (valueForName' w false s o name).calls = [] ∧ (valueForName' w false s o name).st = s ∧
    valueForName' { w with call := call' } false s o name = valueForName' w false s o name := by
  unfold valueForName'
  have h : ∀ (ks : List Str) (s : σ) (o : Obj),
      (valueForChunks w false s o ks).calls = [] ∧ (valueForChunks w false s o ks).st = s ∧
      valueForChunks { w with call := call' } false s o ks = valueForChunks w false s o ks := by
    intro ks
    induction ks with
    | nil => intro s o; exact ⟨rfl, rfl, rfl⟩
    | cons k ks ih =>
      intro s o
      have hn : nextObj { w with call := call' } s o k = nextObj w s o k := rfl
      simp only [valueForChunks, autocall, Bool.false_and, hn]
      cases nextObj w s o k with
      | error e => exact ⟨rfl, rfl, rfl⟩
      | ok v =>
        obtain ⟨h1, h2, h3⟩ := ih s v
        simp [h1, h2, h3]
  exact h _ s o

/-- **C06, only autocallable objects are called**, also when the lookup fails. -/
theorem C06_calls_are_callables (w : World Obj σ) (hb : Benign w) (exec : Bool) (ks : List Str) :
    ∀ (s : σ) (o : Obj), ∀ c ∈ (valueForChunks w exec s o ks).calls,
      exec = true ∧ w.callable c = true ∧ ∃ s', ¬ ClassOrInstance w s' c := by
  induction ks with
  | nil => intro s o c hc; simp [valueForChunks] at hc
  | cons k ks ih =>
    intro s o c hc
    simp only [valueForChunks] at hc
    cases hn : nextObj w s o k with
    | error e => rw [hn] at hc; simp at hc
    | ok v =>
      rw [hn] at hc
      rcases autocall_benign hb exec s v with ⟨h1, h2⟩ | ⟨h1, h2⟩
      · simp only [h2] at hc
        simp at hc; exact ih _ _ c hc
      · simp only [h2] at hc
        cases hcall : (w.call s v).1 with
        | error e =>
          simp [hcall] at hc
          subst hc; exact ⟨h1.1, h1.2.1, s, h1.2.2⟩
        | ok v' =>
          simp [hcall] at hc
          rcases hc with rfl | hc
          · exact ⟨h1.1, h1.2.1, s, h1.2.2⟩
          · exact ih _ _ c hc

/-- **C06, a raising call stops the lookup.** If the components `pre` lead to
`o'`, whose component `k` is an autocallable object that raises `e`, the lookup
ends there with `e`, after exactly the calls made so far and this one. -/
theorem C06_raising_call_propagates (w : World Obj σ) (hb : Benign w) (exec : Bool) (s : σ)
    (o : Obj) (pre : List Str) (k : Str) (post : List Str) (o' v : Obj) (s' : σ) (cs : List Obj)
    (e : Exc)
    (hpre : Walk w exec s o pre s' o' cs) (hc : Component w s' o' k v)
    (hauto : AutoCalled w exec s' v) (hraise : (w.call s' v).1 = .error e) :
    valueForChunks w exec s o (pre ++ k :: post) =
      ⟨.error e, (w.call s' v).2, cs ++ [v]⟩ := by
  rw [valueForChunks_append, (valueForChunks_ok_iff hb _).2 hpre]
  simp only [valueForChunks, nextObj_ok_iff.2 hc]
  rcases autocall_benign hb exec s' v with ⟨h1, h2⟩ | ⟨h1, h2⟩
  · exact absurd hauto h1
  · simp [h2, hraise]

/-! ### C07 -/

/-- Two outcomes agree up to the text of a NotFound message. -/
def SameUpToMessage (a b : Res Obj σ) : Prop :=
  a.st = b.st ∧ a.calls = b.calls ∧
  (a.val = b.val ∨ ∃ m m', a.val = .error (.notFound m) ∧ b.val = .error (.notFound m'))

/-- The assumptions under which the two implementations see the same object
protocol: subscripting with the key succeeds exactly for mappings containing
it; attribute reads raise only AttributeError; types have `__class__`;
functions have `__code__` and are not types. -/
structure SameProtocol (w : CWorld Obj σ) : Prop where
  benign : Benign w.toWorld
  key : ∀ s o k v, (w.mappingCheck o = true ∧ w.subscript s o k = some v) ↔
    (w.isMapping o = true ∧ w.item s o k = some v)
  typeClass : ∀ s o, w.isType o = true → HasAttr w.toWorld s o c!"__class__"
  funCode : ∀ s o, w.isFunction o = true → HasAttr w.toWorld s o c!"__code__"

theorem cHasAttr_iff (w : CWorld Obj σ) (s o) (k : Str) :
    cHasAttr w s o k = true ↔ HasAttr w.toWorld s o k := by
  unfold cHasAttr HasAttr
  cases w.attr s o k <;> simp [Except.toOption]

theorem cIsInstanceOrClass_iff {w : CWorld Obj σ} (h : SameProtocol w) (s o) :
    cIsInstanceOrClass w s o = true ↔ ClassOrInstance w.toWorld s o := by
  have e1 := cHasAttr_iff w s o c!"__class__"
  have e2 := cHasAttr_iff w s o c!"mro"
  have e3 := cHasAttr_iff w s o c!"__func__"
  have e4 := cHasAttr_iff w s o c!"__code__"
  have e5 := cHasAttr_iff w s o c!"__self__"
  have e6 := cHasAttr_iff w s o c!"__init__"
  have ht := h.typeClass s o
  have hf := h.funCode s o
  unfold cIsInstanceOrClass ClassOrInstance
  simp only [← e1, ← e2, ← e3, ← e4, ← e5, ← e6] at *
  cases h1 : cHasAttr w s o c!"__class__" <;> cases h2 : cHasAttr w s o c!"mro" <;>
  cases h3 : cHasAttr w s o c!"__func__" <;> cases h4 : cHasAttr w s o c!"__code__" <;>
  cases h5 : cHasAttr w s o c!"__self__" <;> cases h6 : cHasAttr w s o c!"__init__" <;>
  cases h7 : w.isType o <;> cases h8 : w.isFunction o <;> simp_all

theorem cNextObj_eq {w : CWorld Obj σ} (h : SameProtocol w) (s o k) :
    cNextObj w s o k = nextObj w.toWorld s o k := by
  have hk := h.key s o k
  by_cases hc : ∃ v, w.isMapping o = true ∧ w.item s o k = some v
  · obtain ⟨v, h1, h2⟩ := hc
    obtain ⟨a, b⟩ := (hk v).2 ⟨h1, h2⟩
    simp [cNextObj, nextObj, h1, h2, a, b]
  · have hc' : ∀ v, ¬ (w.mappingCheck o = true ∧ w.subscript s o k = some v) :=
      fun v hv => hc ⟨v, (hk v).1 hv⟩
    unfold cNextObj nextObj
    cases h1 : w.mappingCheck o <;> cases h2 : w.subscript s o k <;>
      cases h3 : w.isMapping o <;> cases h4 : w.item s o k <;> simp_all

theorem cValueForChunks_eq {w : CWorld Obj σ} (h : SameProtocol w) (exec : Bool) (ks : List Str) :
    ∀ s o, cValueForChunks w exec s o ks = valueForChunks w.toWorld exec s o ks := by
  induction ks with
  | nil => intro s o; rfl
  | cons k ks ih =>
    intro s o
    simp only [cValueForChunks, valueForChunks, cNextObj_eq h]
    cases nextObj w.toWorld s o k with
    | error e => rfl
    | ok v =>
      simp only
      have hc := cIsInstanceOrClass_iff h s v
      rcases autocall_benign h.benign exec s v with ⟨h1, h2⟩ | ⟨h1, h2⟩
      · simp only [h2]
        unfold AutoCalled at h1
        rw [← hc] at h1
        rw [if_neg (by simp at *; exact h1)]
        simp [ih]
      · simp only [h2]
        unfold AutoCalled at h1
        rw [← hc] at h1
        rw [if_pos (by simp at *; exact ⟨⟨h1.1, h1.2.1⟩, h1.2.2⟩)]
        cases (w.call s v).1 with
        | error e => rfl
        | ok v' => simp [ih]

theorem cHasKey_eq {w : CWorld Obj σ} (h : SameProtocol w) (s o k) :
    hasKey w.toWorld s o k = .ok (cHasKey w s o k) := by
  unfold hasKey cHasKey hasattr cHasAttr
  have hk := h.key s o k
  have hmap : (w.mappingCheck o && (w.subscript s o k).isSome) =
      (w.isMapping o && (w.item s o k).isSome) := by
    rw [Bool.eq_iff_iff]
    simp only [Bool.and_eq_true, Option.isSome_iff_exists]
    constructor
    · rintro ⟨a, v, b⟩; have := (hk v).1 ⟨a, b⟩; exact ⟨this.1, v, this.2⟩
    · rintro ⟨a, v, b⟩; have := (hk v).2 ⟨a, b⟩; exact ⟨this.1, v, this.2⟩
  rw [hmap]
  cases (w.isMapping o && (w.item s o k).isSome) with
  | true => simp
  | false =>
    simp only [Bool.false_eq_true, if_false, Bool.false_or]
    cases ha : w.attr s o k with
    | ok v => simp [Except.toOption]
    | error e => cases h.benign _ _ _ _ ha; simp [Except.toOption]

theorem cSearchLoop_same {w : CWorld Obj σ} (h : SameProtocol w) (s key) (f g : Obj → Res Obj σ)
    (hfg : ∀ o, SameUpToMessage (f o) (g o)) (sl : List Obj) :
    SameUpToMessage (cSearchLoop w s key f sl) (searchLoop w.toWorld s key g sl) := by
  induction sl with
  | nil => exact ⟨rfl, rfl, Or.inl rfl⟩
  | cons n sl ih =>
    simp only [cSearchLoop, searchLoop, cHasKey_eq h]
    cases cHasKey w s n key with
    | true => simpa using hfg n
    | false => simpa using ih

/-- The list without its last element if that is empty. -/
def dropEmptyLast (ks : List Str) : List Str :=
  match ks.getLast? with
  | some [] => ks.dropLast
  | _ => ks

/-- The C chunker, characterised: it refuses names with more than 13 periods,
and otherwise yields the Python chunks without a trailing empty one. -/
theorem getNameChunksAux_spec (name : Str) : ∀ (acc : List Str) (cur : Str),
    acc.length + name.count '.' ≤ 13 →
    getNameChunksAux acc cur name =
      .ok (acc.reverse ++
        match splitCh '.' name with
        | [] => []
        | p :: ps => dropEmptyLast ((cur.reverse ++ p) :: ps)) := by
  induction name with
  | nil =>
    intro acc cur _
    cases cur with
    | nil => simp [getNameChunksAux, splitCh, dropEmptyLast]
    | cons c cur =>
      simp only [getNameChunksAux, splitCh, dropEmptyLast]
      cases h : (c :: cur).reverse with
      | nil => simp at h
      | cons a b => simp
  | cons c cs ih =>
    intro acc cur hlen
    by_cases hc : c = '.'
    · subst hc
      simp at hlen
      rw [getNameChunksAux, if_pos rfl, if_neg (by simp [maxChunks]; omega), ih _ _ (by simp; omega)]
      obtain ⟨p, ps, hp⟩ := List.exists_cons_of_ne_nil (splitCh_ne_nil '.' cs)
      simp only [splitCh, if_true, hp]
      congr 1
      simp only [List.reverse_cons, List.append_assoc, List.singleton_append, List.append_nil,
        List.reverse_nil, List.nil_append, dropEmptyLast, List.getLast?_cons_cons]
      split <;> simp
    · rw [getNameChunksAux, if_neg hc, ih _ _ (by simpa [hc] using hlen)]
      obtain ⟨p, ps, h1, h2⟩ := splitCh_cons_ne hc cs
      simp [h1, h2]

theorem getNameChunksAux_tooMany (name : Str) : ∀ (acc : List Str) (cur : Str),
    acc.length ≤ 13 → 13 < acc.length + name.count '.' →
    getNameChunksAux acc cur name = .error .tooManyPeriods := by
  induction name with
  | nil => intro acc cur h1 h2; simp at h2; omega
  | cons c cs ih =>
    intro acc cur h1 h2
    by_cases hc : c = '.'
    · subst hc
      rw [getNameChunksAux, if_pos rfl]
      by_cases h13 : acc.length ≥ 13
      · rw [if_pos (by simp [maxChunks]; omega)]
      · rw [if_neg (by simp [maxChunks]; omega), ih _ _ (by simp; omega)]
        simp at *; omega
    · rw [getNameChunksAux, if_neg hc, ih _ _ h1]
      simpa [hc] using h2

/-- A name both implementations split in the same way: at most 13 periods, not
empty and not ending in a period. -/
def PlainName (name : Str) : Prop :=
  name.count '.' ≤ 13 ∧ name ≠ [] ∧ name.getLast? ≠ some '.'

theorem splitCh_getLast (name : Str) :
    (splitCh '.' name).getLast? = some [] ↔ name = [] ∨ name.getLast? = some '.' := by
  induction name with
  | nil => simp [splitCh]
  | cons c cs ih =>
    by_cases hc : c = '.'
    · subst hc
      obtain ⟨p, ps, hp⟩ := List.exists_cons_of_ne_nil (splitCh_ne_nil '.' cs)
      simp only [splitCh, if_true, hp, List.getLast?_cons_cons] at *
      rw [ih]
      cases cs with
      | nil => simp
      | cons d ds => simp
    · obtain ⟨p, ps, h1, h2⟩ := splitCh_cons_ne hc cs
      rw [h2]
      rw [h1] at ih
      cases ps with
      | nil =>
        cases cs with
        | nil => simp [hc]
        | cons d ds =>
          simp at ih ⊢
          -- p = d :: ds here
          intro h
          have := splitCh_not_mem '.' (d :: ds) p (by simp [h1])
          have hj := join_splitCh '.' (d :: ds)
          rw [h1] at hj; simp [joinStr] at hj
          have hmem : '.' ∈ d :: ds := List.mem_of_getLast? (by simpa using h)
          rw [← hj] at hmem
          exact this hmem
      | cons q qs =>
        rw [List.getLast?_cons_cons] at *
        rw [ih]
        cases cs with
        | nil => simp [splitCh] at h1
        | cons d ds => simp

theorem C07_chunks_agree (name : Str) (h : PlainName name) :
    getNameChunks name = .ok (splitCh '.' name) := by
  unfold getNameChunks
  rw [getNameChunksAux_spec name [] [] (by simpa using h.1)]
  obtain ⟨p, ps, hp⟩ := List.exists_cons_of_ne_nil (splitCh_ne_nil '.' name)
  have hl : ¬ (splitCh '.' name).getLast? = some [] := by
    rw [splitCh_getLast]; simp [h.2.1, h.2.2]
  rw [hp] at hl ⊢
  simp only [List.reverse_nil, List.nil_append, dropEmptyLast]

/-- **C07, too many components.** The C implementation rejects exactly the names
with more than 13 periods, which the Python implementation accepts. -/
theorem C07_too_many_periods (name : Str) :
    getNameChunks name = .error .tooManyPeriods ↔ 13 < name.count '.' := by
  constructor
  · intro h
    by_cases hn : name.count '.' ≤ 13
    · unfold getNameChunks at h
      rw [getNameChunksAux_spec name [] [] (by simpa using hn)] at h
      cases h
    · omega
  · intro h
    exact getNameChunksAux_tooMany name [] [] (by simp) (by simpa using h)

/-- **C07, remaining disagreement.** With at most 13 periods the chunks differ
exactly when the name is empty or ends in a period (C drops the empty last
component). -/
theorem C07_chunks_differ_iff (name : Str) (h : name.count '.' ≤ 13) :
    getNameChunks name ≠ .ok (splitCh '.' name) ↔ name = [] ∨ name.getLast? = some '.' := by
  unfold getNameChunks
  rw [getNameChunksAux_spec name [] [] (by simpa using h), ← splitCh_getLast]
  obtain ⟨p, ps, hp⟩ := List.exists_cons_of_ne_nil (splitCh_ne_nil '.' name)
  rw [hp]
  simp only [List.reverse_nil, List.nil_append, ne_eq, Except.ok.injEq, dropEmptyLast]
  split
  · next h1 =>
    simp only [h1, iff_true]
    intro hh
    have := congrArg List.length hh
    simp at this
  · next h1 =>
    simp only [not_true_eq_false, false_iff]
    exact h1

theorem wrap_same (a : Res Obj σ) (n m : Str) : SameUpToMessage (a.cWrap n) (a.wrap m) := by
  refine ⟨rfl, rfl, ?_⟩
  unfold Res.cWrap Res.wrap
  cases a.val with
  | ok v => exact Or.inl rfl
  | error e =>
    cases e with
    | notFound x =>
      right
      simp only [Except.mapError, cWrapExc, wrapExc]
      split <;> exact ⟨_, _, rfl, rfl⟩
    | _ => exact Or.inl rfl

theorem wrap_same' (a : Res Obj σ) (n : Str) : SameUpToMessage (a.cWrap n) a := by
  refine ⟨rfl, rfl, ?_⟩
  unfold Res.cWrap
  cases h : a.val with
  | ok v => exact Or.inl rfl
  | error e =>
    cases e with
    | notFound x =>
      right
      simp only [Except.mapError, cWrapExc]
      split <;> exact ⟨_, _, rfl, rfl⟩
    | _ => exact Or.inl rfl

/-- **C07.** For every plain name and under the same object protocol, the C and
the Python implementation of `valueForName`, `valueFromSearchList` and
`valueFromFrameOrSearchList` return the same value, raise the same exception
(up to the text of NotFound), make the same calls and leave the same state. -/
theorem C07_agree (w : CWorld Obj σ) (h : SameProtocol w) (exec : Bool) (s : σ) (o : Obj)
    (sl : List Obj) (f : Frame Obj) (name : Str) (hn : PlainName name) :
    SameUpToMessage (cValueForName w exec s o name) (valueForName w.toWorld exec s o name) ∧
    SameUpToMessage (cValueFromSearchList w exec s sl name)
      (valueFromSearchList w.toWorld exec s sl name) ∧
    SameUpToMessage (cValueFromFrameOrSearchList w exec s f sl name)
      (valueFromFrameOrSearchList w.toWorld exec s f sl name) := by
  obtain ⟨ks, hks⟩ := firstChunk_head name
  unfold cValueForName cValueFromSearchList cValueFromFrameOrSearchList
    valueForName valueFromSearchList valueFromFrameOrSearchList valueForName'
  rw [C07_chunks_agree name hn, hks]
  simp only [cValueForChunks_eq h]
  refine ⟨wrap_same _ _ _, cSearchLoop_same h _ _ _ _ (fun o => wrap_same' _ _) _,
    cSearchLoop_same h _ _ _ _ (fun o => wrap_same _ _ _) _⟩

/-- Without the same-protocol assumption the implementations differ.  Object 0 is
a `defaultdict`: `'k' in d` is False but `d['k']` succeeds.  The Python version
raises NotFound, the C version returns the default. -/
theorem C07_defaultdict_counterexample :
    ∃ w : CWorld Nat Unit, Benign w.toWorld ∧ PlainName c!"k" ∧
      (valueFromSearchList w.toWorld false () [0] c!"k").val =
        .error (.notFound (notFoundMsg c!"k")) ∧
      (cValueFromSearchList w false () [0] c!"k").val = .ok 7 :=
  ⟨{ isMapping := fun _ => true, item := fun _ _ _ => none,
     attr := fun _ _ _ => .error .attributeError, isType := fun _ => false,
     callable := fun _ => false, call := fun s o => (.ok o, s),
     mappingCheck := fun _ => true, subscript := fun _ _ _ => some 7,
     isFunction := fun _ => false },
   fun _ _ _ _ h => by cases h; rfl, by unfold PlainName; decide, rfl, rfl⟩

/-- An attribute whose getter raises something other than AttributeError: the
Python version lets the exception out, the C version treats the attribute as
missing and goes on to the next namespace. -/
theorem C07_raising_property_counterexample :
    ∃ w : CWorld Nat Unit, PlainName c!"k" ∧
      (valueFromSearchList w.toWorld false () [0, 1] c!"k").val = .error (.other 5) ∧
      (cValueFromSearchList w false () [0, 1] c!"k").val = .ok 7 :=
  ⟨{ isMapping := fun _ => false, item := fun _ _ _ => none,
     attr := fun _ o _ => if o = 0 then .error (.other 5) else .ok 7, isType := fun _ => false,
     callable := fun _ => false, call := fun s o => (.ok o, s),
     mappingCheck := fun _ => false, subscript := fun _ _ _ => none,
     isFunction := fun _ => false },
   by unfold PlainName; decide, rfl, rfl⟩

/-! ### C08 -/

/-- **C08.** However many layers re-raise it, a NotFound for `key` first
annotated with the name `inner` keeps exactly that message. -/
theorem C08_wrapped_once (key inner : Str) (outer : List Str)
    (hkey : containsStr c!"while searching" (notFoundMsg key) = false) :
    (inner :: outer).foldl wrapMsg (notFoundMsg key) =
      c!"cannot find '" ++ key ++ c!"'" ++
        (c!" while searching for '" ++ inner ++ c!"'") := by
  have h1 : wrapMsg (notFoundMsg key) inner = c!"cannot find '" ++ key ++ c!"'" ++
      (c!" while searching for '" ++ inner ++ c!"'") := by
    unfold wrapMsg
    rw [hkey]
    simp [notFoundMsg]
  have h2 : ∀ (ns : List Str) (m : Str), containsStr c!"while searching" m = true →
      ns.foldl wrapMsg m = m := by
    intro ns
    induction ns with
    | nil => intro m _; rfl
    | cons n ns ih =>
      intro m hm
      simp only [List.foldl_cons]
      rw [show wrapMsg m n = m by unfold wrapMsg; rw [hm]; rfl]
      exact ih m hm
  rw [List.foldl_cons, h1]
  apply h2
  rw [containsStr_iff]
  refine ⟨c!"cannot find '" ++ key ++ c!"' ", c!" for '" ++ inner ++ c!"'", ?_⟩
  simp

/-- An identifier-like key never contains the marker phrase. -/
theorem C08_key_ok (key : Str) (h : ' ' ∉ key) :
    containsStr c!"while searching" (notFoundMsg key) = false := by
  rw [Bool.eq_false_iff]
  intro hc
  rw [containsStr_iff] at hc
  obtain ⟨a, b, hab⟩ := hc
  -- the blank of "while searching" is one of the two blanks of the message
  have blank : ∀ (x y x' y' : Str), ' ' ∉ x → x ++ ' ' :: y = x' ++ ' ' :: y' →
      x = x' ∨ ∃ z, y = z ++ ' ' :: y' ∧ x' = x ++ ' ' :: z := by
    intro x
    induction x with
    | nil =>
      intro y x' y' _ he
      cases x' with
      | nil => exact Or.inl rfl
      | cons c x' =>
        simp at he
        exact Or.inr ⟨x', he.2, by simp [← he.1]⟩
    | cons c x ih =>
      intro y x' y' hx he
      cases x' with
      | nil => simp at he; simp [he.1] at hx
      | cons c' x' =>
        simp at he hx
        rcases ih y x' y' hx.2 he.2 with h | ⟨z, h1, h2⟩
        · exact Or.inl (by rw [he.1, h])
        · exact Or.inr ⟨z, h1, by rw [he.1, h2]; rfl⟩
  have hnf : notFoundMsg key = c!"cannot" ++ ' ' :: (c!"find" ++ ' ' :: ('\'' :: key ++ c!"'")) := rfl
  have hws : a ++ c!"while searching" ++ b = (a ++ c!"while") ++ ' ' :: (c!"searching" ++ b) := by
    simp
  rw [hnf, hws] at hab
  rcases blank _ _ _ _ (by decide) hab with h1 | ⟨z, h1, h2⟩
  · have := congrArg List.getLast? h1
    simp at this
  · rcases blank _ _ _ _ (by decide) h1 with h3 | ⟨z', h3, h4⟩
    · have := congrArg List.getLast? h2
      rw [← h3] at this
      simp at this
    · have : ' ' ∈ '\'' :: key ++ c!"'" := by rw [h3]; simp
      simp [h] at this

/-- **C08, the C implementation.** The first annotation is the one of the Python implementation. -/
theorem C08_c_first_annotation (key inner : Str) (hkey : containsStr c!"while searching" (notFoundMsg key) = false) :
    cWrapExc inner (.notFound (notFoundMsg key)) =
      .notFound (c!"cannot find '" ++ key ++ c!"'" ++ (c!" while searching for '" ++ inner ++ c!"'")) := by
  simp only [cWrapExc, hkey, Bool.false_eq_true, if_false]
  simp [notFoundMsg]

example : containsStr c!"while searching" (notFoundMsg c!"name") = false := C08_key_ok _ (by decide)

/-- **C08, the C implementation.** Its wrapper loses the message altogether when
the NotFound is already annotated (finding: `newExcValue` stays NULL). -/
theorem C08_c_wrapper_loses_message_counterexample :
    cWrapExc c!"b" (cWrapExc c!"a" (.notFound (notFoundMsg c!"x"))) =
      .notFound [] := by
  decide

/-! ### Non-vacuity: a concrete world -/

/-- A small world: 0 is a dict {a: 1, f: 2}; 1 is an object with attributes b = 3
and a = 4; 2 is a function returning 1; 3 and 4 are plain values.  The state
counts calls. -/
def exWorld : CWorld Nat Nat where
  isMapping o := o == 0
  item _ o k := if o = 0 then (if k = ['a'] then some 1 else if k = ['f'] then some 2 else none) else none
  attr _ o k :=
    if k = c!"__class__" then .ok 9
    else if o = 2 ∧ k = c!"__code__" then .ok 9
    else if o ≠ 2 ∧ k = c!"__init__" then .ok 9
    else if o = 1 ∧ k = ['b'] then .ok 3
    else if o = 1 ∧ k = ['a'] then .ok 4
    else if o = 0 ∧ k = ['a'] then .ok 4
    else .error .attributeError
  isType _ := false
  callable o := o == 2
  call s o := if o = 2 then (.ok 1, s + 1) else (.ok 9, s)
  mappingCheck o := o == 0
  subscript _ o k := if o = 0 then (if k = ['a'] then some 1 else if k = ['f'] then some 2 else none) else none
  isFunction o := o == 2

theorem exWorld_same : SameProtocol exWorld where
  benign := by
    intro s o k e h
    simp only [exWorld] at h
    repeat' (split at h; · cases h)
    cases h; rfl
  key := by
    intro s o k v
    simp [exWorld]
  typeClass := by intro s o h; simp [exWorld] at h
  funCode := by
    intro s o h
    simp [exWorld] at h
    subst h
    exact ⟨9, rfl⟩

example : CallsSucceed exWorld.toWorld := by
  intro s o h; simp [exWorld] at h; subst h; exact ⟨1, rfl⟩

-- C01/C03/C05: object 3 lacks "a", object 0 has it.
example : Lacks exWorld.toWorld 0 3 (head c!"a.b") ∧ Has exWorld.toWorld 0 0 (head c!"a.b") ∧
    (valueFromSearchList exWorld.toWorld true 0 [3, 0, 1] c!"a.b").val = .ok 3 ∧
    -- no backtracking: object 1 has no component "a.z", nor is object 7 consulted
    (valueFromSearchList exWorld.toWorld true 0 [3, 0, 1] c!"a.z").val =
      .error (.notFound (notFoundMsg ['z'])) :=
  ⟨⟨by simp [exWorld], rfl⟩, ⟨1, .key rfl rfl⟩, rfl, rfl⟩

-- C02/C06: `f` is autocalled, once, and `f.b` composes.
example : (valueForName' exWorld.toWorld true 0 0 c!"f.b").val = .ok 3 ∧
    (valueForName' exWorld.toWorld true 0 0 c!"f.b").calls = [2] ∧
    (valueForName' exWorld.toWorld true 0 0 c!"f.b").st = 1 ∧
    (valueForName' exWorld.toWorld false 0 0 c!"f").val = .ok 2 := ⟨rfl, rfl, rfl, rfl⟩

-- C04: key `a` of the dict 0 shadows its attribute `a`.
example : (valueForChunks exWorld.toWorld false 0 0 [['a']]).val = .ok 1 ∧
    exWorld.attr 0 0 ['a'] = .ok 4 := ⟨rfl, rfl⟩

-- C07: the hypotheses hold of "a.b"; C08: of the key "a".
example : PlainName c!"a.b" := by unfold PlainName; decide
example : containsStr c!"while searching" (notFoundMsg c!"a") = false := by decide

end Cheetah.NameMapper
