import Mathlib.Logic.Equiv.List
import Mathlib.Logic.Encodable.Basic
import Verif.CompileCache
/-
C49: the key of the compilation cache. C65: the main class's name. C66: module texts.
-/
namespace Cheetah.CompileCache

/-! ### Sorting -/

theorem strLe_total : ∀ (a b : Str), strLe a b = true ∨ strLe b a = true
  | [], _ => .inl rfl
  | _ :: _, [] => .inr rfl
  | a :: as, b :: bs => by
    simp only [strLe]
    by_cases h : a = b
    · subst h
      simp only [if_true]
      exact strLe_total as bs
    · rw [if_neg h, if_neg (Ne.symm h)]
      have : a.toNat ≠ b.toNat := fun e => h (Char.toNat_inj.mp e)
      simp only [decide_eq_true_eq]
      omega

theorem strLe_antisymm : ∀ (a b : Str), strLe a b = true → strLe b a = true → a = b
  | [], [], _, _ => rfl
  | [], _ :: _, _, h => by simp [strLe] at h
  | _ :: _, [], h, _ => by simp [strLe] at h
  | a :: as, b :: bs, h1, h2 => by
    simp only [strLe] at h1 h2
    by_cases h : a = b
    · subst h
      simp only [if_true] at h1 h2
      rw [strLe_antisymm as bs h1 h2]
    · rw [if_neg h, decide_eq_true_eq] at h1
      rw [if_neg (Ne.symm h), decide_eq_true_eq] at h2
      omega

theorem strLe_trans : ∀ (a b c : Str), strLe a b = true → strLe b c = true → strLe a c = true
  | [], _, _, _, _ => rfl
  | _ :: _, [], _, h, _ => by simp [strLe] at h
  | _ :: _, _ :: _, [], _, h => by simp [strLe] at h
  | a :: as, b :: bs, c :: cs, h1, h2 => by
    simp only [strLe] at h1 h2 ⊢
    by_cases hab : a = b
    · subst hab
      rw [if_pos rfl] at h1
      by_cases hac : a = c
      · subst hac
        rw [if_pos rfl] at h2 ⊢
        exact strLe_trans as bs cs h1 h2
      · rw [if_neg hac] at h2 ⊢; exact h2
    · rw [if_neg hab, decide_eq_true_eq] at h1
      by_cases hbc : b = c
      · subst hbc
        rw [if_neg hab, decide_eq_true_eq]; exact h1
      · rw [if_neg hbc, decide_eq_true_eq] at h2
        have : a ≠ c := fun e => by subst e; omega
        rw [if_neg this, decide_eq_true_eq]; omega

theorem insertKey_comm {α : Type} {x y : Str × α} (hne : x.1 ≠ y.1) : ∀ (l : List (Str × α)),
    insertKey x (insertKey y l) = insertKey y (insertKey x l)
  | [] => by
    simp only [insertKey]
    rcases strLe_total x.1 y.1 with h | h
    · have : strLe y.1 x.1 = false := by
        cases h' : strLe y.1 x.1 with
        | false => rfl
        | true => exact absurd (strLe_antisymm _ _ h h') hne
      simp [h, this]
    · have : strLe x.1 y.1 = false := by
        cases h' : strLe x.1 y.1 with
        | false => rfl
        | true => exact absurd (strLe_antisymm _ _ h' h) hne
      simp [h, this]
  | z :: zs => by
    have ih := insertKey_comm hne zs
    have hxy : strLe x.1 y.1 = true → strLe y.1 x.1 = true → False := fun h h' => hne (strLe_antisymm _ _ h h')
    have tot := strLe_total x.1 y.1
    have t1 := strLe_trans x.1 y.1 z.1
    have t2 := strLe_trans y.1 x.1 z.1
    have tot1 := strLe_total x.1 z.1
    have tot2 := strLe_total y.1 z.1
    have t3 := strLe_trans x.1 z.1 y.1
    have t4 := strLe_trans y.1 z.1 x.1
    cases h1 : strLe x.1 z.1 <;> cases h2 : strLe y.1 z.1 <;> cases h3 : strLe x.1 y.1 <;> cases h4 : strLe y.1 x.1 <;>
      simp_all [insertKey]

theorem sortItems_perm {α : Type} {l l' : List (Str × α)} (hp : l.Perm l') (hn : (l.map (·.1)).Nodup) :
    sortItems l = sortItems l' := by
  induction hp with
  | nil => rfl
  | cons x _ ih => simp only [sortItems]; rw [ih (List.nodup_cons.mp hn).2]
  | swap x y l =>
    simp only [sortItems]
    refine insertKey_comm ?_ _
    simp only [List.map_cons, List.nodup_cons, List.mem_cons, not_or] at hn
    exact hn.1.1
  | trans h1 _ ih1 ih2 =>
    rw [ih1 hn, ih2 ((h1.map (·.1)).nodup_iff.mp hn)]

theorem hashItems_eq_map (H : Hasher) : ∀ (d : List (Str × PyVal)),
    hashItems H d = d.map (fun p => (p.1, H.tuple [H.str p.1, hashVal H p.2]))
  | [] => rfl
  | (k, v) :: d => by simp only [hashItems, List.map_cons]; rw [hashItems_eq_map H d]

theorem hashVals_eq_map (H : Hasher) : ∀ (vs : List PyVal), hashVals H vs = vs.map (hashVal H)
  | [] => rfl
  | v :: vs => by simp only [hashVals, List.map_cons]; rw [hashVals_eq_map H vs]

/-! ### C49: settings -/

/-- Specification: Python's `==` on such values. Two dictionaries are equal if one is the
other with its items in another order, or with a value replaced by an equal one; two lists are
equal if one is the other with an element replaced by an equal one. -/
inductive PyEq : PyVal → PyVal → Prop
  | refl (v : PyVal) : PyEq v v
  | trans {u v w : PyVal} : PyEq u v → PyEq v w → PyEq u w
  | order {d d' : List (Str × PyVal)} : d.Perm d' → (d.map (·.1)).Nodup → PyEq (.dict d) (.dict d')
  | value {v v' : PyVal} (a b : List (Str × PyVal)) (k : Str) : PyEq v v' →
      PyEq (.dict (a ++ (k, v) :: b)) (.dict (a ++ (k, v') :: b))
  | elem {v v' : PyVal} (a b : List PyVal) : PyEq v v' → PyEq (.list (a ++ v :: b)) (.list (a ++ v' :: b))

theorem hashDict_perm (H : Hasher) {d d' : List (Str × PyVal)} (hp : d.Perm d') (hn : (d.map (·.1)).Nodup) :
    hashDict H d = hashDict H d' := by
  unfold hashDict
  rw [hashItems_eq_map, hashItems_eq_map, sortItems_perm (hp.map _)]
  rwa [List.map_map, show ((·.1) ∘ fun p : Str × PyVal => (p.1, H.tuple [H.str p.1, hashVal H p.2])) = (·.1) from rfl]

/-- **C49**: equal settings have equal hashes: the order in which the settings, or the entries of
dictionaries in them, were given does not matter. -/
theorem C49_equal_settings (H : Hasher) {u v : PyVal} (h : PyEq u v) : hashVal H u = hashVal H v := by
  induction h with
  | refl => rfl
  | trans _ _ ih1 ih2 => exact ih1.trans ih2
  | order hp hn =>
    simp only [hashVal]
    exact congrArg intHash (hashDict_perm H hp hn)
  | value a b k _ ih =>
    simp only [hashVal]
    rw [hashItems_eq_map, hashItems_eq_map]
    simp only [List.map_append, List.map_cons, ih]
  | elem a b _ ih =>
    simp only [hashVal]
    rw [hashVals_eq_map, hashVals_eq_map]
    simp only [List.map_append, List.map_cons, ih]

/-- **C49**: requests that differ only in the order of their settings and of their module globals
have the same key. -/
theorem C49_order_irrelevant (H : Hasher) (chk : Bool) (r : Request) {s s' g g' : List (Str × PyVal)}
    (hs : s.Perm s') (hsn : (s.map (·.1)).Nodup) (hg : g.Perm g') (hgn : (g.map (·.1)).Nodup) :
    key H chk { r with settings := s, globals := g } = key H chk { r with settings := s', globals := g' } := by
  have e : ∀ {d d' : List (Str × PyVal)}, d.Perm d' → (d.map (·.1)).Nodup → dictHash H d = dictHash H d' := by
    intro d d' hp hn
    unfold dictHash
    rw [hashDict_perm H hp hn]
    have : d.isEmpty = d'.isEmpty := by
      have := hp.length_eq
      cases d <;> cases d' <;> simp_all
    rw [this]
  unfold key
  simp only [e hs hsn, e hg hgn]

example : ([(c!"a", PyVal.int 1), (c!"b", PyVal.none)].map (·.1)).Nodup := by decide

/-! ### C49: one part at a time -/

theorem decimal_no_minus (n : Nat) : '-' ∉ decimal n := by
  intro h
  have := decimal_digits n '-' h
  revert this; decide

theorem strInt_inj {m n : Int} (h : strInt m = strInt n) : m = n := by
  cases m with
  | ofNat a =>
    cases n with
    | ofNat b => simp only [strInt] at h; rw [decimal_inj h]
    | negSucc b =>
      simp only [strInt] at h
      exact absurd (h ▸ List.mem_cons_self) (decimal_no_minus a)
  | negSucc a =>
    cases n with
    | ofNat b =>
      simp only [strInt] at h
      exact absurd (h ▸ List.mem_cons_self : '-' ∈ decimal b) (decimal_no_minus b)
    | negSucc b =>
      simp only [strInt, List.cons.injEq, true_and] at h
      have := decimal_inj h
      rw [show a = b by omega]

/-- A digit or a minus starts the printed form of an integer. -/
theorem strInt_head (n : Int) : ∃ c cs, strInt n = c :: cs ∧ c ≠ 'N' := by
  cases n with
  | ofNat a =>
    simp only [strInt]
    cases h : decimal a with
    | nil => exact absurd h (decimal_ne_nil a)
    | cons c cs =>
      refine ⟨c, cs, rfl, fun e => ?_⟩
      have := decimal_digits a c (h ▸ List.mem_cons_self)
      rw [e] at this; revert this; decide
  | negSucc a => exact ⟨'-', _, rfl, by decide⟩

theorem strOpt_strInt_inj {a b : Option Int} (h : strOpt strInt a = strOpt strInt b) : a = b := by
  cases a with
  | none =>
    cases b with
    | none => rfl
    | some n =>
      obtain ⟨c, cs, e, hc⟩ := strInt_head n
      simp only [strOpt, e, List.cons.injEq] at h
      exact absurd h.1.symm hc
  | some m =>
    cases b with
    | none =>
      obtain ⟨c, cs, e, hc⟩ := strInt_head m
      simp only [strOpt, e, List.cons.injEq] at h
      exact absurd h.1 hc
    | some n => rw [strInt_inj h]

/-- **C49 (partial)**: requests that differ in one part only have the same key exactly if that part has
the same hash, or for names is the same. Missing: requests that differ in several parts
(`C49_names_counterexample`), and parts with equal hashes
(`C49_empty_counterexample`, `C49_minus_counterexample`). -/
theorem C49_one_part_partial (H : Hasher) (chk : Bool) (r : Request) :
    (∀ a b, key H chk { r with source := a } = key H chk { r with source := b } ↔ hashOpt H a = hashOpt H b) ∧
    (∀ a b, key H chk { r with className := a } = key H chk { r with className := b } ↔ a = b) ∧
    (∀ a b, key H chk { r with moduleName := a } = key H chk { r with moduleName := b } ↔ a = b) ∧
    (∀ a b, key H chk { r with mainMethodName := some a } = key H chk { r with mainMethodName := some b } ↔ a = b) ∧
    (∀ a b, key H chk { r with compilerClass := a } = key H chk { r with compilerClass := b } ↔ a = b) ∧
    (∀ a b, key H chk { r with baseclass := a } = key H chk { r with baseclass := b } ↔ a = b) ∧
    (∀ a b, a ≠ [] → b ≠ [] → (key H chk { r with settings := a } = key H chk { r with settings := b } ↔
      hashDict H a = hashDict H b)) ∧
    (∀ a b, a ≠ [] → b ≠ [] → (key H chk { r with globals := a } = key H chk { r with globals := b } ↔
      hashDict H a = hashDict H b)) ∧
    (∀ a, a ≠ [] → key H chk { r with settings := a } ≠ key H chk { r with settings := [] }) ∧
    (∀ a, a ≠ [] → key H chk { r with globals := a } ≠ key H chk { r with globals := [] }) ∧
    (∀ a b, key H chk { r with cacheDir := a } = key H chk { r with cacheDir := b } ↔ hashOpt H a = hashOpt H b) := by
  have d : ∀ a : List (Str × PyVal), a ≠ [] → dictHash H a = some (hashDict H a) := by
    intro a ha
    unfold dictHash
    cases a with
    | nil => exact absurd rfl ha
    | cons => rfl
  refine ⟨?_, ?_, ?_, ?_, ?_, ?_, ?_, ?_, ?_, ?_, ?_⟩
  all_goals intro a
  all_goals try intro b
  · simp only [key, List.append_cancel_right_eq]
    exact ⟨strInt_inj, congrArg _⟩
  · simp only [key, List.append_cancel_left_eq, List.append_cancel_right_eq]
  · simp only [key, List.append_cancel_left_eq, List.append_cancel_right_eq]
  · simp only [key, List.append_cancel_left_eq, List.append_cancel_right_eq, strOpt, id]
  · simp only [key, List.append_cancel_left_eq, List.append_cancel_right_eq]
    exact ⟨strInt_inj, congrArg _⟩
  · simp only [key, List.append_cancel_left_eq, List.append_cancel_right_eq]
    exact ⟨strInt_inj, congrArg _⟩
  · intro ha hb
    simp only [key, List.append_cancel_left_eq, List.append_cancel_right_eq, d a ha, d b hb]
    exact ⟨fun h => Option.some.inj (strOpt_strInt_inj h), fun h => by rw [h]⟩
  · intro ha hb
    simp only [key, List.append_cancel_left_eq, List.append_cancel_right_eq, d a ha, d b hb]
    exact ⟨fun h => Option.some.inj (strOpt_strInt_inj h), fun h => by rw [h]⟩
  · have ha := b
    simp only [key, ne_eq, List.append_cancel_left_eq, List.append_cancel_right_eq, d a ha]
    intro h
    have := strOpt_strInt_inj h
    simp [dictHash] at this
  · have ha := b
    simp only [key, ne_eq, List.append_cancel_left_eq, List.append_cancel_right_eq, d a ha]
    intro h
    have := strOpt_strInt_inj h
    simp [dictHash] at this
  · simp only [key, List.append_cancel_left_eq]
    exact ⟨strInt_inj, congrArg _⟩

/-- **C49**: while the time of the last change is checked, a template file that was changed has
another key, so the class compiled from its old contents is not used again; while it is not
checked, the key stays the same. -/
theorem C49_changed_file (H : Hasher) (r : Request) {f : Str} (hf : f ≠ []) (t t' : Str) :
    (key H true { r with file := some f, mtime := t } = key H true { r with file := some f, mtime := t' } ↔ t = t') ∧
    key H false { r with file := some f, mtime := t } = key H false { r with file := some f, mtime := t' } := by
  cases f with
  | nil => exact absurd rfl hf
  | cons c f =>
    simp only [key, List.append_cancel_left_eq, List.append_cancel_right_eq, fileHash, strOpt, id, if_true,
      Bool.false_eq_true, if_false, List.append_nil, and_true]

/-- **C49 (partial)**: of two requests that differ in the class name and the module name only, the keys are
the same exactly if the names joined are the same. -/
theorem C49_names_partial (H : Hasher) (chk : Bool) (r : Request) (c c' m m' : Str) :
    key H chk { r with className := c, moduleName := m } = key H chk { r with className := c', moduleName := m' } ↔
      c ++ m = c' ++ m' := by
  simp only [key, List.append_cancel_left_eq]
  rw [← List.append_assoc c m, ← List.append_assoc c' m', List.append_cancel_right_eq]

/-- **C49 (counterexample)**: class `ab` in module `c` and class `a` in module `bc` have the same
key: the second request is answered with the class compiled for the first, which has another
name. -/
theorem C49_names_counterexample (H : Hasher) (chk : Bool) (r : Request) :
    key H chk { r with className := c!"ab", moduleName := c!"c" } =
      key H chk { r with className := c!"a", moduleName := c!"bc" } := by
  rw [C49_names_partial]; rfl

/-- **C49 (counterexample)**: an empty list and an empty dictionary have the same hash, whatever the
hash function: settings that differ there have the same key. -/
theorem C49_empty_counterexample (H : Hasher) (chk : Bool) (r : Request) (k : Str) :
    key H chk { r with settings := [(k, .list [])] } = key H chk { r with settings := [(k, .dict [])] } := by
  rw [((C49_one_part_partial H chk r).2.2.2.2.2.2.1) _ _ (by simp) (by simp)]
  rfl

/-- **C49 (counterexample)**: -1 and -2 have the same hash, whatever the hash function for strings and
tuples: a template compiled with the module global `n = -1` is returned when one with
`n = -2` is asked for. -/
theorem C49_minus_counterexample (H : Hasher) (chk : Bool) (r : Request) (k : Str) :
    key H chk { r with globals := [(k, .int (-1))] } = key H chk { r with globals := [(k, .int (-2))] } := by
  rw [((C49_one_part_partial H chk r).2.2.2.2.2.2.2.1) _ _ (by simp) (by simp)]
  simp only [hashDict, hashItems, hashVal, show intHash (-1) = intHash (-2) by decide]

/-- **C49, numbers**: settings that differ in one number below 2^61 - 1 have different keys, -1 and -2 excepted, unless the hash of
tuples itself gives the same number for different tuples. -/
theorem C49_numbers_partial (H : Hasher) (hH : ∀ a b, H.tuple a = H.tuple b → a = b) (chk : Bool) (r : Request) (k : Str) (a b : Int)
    (ha : -2305843009213693951 < a ∧ a < 2305843009213693951) (hb : -2305843009213693951 < b ∧ b < 2305843009213693951) :
    key H chk { r with settings := [(k, .int a)] } = key H chk { r with settings := [(k, .int b)] } ↔
      a = b ∨ (a = -1 ∧ b = -2) ∨ (a = -2 ∧ b = -1) := by
  have m : ∀ n : Int, -2305843009213693951 < n ∧ n < 2305843009213693951 → intHash n = if n = -1 then -2 else n := by
    intro n hn
    have : n.tmod 2305843009213693951 = n := by
      rcases Int.le_total 0 n with h | h
      · exact Int.tmod_eq_of_lt h hn.2
      · have h1 := Int.neg_tmod n 2305843009213693951
        rw [Int.tmod_eq_of_lt (by omega) (by omega)] at h1
        omega
    simp only [intHash, this]
  rw [((C49_one_part_partial H chk r).2.2.2.2.2.2.1) _ _ (by simp) (by simp)]
  have e : hashDict H [(k, .int a)] = hashDict H [(k, .int b)] ↔ intHash a = intHash b := by
    simp only [hashDict, hashItems, hashVal, sortItems, insertKey, List.map_cons, List.map_nil]
    constructor
    · intro h
      have h1 := List.head_eq_of_cons_eq (hH _ _ h)
      have h2 := hH _ _ h1
      simpa using h2
    · intro h; rw [h]
  rw [e, m a ha, m b hb]
  split <;> split <;> omega

/-- Such a hash of tuples exists. -/
example : ∃ H : Hasher, ∀ a b, H.tuple a = H.tuple b → a = b :=
  ⟨⟨0, fun _ => 0, fun l => (Encodable.encode l : Nat)⟩, fun _ _ h => Encodable.encode_injective (Int.ofNat.inj h)⟩

/-- **C49 (counterexample)**: a number and its remainder modulo 2^61 - 1 have the same hash. -/
theorem C49_large_number_counterexample (H : Hasher) (chk : Bool) (r : Request) (k : Str) :
    key H chk { r with globals := [(k, .int 2305843009213693951)] } = key H chk { r with globals := [(k, .int 0)] } := by
  rw [((C49_one_part_partial H chk r).2.2.2.2.2.2.2.1) _ _ (by simp) (by simp)]
  simp only [hashDict, hashItems, hashVal, show intHash 2305843009213693951 = intHash 0 by decide]

/-! ### C65: the main class's name -/

/-- **C65**: what becomes of a name with `n + 1` leading underscores: they all go, unless a digit or
nothing follows, where one stays; a name without them stays as it is. -/
theorem C65_underscores (n : Nat) (c : Char) (r : Str) (hc : c ≠ '_') :
    className (c :: r) = c :: r ∧ className [] = [] ∧
    (c.isDigit = false → className (List.replicate (n + 1) '_' ++ c :: r) = c :: r) ∧
    (c.isDigit = true → className (List.replicate (n + 1) '_' ++ c :: r) = '_' :: c :: r) ∧
    className (List.replicate (n + 1) '_') = ['_'] := by
  have h0 : (c == '_') = false := by simp [hc]
  have tw : ∀ (m : Nat) (s : Str), (List.replicate m '_' ++ s).takeWhile (· == '_') =
      List.replicate m '_' ++ s.takeWhile (· == '_') := by
    intro m s
    induction m with
    | zero => rfl
    | succ m ih => simp [List.replicate_succ, ih]
  have dw : ∀ (m : Nat) (s : Str), (List.replicate m '_' ++ s).dropWhile (· == '_') = s.dropWhile (· == '_') := by
    intro m s
    induction m with
    | zero => rfl
    | succ m ih => simp [List.replicate_succ, ih]
  have ht : (c :: r).takeWhile (· == '_') = [] := by simp [List.takeWhile, h0]
  have hd : (c :: r).dropWhile (· == '_') = c :: r := by simp [List.dropWhile, h0]
  refine ⟨?_, rfl, ?_, ?_, ?_⟩
  · simp only [className, ht, hd]
  · intro hg
    simp only [className, tw, dw, ht, hd, List.append_nil]
    simp only [List.replicate_succ, hg, if_true]
  · intro hg
    simp only [className, tw, dw, ht, hd, List.append_nil]
    cases n <;> simp [List.replicate_succ, hg]
  · have := tw (n + 1) []
    have := dw (n + 1) []
    simp only [List.append_nil] at *
    simp only [className, *]
    cases n <;> simp [List.replicate_succ]

/-- An ASCII identifier of Python. -/
def Ident (s : Str) : Prop :=
  (∃ c r, s = c :: r ∧ c.isDigit = false) ∧ ∀ c ∈ s, c.isAlphanum = true ∨ c = '_'

/-- **C65**: the class name made from an identifier is an identifier, and ends it. -/
theorem C65_identifier {s : Str} (h : Ident s) : Ident (className s) ∧ ∃ p, s = p ++ className s := by
  have key : ∀ s : Str, ∃ n, (s = List.replicate n '_') ∨ ∃ c r, c ≠ '_' ∧ s = List.replicate n '_' ++ c :: r := by
    intro s
    induction s with
    | nil => exact ⟨0, .inl rfl⟩
    | cons c s ih =>
      by_cases hc : c = '_'
      · subst hc
        obtain ⟨n, e | ⟨d, r, hd, e⟩⟩ := ih
        · exact ⟨n + 1, .inl (by rw [e]; rfl)⟩
        · exact ⟨n + 1, .inr ⟨d, r, hd, by rw [e]; rfl⟩⟩
      · exact ⟨0, .inr ⟨c, s, hc, rfl⟩⟩
  obtain ⟨⟨c0, r0, e0, hd0⟩, hall⟩ := h
  obtain ⟨n, e | ⟨c, r, hc, e⟩⟩ := key s
  · cases n with
    | zero => rw [e] at e0; cases e0
    | succ n =>
      rw [e, (C65_underscores n 'a' [] (by decide)).2.2.2.2]
      refine ⟨⟨⟨'_', [], rfl, by decide⟩, by simp⟩, List.replicate n '_', ?_⟩
      exact List.replicate_succ'
  · cases n with
    | zero =>
      rw [e, List.replicate, List.nil_append, (C65_underscores 0 c r hc).1]
      rw [e] at e0 hall
      refine ⟨⟨⟨c, r, rfl, ?_⟩, hall⟩, [], rfl⟩
      injection e0 with h1 h2; rw [h1]; exact hd0
    | succ n =>
      have sp := C65_underscores n c r hc
      cases hg : c.isDigit with
      | false =>
        rw [e, sp.2.2.1 hg]
        exact ⟨⟨⟨c, r, rfl, hg⟩, fun d hd => hall d (by rw [e]; exact List.mem_append_right _ hd)⟩, _, rfl⟩
      | true =>
        rw [e, sp.2.2.2.1 hg]
        refine ⟨⟨⟨'_', c :: r, rfl, by decide⟩, fun d hd => ?_⟩, List.replicate n '_', ?_⟩
        · rcases List.mem_cons.mp hd with h | h
          · exact .inr h
          · exact hall d (by rw [e]; exact List.mem_append_right _ h)
        · rw [List.replicate_succ']; simp

example : Ident c!"__1a" := ⟨⟨'_', _, rfl, by decide⟩, by decide⟩

/-! ### C66: module texts -/

/-- **C66**: a text whose encoding is not ASCII gets the coding line as its second line, and is
otherwise unchanged: `first`, the coding line, then the rest. -/
theorem C66_coding_line (enc first rest : Str) (h : '\n' ∉ first) :
    withCoding enc (first ++ '\n' :: rest) =
      first ++ '\n' :: (c!"# -*- coding: " ++ enc ++ c!" -*-") ++ '\n' :: rest ∧
    withCoding enc first = first ++ '\n' :: (c!"# -*- coding: " ++ enc ++ c!" -*-") := by
  constructor
  · unfold withCoding
    rw [splitCh_append_sep, splitCh_of_not_mem h]
    obtain ⟨p, ps, e⟩ : ∃ p ps, splitCh '\n' rest = p :: ps := by
      cases e : splitCh '\n' rest with
      | nil => exact absurd e (splitCh_ne_nil _ _)
      | cons p ps => exact ⟨p, ps, rfl⟩
    have hj : joinStr c!"\n" (p :: ps) = rest := by rw [← e]; exact join_splitCh _ _
    rw [e]
    simp only [List.singleton_append, List.take_succ_cons, List.take_zero, List.drop_succ_cons, List.drop_zero, joinStr]
    rw [hj]
    simp
  · unfold withCoding
    rw [splitCh_of_not_mem h]
    simp [joinStr]

/-- **C66 (partial)**: for a template whose encoding is ASCII, the text is the same whether it was
compiled now or comes from the cache: the code of each character, and `UnicodeEncodeError` where a character has none in ASCII.
Missing: other encodings (`C66_counterexample`). -/
theorem C66_cached_text_partial (other : Str → Str → Option (List Nat)) (code : Str) :
    moduleText other Option.none code = moduleText other (some c!"ascii") code ∧
    ((∀ c ∈ code, c.toNat < 128) → moduleText other Option.none code = some (code.map Char.toNat)) ∧
    ((∃ c ∈ code, 128 ≤ c.toNat) → moduleText other Option.none code = Option.none) := by
  refine ⟨rfl, fun h => ?_, ?_⟩
  · have : code.all (fun c => decide (c.toNat < 128)) = true := by simpa using h
    simp only [moduleText, Option.getD_none, if_true, encode, this]
  · rintro ⟨c, hc, hn⟩
    simp only [moduleText, Option.getD_none, if_true, encode]
    rw [if_neg]
    intro hall
    have := List.all_eq_true.mp hall c hc
    simp only [decide_eq_true_eq] at this
    omega

/-- **C66 (counterexample)**: for a template in another encoding whose text is not ASCII, the text
from the cache cannot be had: encoding it as ASCII raises, whatever compiling it now gives. -/
theorem C66_counterexample (other : Str → Str → Option (List Nat)) (code : Str) (h : ∃ c ∈ code, 128 ≤ c.toNat)
    (enc : Str) (henc : enc ≠ c!"ascii") (bytes : List Nat)
    (hfresh : other enc (withCoding enc code) = some bytes) :
    moduleText other (some enc) code = some bytes ∧ moduleText other Option.none code = Option.none := by
  obtain ⟨c, hc, hn⟩ := h
  constructor
  · simp only [moduleText, Option.getD_some, encode]
    rw [if_neg henc, if_neg henc, hfresh]
  · simp only [moduleText, Option.getD_none, if_true, encode]
    rw [if_neg]
    intro hall
    have := List.all_eq_true.mp hall c hc
    simp only [decide_eq_true_eq] at this
    omega

example : ∃ c ∈ c!"é", 128 ≤ c.toNat := by decide

end Cheetah.CompileCache
