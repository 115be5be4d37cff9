import Verif.Cache
/-
Properties C14 (in-memory cache store) and C16 (cache keys).
-/
namespace Cheetah.Cache
variable {V : Type}

/-! ### C14 -/

/-- The call stores `v` with expiry `e` under `k` when made on store `d`: a `set`,
or an `add` (the code's `replace` behaves the same) for an absent key. -/
def Stores (d : Store V) (op : Op V) (k : Str) (v : V) (e : Int) : Prop :=
  op = .set k v e ∨ ((op = .add k v e ∨ op = .replace k v e) ∧ Dict.get d k = none)

/-- The call is not a `set` or `delete` of `k`, nor a `clear`. (An `add` of a
present key only raises.) -/
def KeepsKey (k : Str) : Op V → Prop
  | .set k' _ _ => k' ≠ k
  | .delete k' => k' ≠ k
  | .clear => False
  | _ => True

/-- The call does not try to store under `k`. -/
def NotStoring (k : Str) : Op V → Prop
  | .set k' _ _ => k' ≠ k
  | .add k' _ _ => k' ≠ k
  | .replace k' _ _ => k' ≠ k
  | _ => True

theorem step_stores {d : Store V} {op : Op V} {k v e t} (h : Stores d op k v e) :
    Dict.get (Store.step d t op).2 k = some (v, e) := by
  rcases h with rfl | ⟨rfl | rfl, hn⟩
  · simp [Store.step, Dict.get_set]
  · simp [Store.step, hn, Dict.get_set]
  · simp [Store.step, hn, Dict.get_set]

/-- A live entry survives every call that keeps the key, as long as no `get`
happens after its expiry. -/
theorem step_live {d : Store V} {op : Op V} {k v e t} (hk : KeepsKey k op)
    (hg : Dict.get d k = some (v, e)) (ht : e = 0 ∨ t ≤ e) :
    Dict.get (Store.step d t op).2 k = some (v, e) := by
  cases op with
  | set k' v' e' => simp only [KeepsKey] at hk; simp [Store.step, Dict.get_set, hg, Ne.symm hk]
  | add k' v' e' =>
    simp only [Store.step]
    by_cases hkk : k' = k
    · subst hkk; simp [hg]
    · split
      · exact hg
      · simp [Dict.get_set, hg, Ne.symm hkk]
  | replace k' v' e' =>
    simp only [Store.step]
    by_cases hkk : k' = k
    · subst hkk; simp [hg]
    · split
      · exact hg
      · simp [Dict.get_set, hg, Ne.symm hkk]
  | delete k' =>
    simp only [KeepsKey] at hk
    simp only [Store.step, Store.delete']
    cases Dict.get d k' with
    | none => exact hg
    | some x => exact (Dict.get_del_ne d (Ne.symm hk)).trans hg
  | get k' =>
    simp only [Store.step, Store.get']
    by_cases hkk : k' = k
    · subst hkk
      simp only [hg]
      rw [if_neg (by omega)]
      exact hg
    · cases Dict.get d k' with
      | none => exact hg
      | some x =>
        obtain ⟨v', e'⟩ := x
        simp only
        split
        · next heq => split at heq <;> cases heq <;> exact hg
        · next heq =>
          split at heq
          · cases heq; exact (Dict.get_del_ne d (Ne.symm hkk)).trans hg
          · cases heq
  | clear => simp [KeepsKey] at hk

/-- **C14, a stored value is returned until it expires.** If a call stores `v` under
`k` with expiry `e`, and later calls (made no later than `now`) do not set or
delete `k` nor clear the store, then `get(k)` at time `now` returns `v` when `e`
is 0 or not yet passed. -/
theorem C14_get_returns_latest (d : Store V) (t : Int) (op : Op V) (k : Str) (v : V) (e : Int)
    (post : List (Int × Op V)) (now : Int)
    (hstore : Stores d op k v e)
    (hpost : ∀ x ∈ post, KeepsKey k x.2 ∧ x.1 ≤ now)
    (hlive : e = 0 ∨ now ≤ e) :
    (Store.step (Store.run d ((t, op) :: post)) now (.get k)).1 = .ok (some v) := by
  have h : ∀ (post : List (Int × Op V)) (d : Store V), (∀ x ∈ post, KeepsKey k x.2 ∧ x.1 ≤ now) →
      Dict.get d k = some (v, e) → Dict.get (Store.run d post) k = some (v, e) := by
    intro post
    induction post with
    | nil => intro d _ h; exact h
    | cons x post ih =>
      obtain ⟨t', op'⟩ := x
      intro d hp hg
      have hx := hp (t', op') (by simp)
      refine ih _ (fun y hy => hp y (by simp [hy])) (step_live hx.1 hg ?_)
      have := hx.2
      simp at this
      omega
  have hg := h post _ hpost (step_stores (t := t) hstore)
  have hg' : Dict.get (Store.run d ((t, op) :: post)) k = some (v, e) := hg
  simp only [Store.step, Store.get', hg']
  rw [if_neg (by omega)]

theorem step_nodup {d : Store V} (h : (Dict.keys d).Nodup) (t : Int) (op : Op V) :
    (Dict.keys (Store.step d t op).2).Nodup := by
  cases op with
  | set k v e => exact Dict.nodup_set _ _ _ h
  | add k v e =>
            simp only [Store.step]; split
            · exact h
            · exact Dict.nodup_set _ _ _ h
  | replace k v e =>
            simp only [Store.step]; split
            · exact h
            · exact Dict.nodup_set _ _ _ h
  | delete k =>
    simp only [Store.step, Store.delete']
    cases Dict.get d k
    · exact h
    · exact Dict.nodup_del _ _ h
  | get k =>
    simp only [Store.step, Store.get']
    cases Dict.get d k with
    | none => exact h
    | some x =>
      obtain ⟨v, e⟩ := x
      simp only
      split
      · next heq => split at heq <;> cases heq <;> exact h
      · next heq =>
        split at heq
        · cases heq; exact Dict.nodup_del _ _ h
        · cases heq
  | clear => simp [Store.step, Dict.keys]

theorem run_nodup (h : List (Int × Op V)) : ∀ {d : Store V}, (Dict.keys d).Nodup →
    (Dict.keys (Store.run d h)).Nodup := by
  induction h with
  | nil => intro d hd; exact hd
  | cons x h ih => obtain ⟨t, op⟩ := x; intro d hd; exact ih (step_nodup hd t op)

/-- Calls that do not store under `k` never make it appear, and never change it
other than by removing it. -/
theorem step_notStoring {d : Store V} (hd : (Dict.keys d).Nodup) {op : Op V} {k t}
    (h : NotStoring k op) :
    Dict.get (Store.step d t op).2 k = none ∨ Dict.get (Store.step d t op).2 k = Dict.get d k := by
  cases op with
  | set k' v' e' => simp only [NotStoring] at h; right; simp [Store.step, Dict.get_set, Ne.symm h]
  | add k' v' e' =>
    simp only [NotStoring] at h
    right; simp only [Store.step]; split
    · rfl
    · simp [Dict.get_set, Ne.symm h]
  | replace k' v' e' =>
    simp only [NotStoring] at h
    right; simp only [Store.step]; split
    · rfl
    · simp [Dict.get_set, Ne.symm h]
  | delete k' =>
    simp only [Store.step, Store.delete']
    cases Dict.get d k' with
    | none => exact Or.inr rfl
    | some x =>
      have := Dict.get_del d hd k' k
      by_cases hk : k = k'
      · left; rw [if_pos hk] at this; exact this
      · right; rw [if_neg hk] at this; exact this
  | get k' =>
    simp only [Store.step, Store.get']
    cases Dict.get d k' with
    | none => exact Or.inr rfl
    | some x =>
      obtain ⟨v, e⟩ := x
      simp only
      split
      · next heq => split at heq <;> cases heq <;> exact Or.inr rfl
      · next heq =>
        split at heq
        · cases heq
          have := Dict.get_del d hd k' k
          by_cases hk : k = k'
          · left; rw [if_pos hk] at this; exact this
          · right; rw [if_neg hk] at this; exact this
        · cases heq
  | clear => left; rfl

theorem run_notStoring {k : Str} (h : List (Int × Op V)) : ∀ {d : Store V},
    (Dict.keys d).Nodup → (∀ x ∈ h, NotStoring k x.2) →
    Dict.get (Store.run d h) k = none ∨ Dict.get (Store.run d h) k = Dict.get d k := by
  induction h with
  | nil => intro d _ _; exact Or.inr rfl
  | cons x h ih =>
    obtain ⟨t, op⟩ := x
    intro d hd hp
    rcases ih (step_nodup hd t op) (fun y hy => hp y (by simp [hy])) with h1 | h1
    · exact Or.inl h1
    · rcases step_notStoring (t := t) hd (hp (t, op) (by simp)) with h2 | h2
      · exact Or.inl (h1.trans h2)
      · exact Or.inr (h1.trans h2)

/-- **C14, KeyError.** `get(k)` raises KeyError at time `now` after any history `pre`
followed by (a) a call storing under `k` with an expiry time that has passed, or
(b) a `delete(k)` or `clear()`, and then any calls that do not store under `k`.
(c) It also raises if nothing was ever stored under `k`. -/
theorem C14_get_keyError (pre post : List (Int × Op V)) (k : Str) (now t : Int)
    (hpost : ∀ x ∈ post, NotStoring k x.2) :
    (∀ op v e, Stores (Store.run [] pre) op k v e → e ≠ 0 → now > e →
      (Store.step (Store.run [] (pre ++ (t, op) :: post)) now (.get k)).1 = .error .keyError) ∧
    (∀ op, (op = .delete k ∨ op = .clear) →
      (Store.step (Store.run [] (pre ++ (t, op) :: post)) now (.get k)).1 = .error .keyError) ∧
    ((Store.step (Store.run ([] : Store V) post) now (.get k)).1 = .error .keyError) := by
  have hrun : ∀ (a b : List (Int × Op V)) (d : Store V),
      Store.run d (a ++ b) = Store.run (Store.run d a) b := by
    intro a
    induction a with
    | nil => intro b d; rfl
    | cons x a ih => obtain ⟨t, op⟩ := x; intro b d; exact ih b _
  have hnd : (Dict.keys (Store.run ([] : Store V) pre)).Nodup := run_nodup pre (by simp [Dict.keys])
  have key : ∀ (d : Store V), (Dict.get d k = none ∨ ∃ v e, Dict.get d k = some (v, e) ∧ e ≠ 0 ∧ now > e) →
      (Store.step d now (.get k)).1 = .error .keyError := by
    intro d h
    simp only [Store.step, Store.get']
    rcases h with h | ⟨v, e, h, h1, h2⟩
    · simp [h]
    · simp only [h]; rw [if_pos ⟨h1, h2⟩]
  refine ⟨?_, ?_, ?_⟩
  · intro op v e hs he hnow
    rw [hrun]
    apply key
    rcases run_notStoring post (d := (Store.step (Store.run [] pre) t op).2)
        (step_nodup hnd t op) hpost with h | h
    · exact Or.inl h
    · exact Or.inr ⟨v, e, by
        show Dict.get (Store.run (Store.step (Store.run [] pre) t op).2 post) k = _
        rw [h]; exact step_stores hs, he, hnow⟩
  · intro op hop
    rw [hrun]
    apply key
    left
    have h0 : Dict.get (Store.step (Store.run [] pre) t op).2 k = none := by
      rcases hop with rfl | rfl
      · simp only [Store.step, Store.delete']
        cases hg : Dict.get (Store.run ([] : Store V) pre) k with
        | none => exact hg
        | some x =>
          have := Dict.get_del _ hnd k k
          simpa using this
      · rfl
    rcases run_notStoring post (d := (Store.step (Store.run [] pre) t op).2)
        (step_nodup hnd t op) hpost with h | h
    · exact h
    · exact h.trans h0
  · apply key
    left
    rcases run_notStoring post (d := ([] : Store V)) (by simp [Dict.keys]) hpost with h | h
    · exact h
    · exact h

/-- **C14, `add` refuses to overwrite.** It raises and changes nothing when the key
is present, and stores otherwise. -/
theorem C14_add (d : Store V) (t : Int) (k : Str) (v : V) (e : Int) :
    (∀ x, Dict.get d k = some x → Store.step d t (.add k v e) = (.error .alreadyThere, d)) ∧
    (Dict.get d k = none → (Store.step d t (.add k v e)).1 = .ok none ∧
      Dict.get (Store.step d t (.add k v e)).2 k = some (v, e)) := by
  constructor
  · intro x h; simp [Store.step, h]
  · intro h; simp [Store.step, h, Dict.get_set]

/-- **C14, other keys are never affected** by an operation on `k` (`clear` aside). -/
theorem C14_frame (d : Store V) (t : Int) (k k' : Str) (v : V) (e : Int) (hne : k' ≠ k) (op : Op V)
    (hop : op = .set k v e ∨ op = .add k v e ∨ op = .replace k v e ∨ op = .delete k ∨ op = .get k) :
    Dict.get (Store.step d t op).2 k' = Dict.get d k' := by
  rcases hop with rfl | rfl | rfl | rfl | rfl
  · simp [Store.step, Dict.get_set, hne]
  · simp only [Store.step]; split
    · rfl
    · simp [Dict.get_set, hne]
  · simp only [Store.step]; split
    · rfl
    · simp [Dict.get_set, hne]
  · simp only [Store.step, Store.delete']
    cases Dict.get d k with
    | none => rfl
    | some x => exact Dict.get_del_ne d hne
  · simp only [Store.step, Store.get']
    cases Dict.get d k with
    | none => rfl
    | some x =>
      obtain ⟨v', e'⟩ := x
      simp only
      split
      · next heq => split at heq <;> cases heq <;> rfl
      · next heq =>
        split at heq
        · cases heq; exact Dict.get_del_ne d hne
        · cases heq

/-- Finding: `replace` does the opposite of its documentation ("set only if the
server already have this key"): it raises for every present key and stores
under every absent one. -/
theorem C14_replace_counterexample (d : Store V) (t : Int) (k : Str) (v : V) (e : Int) :
    (∀ x, Dict.get d k = some x → (Store.step d t (.replace k v e)).1 = .error .alreadyThere) ∧
    (Dict.get d k = none →
      Dict.get (Store.step d t (.replace k v e)).2 k = some (v, e)) := by
  constructor
  · intro x h; simp [Store.step, h]
  · intro h; simp [Store.step, h, Dict.get_set]

example : Stores ([] : Store Nat) (.add c!"k" 3 10) c!"k" 3 10 := Or.inr ⟨Or.inl rfl, rfl⟩
example : (Store.step (Store.run [] [(1, .add c!"k" 3 10), (2, .add c!"k" 4 0), (3, .get c!"k")])
    10 (.get c!"k")).1 = .ok (some 3) := by decide
example : (Store.step (Store.run ([] : Store Nat) [(1, .add c!"k" 3 10), (2, .add c!"k" 4 0)])
    11 (.get c!"k")).1 = .error .keyError := by decide

/-! ### C16 -/

/-- **C16.** With prefixes and item digests free of ':', two cache items have the
same key in the store only if prefix, region and item agree — whatever the
region ids contain. -/
theorem C16_keys_injective (p p' r r' g g' : Str) (hp : ':' ∉ p) (hp' : ':' ∉ p')
    (hg : ':' ∉ g) (hg' : ':' ∉ g') (h : storeKey p r g = storeKey p' r' g') :
    p = p' ∧ r = r' ∧ g = g' := by
  have cut : ∀ (x y x' y' : Str), ':' ∉ x → ':' ∉ x' → x ++ ':' :: y = x' ++ ':' :: y' →
      x = x' ∧ y = y' := by
    intro x
    induction x with
    | nil =>
      intro y x' y' _ hx' he
      cases x' with
      | nil => simp at he; exact ⟨rfl, he⟩
      | cons c x' => simp at he; simp [← he.1] at hx'
    | cons c x ih =>
      intro y x' y' hx hx' he
      cases x' with
      | nil => simp at he; simp [he.1] at hx
      | cons c' x' =>
        simp at he hx hx'
        obtain ⟨a, b⟩ := ih y x' y' hx.2 hx'.2 he.2
        exact ⟨by rw [he.1, a], b⟩
  simp only [storeKey, List.append_assoc, List.cons_append, List.nil_append] at h
  obtain ⟨h1, h2⟩ := cut _ _ _ _ hp hp' h
  -- the last ':' separates region and digest: reverse
  have h3 := congrArg List.reverse h2
  simp only [List.reverse_append, List.reverse_cons, List.append_assoc, List.cons_append,
    List.nil_append] at h3
  obtain ⟨h4, h5⟩ := cut _ _ _ _ (by simpa using hg) (by simpa using hg') h3
  exact ⟨h1, by simpa using h5, by simpa using h4⟩

/-- Without that restriction (`cacheStoreIdPrefix` is chosen by the user) two
different templates can share a key. -/
theorem C16_colon_prefix_counterexample :
    storeKey c!"site:a" c!"menu" c!"00" = storeKey c!"site" c!"a:menu" c!"00" ∧
    (c!"site:a" : Str) ≠ c!"site" := by decide

example : ':' ∉ c!"140312" ∧ ':' ∉ c!"d41d8cd98f00b204e9800998ecf8427e" := by decide

end Cheetah.Cache
