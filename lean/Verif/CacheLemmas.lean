import Verif.Props.CacheStore
/-
Lemmas about the cache-region state machine (no property theorems here).
-/
namespace Cheetah.Cache

theorem get'_ok {d : Store Str} {t k v d'} (h : Store.get' d t k = (.ok v, d')) :
    d' = d ∧ ∃ e, Dict.get d k = some (v, e) ∧ ¬ (e ≠ 0 ∧ t > e) := by
  unfold Store.get' at h
  cases hg : Dict.get d k with
  | none => simp [hg] at h
  | some x =>
    obtain ⟨v', e⟩ := x
    simp only [hg] at h
    by_cases hc : e ≠ 0 ∧ t > e
    · rw [if_pos hc] at h; cases h
    · rw [if_neg hc] at h; cases h; exact ⟨rfl, e, rfl, hc⟩

theorem get'_error {d : Store Str} {t k x d'} (h : Store.get' d t k = (.error x, d')) :
    (d' = d ∧ Dict.get d k = none) ∨
    (d' = Dict.del d k ∧ ∃ v e, Dict.get d k = some (v, e) ∧ e ≠ 0 ∧ t > e) := by
  unfold Store.get' at h
  cases hg : Dict.get d k with
  | none => simp [hg] at h; exact Or.inl ⟨h.2.symm, rfl⟩
  | some x =>
    obtain ⟨v', e⟩ := x
    simp only [hg] at h
    by_cases hc : e ≠ 0 ∧ t > e
    · rw [if_pos hc] at h; cases h; exact Or.inr ⟨rfl, v', e, rfl, hc⟩
    · rw [if_neg hc] at h; cases h

/-- The item after `setExpiryTime(currentTime() + interval)`.
Proof device for Props/Cache.lean; models no code in /repo. -/
def bump (it : Item) (interval : Option Int) (cur : Int) : Item :=
  match interval with
  | some d => if d ≠ 0 then { it with expiry := cur + d } else it
  | none => it

/-- The two outcomes of entering a region. -/
theorem enter_cases (pfx : Str) (s : State) (rid dig : Str) (i : Option Int) (test : Bool) (t : Times) :
    let it := (getItem (getRegion s rid) dig).1
    let r1 := (getItem (getRegion s rid) dig).2
    let k := storeKey pfx rid dig
    (((getRegion s rid).isNew = false ∧ it.hasExpired t.expired = false ∧ test = false ∧
        it.refreshed = true) ∧
      ∃ v e, Dict.get s.store k = some (v, e) ∧ ¬ (e ≠ 0 ∧ t.get > e) ∧
        enter pfx s rid dig i test t = (false, { s with regions := s.regions.set rid r1 }.write v)) ∨
    (((getRegion s rid).isNew = true ∨ it.hasExpired t.expired = true ∨ test = true ∨
        it.refreshed = false ∨ Dict.get s.store k = none ∨
        ∃ v e, Dict.get s.store k = some (v, e) ∧ e ≠ 0 ∧ t.get > e) ∧
      ∃ d', (d' = s.store ∨
          (d' = Dict.del s.store k ∧ ∃ v e, Dict.get s.store k = some (v, e) ∧ e ≠ 0 ∧ t.get > e)) ∧
        enter pfx s rid dig i test t =
          (true, { s with
            store := d'
            regions := (s.regions.set rid r1).set rid { r1 with items := r1.items.set dig (bump it i t.current) }
            stack := ⟨rid, dig, []⟩ :: s.stack })) := by
  intro it r1 k
  unfold enter
  have hp : getItem (getRegion s rid) dig = (it, r1) := rfl
  simp only [hp]
  by_cases hm : ((getRegion s rid).isNew || it.hasExpired t.expired || test) = false
  · simp only [Bool.or_eq_false_iff] at hm
    obtain ⟨⟨h1, h2⟩, h3⟩ := hm
    cases hr : it.refreshed with
    | true =>
      simp only [h1, h2, h3, Bool.or_false, Bool.not_false, Bool.and_self, if_true]
      cases hg : Store.get' s.store t.get k with
      | mk res d' =>
        cases res with
        | ok v =>
          left
          obtain ⟨hd, e, hget, hne⟩ := get'_ok hg
          subst hd
          refine ⟨⟨trivial, trivial, trivial, trivial⟩, v, e, hget, hne, ?_⟩
          rfl
        | error x =>
          right
          rcases get'_error hg with ⟨hd, hn⟩ | ⟨hd, v, e, hget, hne⟩
          · exact ⟨by simp [hn], d', Or.inl hd, rfl⟩
          · exact ⟨by right; right; right; right; right; exact ⟨v, e, hget, hne⟩, d',
              Or.inr ⟨hd, v, e, hget, hne⟩, rfl⟩
    | false =>
      right
      simp only [h1, h2, h3, Bool.or_false, Bool.not_false, Bool.and_false, Bool.or_true]
      exact ⟨by simp, s.store, Or.inl rfl, rfl⟩
  · right
    have hm' : ((getRegion s rid).isNew || it.hasExpired t.expired || test) = true := (Bool.not_eq_false _).mp hm
    simp only [hm', Bool.not_true, Bool.false_and, Bool.true_or]
    refine ⟨?_, s.store, Or.inl rfl, rfl⟩
    simp only [Bool.or_eq_true] at hm'
    rcases hm' with (h | h) | h
    · exact Or.inl h
    · exact Or.inr (Or.inl h)
    · exact Or.inr (Or.inr (Or.inl h))

@[simp] theorem write_store (s : State) (v : Str) : (s.write v).store = s.store := by
  unfold State.write; split <;> rfl
@[simp] theorem write_regions (s : State) (v : Str) : (s.write v).regions = s.regions := by
  unfold State.write; split <;> rfl
@[simp] theorem getRegion_write (s : State) (v rid : Str) :
    getRegion (s.write v) rid = getRegion s rid := by
  simp [getRegion]

theorem write_stack_mem {s : State} {v : Str} {f : Frame} (h : f ∈ (s.write v).stack) :
    ∃ f' ∈ s.stack, f'.rid = f.rid ∧ f'.dig = f.dig := by
  unfold State.write at h
  cases hs : s.stack with
  | nil => rw [hs] at h; simp [hs] at h
  | cons g gs =>
    rw [hs] at h
    simp only [List.mem_cons] at h
    rcases h with rfl | h
    · exact ⟨g, by simp, rfl, rfl⟩
    · exact ⟨f, by simp [h], rfl, rfl⟩

/-- `d'` is `d` with some entries removed.
Proof device for Props/Cache.lean; models no code in /repo. -/
def Sub (d' d : Store Str) : Prop := ∀ k, Dict.get d' k = none ∨ Dict.get d' k = Dict.get d k

theorem Sub.refl (d : Store Str) : Sub d d := fun _ => Or.inr rfl
theorem Sub.trans {a b c : Store Str} (h1 : Sub a b) (h2 : Sub b c) : Sub a c := by
  intro k
  rcases h1 k with h | h
  · exact Or.inl h
  · rcases h2 k with h' | h'
    · exact Or.inl (h.trans h')
    · exact Or.inr (h.trans h')
theorem Sub.del {d : Store Str} (hd : d.keys.Nodup) (k : Str) : Sub (Dict.del d k) d := by
  intro k'
  have := Dict.get_del d hd k k'
  by_cases h : k' = k
  · rw [if_pos h] at this; exact Or.inl this
  · rw [if_neg h] at this; exact Or.inr this

/-- The digests are hexadecimal: no ':'.
Proof device for Props/Cache.lean; models no code in /repo. -/
def Digest (dig : Str) : Prop := ':' ∉ dig

theorem storeKey_inj {pfx r r' g g' : Str} (hp : ':' ∉ pfx) (hg : Digest g) (hg' : Digest g')
    (h : storeKey pfx r g = storeKey pfx r' g') : r = r' ∧ g = g' :=
  (C16_keys_injective pfx pfx r r' g g' hp hp hg hg' h).2

/-- Structural invariant.
Proof device for Props/Cache.lean; models no code in /repo. -/
structure WF (s : State) : Prop where
  store : s.store.keys.Nodup
  regs : s.regions.keys.Nodup
  items : ∀ rid r, s.regions.get rid = some r → r.items.keys.Nodup ∧ ∀ g ∈ r.items.keys, Digest g
  stack : ∀ f ∈ s.stack, Digest f.dig ∧ ∃ it, (getRegion s f.rid).items.get f.dig = some it
  old : ∀ rid r, s.regions.get rid = some r → r.isNew = false

theorem WF.region {s : State} (h : WF s) (rid : Str) :
    (getRegion s rid).items.keys.Nodup ∧ ∀ g ∈ (getRegion s rid).items.keys, Digest g := by
  unfold getRegion
  cases hr : s.regions.get rid with
  | none => simp [Dict.keys]
  | some r => exact h.items rid r hr

theorem WF.init : WF State.init :=
  ⟨by simp [State.init, Dict.keys], by simp [State.init, Dict.keys],
   by intro rid r h; simp [State.init, Dict.get] at h, by simp [State.init],
   by intro rid r h; simp [State.init, Dict.get] at h⟩

theorem getItem_get (r : Region) (dig : Str) :
    (getItem r dig).2.items.get dig = some (getItem r dig).1 := by
  unfold getItem
  cases h : r.items.get dig with
  | none => simp [Dict.get_set]
  | some i => simpa using h

theorem getItem_get_ne (r : Region) {dig g : Str} (h : g ≠ dig) :
    (getItem r dig).2.items.get g = r.items.get g := by
  unfold getItem
  cases hh : r.items.get dig with
  | none => simp [Dict.get_set, h]
  | some i => rfl

theorem getItem_isNew (r : Region) (dig : Str) :
    (getItem r dig).2.isNew = true → r.isNew = true ∧ (r.items.get dig).isSome := by
  unfold getItem
  cases h : r.items.get dig with
  | none => simp
  | some i => simp

theorem WF.getItem_old {s : State} (h : WF s) (rid dig : Str) :
    (getItem (getRegion s rid) dig).2.isNew = false := by
  unfold getItem
  cases hi : (getRegion s rid).items.get dig with
  | none => rfl
  | some i =>
    unfold getRegion at hi ⊢
    cases hr : s.regions.get rid with
    | none => simp [hr, Dict.get] at hi
    | some r => exact h.old rid r hr

theorem getItem_keys (r : Region) {dig : Str} (hn : r.items.keys.Nodup ∧ ∀ g ∈ r.items.keys, Digest g)
    (hd : Digest dig) :
    (getItem r dig).2.items.keys.Nodup ∧ ∀ g ∈ (getItem r dig).2.items.keys, Digest g := by
  unfold getItem
  cases h : r.items.get dig with
  | some i => exact hn
  | none =>
    refine ⟨Dict.nodup_set _ _ _ hn.1, ?_⟩
    intro g hg
    rcases (Dict.mem_keys_set _ _ _ _).1 hg with rfl | hg
    · exact hd
    · exact hn.2 g hg

theorem set_keys {items : Dict Str Item} {dig : Str} (i : Item)
    (hn : items.keys.Nodup ∧ ∀ g ∈ items.keys, Digest g) (hd : Digest dig) :
    (items.set dig i).keys.Nodup ∧ ∀ g ∈ (items.set dig i).keys, Digest g := by
  refine ⟨Dict.nodup_set _ _ _ hn.1, ?_⟩
  intro g hg
  rcases (Dict.mem_keys_set _ _ _ _).1 hg with rfl | hg
  · exact hd
  · exact hn.2 g hg

theorem del_keys {items : Dict Str Item} (dig : Str)
    (hn : items.keys.Nodup ∧ ∀ g ∈ items.keys, Digest g) :
    (items.del dig).keys.Nodup ∧ ∀ g ∈ (items.del dig).keys, Digest g := by
  refine ⟨Dict.nodup_del _ _ hn.1, ?_⟩
  intro g hg
  exact hn.2 g (Dict.mem_keys_of_del _ _ hg)

/-- `getRegion` after storing a region. -/
theorem getRegion_set (s : State) (rid rid' : Str) (r : Region) :
    getRegion { s with regions := s.regions.set rid r } rid' =
      if rid' = rid then r else getRegion s rid' := by
  unfold getRegion
  simp only [Dict.get_set]
  by_cases h : rid' = rid
  · simp [h]
  · simp [h]

theorem getRegion_congr {s s' : State} (h : s.regions = s'.regions) (rid : Str) :
    getRegion s rid = getRegion s' rid := by simp [getRegion, h]

/-! #### Clearing -/

theorem clearItem_ok {pfx : Str} {d d' : Store Str} {rid dig : Str}
    (h : clearItem pfx d rid dig = (.ok (), d')) :
    (Dict.get d (storeKey pfx rid dig)).isSome ∧ d' = Dict.del d (storeKey pfx rid dig) := by
  unfold clearItem Store.delete' at h
  cases hg : Dict.get d (storeKey pfx rid dig) with
  | none => simp [hg] at h
  | some x => simp [hg] at h; exact ⟨rfl, h.symm⟩

theorem clearItem_error {pfx : Str} {d d' : Store Str} {rid dig : Str} {e}
    (h : clearItem pfx d rid dig = (.error e, d')) :
    Dict.get d (storeKey pfx rid dig) = none ∧ d' = d := by
  unfold clearItem Store.delete' at h
  cases hg : Dict.get d (storeKey pfx rid dig) with
  | none => simp [hg] at h; exact ⟨rfl, h.2.symm⟩
  | some x => simp [hg] at h

theorem clearItems_spec {pfx rid : Str} (hp : ':' ∉ pfx) : ∀ (digs : List Str) (d : Store Str)
    (items : Dict Str Item), digs.Nodup → (∀ g ∈ digs, Digest g) → d.keys.Nodup →
    (items.keys.Nodup ∧ ∀ g ∈ items.keys, Digest g) →
    let res := clearItems pfx rid digs d items
    (res.1 = .ok () ↔ ∀ g ∈ digs, (Dict.get d (storeKey pfx rid g)).isSome) ∧
    (res.1 = .ok () → (∀ g, res.2.2.get g = if g ∈ digs then none else items.get g)) ∧
    (∀ k, (∀ g ∈ digs, k ≠ storeKey pfx rid g) → Dict.get res.2.1 k = Dict.get d k) ∧
    Sub res.2.1 d ∧ res.2.1.keys.Nodup ∧ (res.2.2.keys.Nodup ∧ ∀ g ∈ res.2.2.keys, Digest g) ∧
    (res.1 = .ok () → ∀ g ∈ digs, Dict.get res.2.1 (storeKey pfx rid g) = none) := by
  intro digs
  induction digs with
  | nil =>
    intro d items _ _ hd hi
    simp only [clearItems]
    exact ⟨by simp, by simp, by simp, Sub.refl d, hd, hi, by simp⟩
  | cons g digs ih =>
    intro d items hn hdig hd hi
    simp only [List.nodup_cons] at hn
    simp only [clearItems]
    cases hc : clearItem pfx d rid g with
    | mk res d' =>
      cases res with
      | error e =>
        obtain ⟨h1, h2⟩ := clearItem_error hc
        subst h2
        refine ⟨?_, by simp, by simp, Sub.refl _, hd, hi, by simp⟩
        simp [h1]
      | ok u =>
        cases u
        obtain ⟨h1, h2⟩ := clearItem_ok hc
        subst h2
        have hgd := hdig g (by simp)
        obtain ⟨i1, i2, i3, i4, i5, i6, i7⟩ := ih (Dict.del d (storeKey pfx rid g)) (items.del g) hn.2
          (fun x hx => hdig x (by simp [hx])) (Dict.nodup_del _ _ hd) (del_keys g hi)
        have hne : ∀ x ∈ digs, storeKey pfx rid x ≠ storeKey pfx rid g := by
          intro x hx he
          have := (storeKey_inj hp (hdig x (by simp [hx])) hgd he).2
          subst this
          exact hn.1 hx
        have hkeep : ∀ x ∈ digs, Dict.get (Dict.del d (storeKey pfx rid g)) (storeKey pfx rid x) =
            Dict.get d (storeKey pfx rid x) := fun x hx => Dict.get_del_ne d (hne x hx)
        refine ⟨?_, ?_, ?_, i4.trans (Sub.del hd _), i5, i6, ?_⟩
        · rw [i1]
          constructor
          · intro h x hx
            rcases List.mem_cons.1 hx with rfl | hx
            · exact h1
            · rw [← hkeep x hx]; exact h x hx
          · intro h x hx
            rw [hkeep x hx]; exact h x (by simp [hx])
        · intro hok x
          rw [i2 hok x]
          have hdel := Dict.get_del items hi.1 g x
          by_cases hx : x ∈ digs
          · simp [hx]
          · rw [if_neg hx, hdel]
            by_cases hxg : x = g
            · simp [hxg]
            · simp [hxg, hx]
        · intro k hk
          rw [i3 k (fun x hx => hk x (by simp [hx]))]
          exact Dict.get_del_ne d (hk g (by simp))
        · intro hok x hx
          rcases List.mem_cons.1 hx with rfl | hx
          · rw [i3 _ (fun y hy => (hne y hy).symm)]
            have := Dict.get_del d hd (storeKey pfx rid x) (storeKey pfx rid x)
            simpa using this
          · exact i7 hok x hx

/-- All items of region `rid` of `s` have an entry in the store.
Proof device for Props/Cache.lean; models no code in /repo. -/
def Stored (pfx : Str) (s : State) (rid : Str) : Prop :=
  ∀ dig it, (getRegion s rid).items.get dig = some it →
    (Dict.get s.store (storeKey pfx rid dig)).isSome

theorem clearRegion_spec {pfx : Str} (hp : ':' ∉ pfx) (s : State) (hw : WF s) (hst : s.stack = [])
    (rid : Str) :
    let res := clearRegion pfx s rid
    WF res.2 ∧ res.2.stack = [] ∧ res.2.out = s.out ∧ Sub res.2.store s.store ∧
    (res.1 = .ok () ↔ Stored pfx s rid) ∧
    (res.1 = .ok () → ∀ dig, (getRegion res.2 rid).items.get dig = none) ∧
    (∀ rid', rid' ≠ rid → res.2.regions.get rid' = s.regions.get rid') ∧
    (∀ rid' dig, Digest dig → rid' ≠ rid →
      Dict.get res.2.store (storeKey pfx rid' dig) = Dict.get s.store (storeKey pfx rid' dig)) ∧
    (∀ rid', rid' ∈ res.2.regions.keys ↔ rid' ∈ s.regions.keys) := by
  intro res
  have hres : res = clearRegion pfx s rid := rfl
  clear_value res
  unfold clearRegion at hres
  cases hr : s.regions.get rid with
  | none =>
    simp only [hr] at hres
    subst hres
    refine ⟨hw, hst, rfl, Sub.refl _, ?_, ?_, fun _ _ => rfl, fun _ _ _ _ => rfl, fun _ => Iff.rfl⟩
    · simp only [true_iff]
      intro dig it h
      simp [getRegion, hr, Dict.get] at h
    · intro _ dig; simp [getRegion, hr, Dict.get]
  | some r =>
    simp only [hr] at hres
    have hi := hw.items rid r hr
    obtain ⟨c1, c2, c3, c4, c5, c6, c7⟩ := clearItems_spec (rid := rid) hp r.items.keys s.store r.items hi.1 hi.2
      hw.store hi
    have hgr : getRegion s rid = r := by simp [getRegion, hr]
    generalize hcc : clearItems pfx rid r.items.keys s.store r.items = cc at *
    obtain ⟨res', d', items'⟩ := cc
    subst hres
    simp only at *
    refine ⟨⟨c5, Dict.nodup_set _ _ _ hw.regs, ?_, by simp [hst], ?_⟩, hst, trivial, c4, ?_, ?_, ?_, ?_, ?_⟩
    · intro rid' r' h
      rw [Dict.get_set] at h
      by_cases he : rid' = rid
      · rw [if_pos he] at h; cases h; exact c6
      · rw [if_neg he] at h; exact hw.items rid' r' h
    · intro rid' r' h
      rw [Dict.get_set] at h
      by_cases he : rid' = rid
      · rw [if_pos he] at h; cases h; exact hw.old rid r hr
      · rw [if_neg he] at h; exact hw.old rid' r' h
    · rw [c1]
      constructor
      · intro h dig it hit
        rw [hgr] at hit
        exact h dig ((Dict.get_isSome _ _).1 (by simp [hit]))
      · intro h g hg
        have := (Dict.get_isSome r.items g).2 hg
        obtain ⟨it, hit⟩ := Option.isSome_iff_exists.1 this
        exact h g it (by rw [hgr]; exact hit)
    · intro hok dig
      simp only [getRegion, Dict.get_set, if_pos, Option.getD_some]
      rw [c2 hok dig]
      split
      · rfl
      · next h => exact (Dict.get_eq_none _ _).2 h
    · intro rid' hne
      simp [Dict.get_set, hne]
    · intro rid' dig hdig hne
      apply c3
      intro g hg he
      exact hne (storeKey_inj hp hdig (hi.2 g hg) he).1
    · intro rid'
      rw [Dict.mem_keys_set]
      constructor
      · rintro (rfl | h)
        · exact (Dict.get_isSome _ _).1 (by simp [hr])
        · exact h
      · exact Or.inr

theorem clearRegions_spec {pfx : Str} (hp : ':' ∉ pfx) : ∀ (rids : List Str) (s : State),
    rids.Nodup → WF s → s.stack = [] →
    let res := clearRegions pfx rids s
    WF res.2 ∧ res.2.stack = [] ∧ res.2.out = s.out ∧ Sub res.2.store s.store ∧
    (res.1 = .ok () ↔ ∀ rid ∈ rids, Stored pfx s rid) ∧
    (res.1 = .ok () → ∀ rid ∈ rids, ∀ dig, (getRegion res.2 rid).items.get dig = none) ∧
    (∀ rid, rid ∉ rids → getRegion res.2 rid = getRegion s rid) := by
  intro rids
  induction rids with
  | nil =>
    intro s _ hw hst
    simp only [clearRegions]
    exact ⟨hw, hst, trivial, Sub.refl _, by simp, by simp, by simp⟩
  | cons rid rids ih =>
    intro s hn hw hst
    simp only [List.nodup_cons] at hn
    simp only [clearRegions]
    obtain ⟨a1, a2, a3, a4, a5, a6, a7, a8, a9⟩ := clearRegion_spec hp s hw hst rid
    generalize clearRegion pfx s rid = res at *
    obtain ⟨res, s'⟩ := res
    have a7' : ∀ x, x ≠ rid → getRegion s' x = getRegion s x := by
      intro x hx; simp [getRegion, a7 x hx]
    cases res with
    | error e =>
      simp only at *
      refine ⟨a1, a2, a3, a4, ?_, by simp, ?_⟩
      · constructor
        · intro h; cases h
        · intro h; exact a5.2 (h rid (by simp))
      · intro x hx
        simp only [List.mem_cons, not_or] at hx
        exact a7' x hx.1
    | ok u =>
      cases u
      simp only at *
      obtain ⟨b1, b2, b3, b4, b5, b6, b7⟩ := ih s' hn.2 a1 a2
      have hstored : ∀ x ∈ rids, (Stored pfx s' x ↔ Stored pfx s x) := by
        intro x hx
        have hne : x ≠ rid := fun h => hn.1 (h ▸ hx)
        unfold Stored
        rw [a7' x hne]
        constructor
        · intro h dig it hit
          rw [← a8 x dig ((hw.region x).2 dig ((Dict.get_isSome _ _).1 (by simp [hit]))) hne]
          exact h dig it hit
        · intro h dig it hit
          rw [a8 x dig ((hw.region x).2 dig ((Dict.get_isSome _ _).1 (by simp [hit]))) hne]
          exact h dig it hit
      refine ⟨b1, b2, b3.trans a3, b4.trans a4, ?_, ?_, ?_⟩
      · rw [b5]
        constructor
        · intro h x hx
          rcases List.mem_cons.1 hx with rfl | hx
          · exact a5.1 trivial
          · exact (hstored x hx).1 (h x hx)
        · intro h x hx
          exact (hstored x hx).2 (h x (by simp [hx]))
      · intro hok x hx dig
        rcases List.mem_cons.1 hx with rfl | hx
        · rw [b7 x hn.1]; exact a6 trivial dig
        · exact b6 hok x hx dig
      · intro x hx
        simp only [List.mem_cons, not_or] at hx
        rw [b7 x hx.2, a7' x hx.1]

end Cheetah.Cache
