import Verif.Props.Settings
/-
Property C23: which dictionary objects merging changes, and that the in-place merge
on the heap computes the merge of the values (C22).
-/
namespace Cheetah.Settings

/-! ### Spec -/

abbrev ASet := Nat → Prop

mutual
/-- The cell holds the value `v`, using only dictionary objects in `P`. -/
def RepCell (h : Heap) (P : ASet) (c : Cell) : Val → Prop
  | .leaf y => c = .leaf y
  | .dict es => ∃ r, c = .ref r ∧ P r ∧ RepEnts h P (h.at_ r) es
/-- The slots hold the entries `es`, in the same order. -/
def RepEnts (h : Heap) (P : ASet) (l : Dict Str Cell) : Ents → Prop
  | .nil => l = []
  | .cons k v es => ∃ c l', l = (k, c) :: l' ∧ RepCell h P c v ∧ RepEnts h P l' es
end

/-- The dictionaries inside the one at `a` form a tree with objects `S`: no dictionary
is referred to twice. -/
inductive Tree (h : Heap) : Nat → ASet → Prop
  | mk (a : Nat) (S : ASet) (kids : Str → ASet)
      (ha : S a) (hsub : ∀ k x, kids k x → S x)
      (hself : ∀ k, ¬ kids k a)
      (hdisj : ∀ k k' x, k ≠ k' → kids k x → ¬ kids k' x)
      (hk : ∀ k r, (h.at_ a).get k = some (.ref r) → Tree h r (kids k)) : Tree h a S

theorem Tree.root {h a S} (t : Tree h a S) : S a := by cases t; assumption

theorem Tree.frame {h a S} (t : Tree h a S) : ∀ {h' : Heap}, (∀ x, S x → h'.at_ x = h.at_ x) → Tree h' a S := by
  induction t with
  | mk a S kids ha hsub hself hdisj hk ih =>
    intro h' hag
    refine .mk a S kids ha hsub hself hdisj ?_
    intro k r hr
    rw [hag a ha] at hr
    exact ih k r hr (fun x hx => hag x (hsub k x hx))

mutual
theorem RepCell.frame {h h' : Heap} {P Q : ASet} (hag : ∀ x, P x → h'.at_ x = h.at_ x) (hPQ : ∀ x, P x → Q x)
    {c : Cell} : ∀ (v : Val), RepCell h P c v → RepCell h' Q c v
  | .leaf y, hr => by simpa [RepCell] using hr
  | .dict es, hr => by
    simp only [RepCell] at hr ⊢
    obtain ⟨r, hc, hp, he⟩ := hr
    refine ⟨r, hc, hPQ r hp, ?_⟩
    rw [hag r hp]
    exact RepEnts.frame hag hPQ es he
theorem RepEnts.frame {h h' : Heap} {P Q : ASet} (hag : ∀ x, P x → h'.at_ x = h.at_ x) (hPQ : ∀ x, P x → Q x)
    {l : Dict Str Cell} : ∀ (es : Ents), RepEnts h P l es → RepEnts h' Q l es
  | .nil, hr => by simpa [RepEnts] using hr
  | .cons k v es, hr => by
    simp only [RepEnts] at hr ⊢
    obtain ⟨c, l', hl, hc, he⟩ := hr
    exact ⟨c, l', hl, RepCell.frame hag hPQ v hc, RepEnts.frame hag hPQ es he⟩
end

/-- Per-key support: the slot of key `k` uses only objects in `Q k`. -/
def RepTop (h : Heap) (Q : Str → ASet) : Dict Str Cell → Ents → Prop
  | [], .nil => True
  | (k, c) :: l, .cons k' v es => k = k' ∧ RepCell h (Q k) c v ∧ RepTop h Q l es
  | _, _ => False

theorem RepTop.frame {h h' : Heap} {Q Q' : Str → ASet} : ∀ {l : Dict Str Cell} {es : Ents},
    (∀ k x, Q k x → h'.at_ x = h.at_ x) → (∀ k x, Q k x → Q' k x) →
    RepTop h Q l es → RepTop h' Q' l es
  | [], .nil, _, _, _ => by simp [RepTop]
  | (k, c) :: l, .cons k' v es, h1, h2, hr => by
    simp only [RepTop] at hr ⊢
    exact ⟨hr.1, hr.2.1.frame (h1 k) (h2 k), RepTop.frame h1 h2 hr.2.2⟩
  | [], .cons _ _ _, _, _, hr => by simp [RepTop] at hr
  | _ :: _, .nil, _, _, hr => by simp [RepTop] at hr

theorem RepTop.toEnts {h : Heap} {Q : Str → ASet} {P : ASet} : ∀ {l : Dict Str Cell} {es : Ents},
    (∀ k x, Q k x → P x) → RepTop h Q l es → RepEnts h P l es
  | [], .nil, _, _ => by simp [RepEnts]
  | (k, c) :: l, .cons k' v es, hQ, hr => by
    simp only [RepTop] at hr
    simp only [RepEnts]
    exact ⟨c, l, by rw [hr.1], hr.2.1.frame (fun _ _ => rfl) (hQ k), RepTop.toEnts hQ hr.2.2⟩
  | [], .cons _ _ _, _, hr => by simp [RepTop] at hr
  | _ :: _, .nil, _, hr => by simp [RepTop] at hr

theorem RepTop.get {h : Heap} {Q : Str → ASet} (k : Str) : ∀ {l : Dict Str Cell} {es : Ents},
    RepTop h Q l es →
    (Dict.get l k = none ∧ es.get k = none) ∨
    ∃ c v, Dict.get l k = some c ∧ es.get k = some v ∧ RepCell h (Q k) c v
  | [], .nil, _ => Or.inl ⟨rfl, rfl⟩
  | (k0, c) :: l, .cons k' v es, hr => by
    simp only [RepTop] at hr
    obtain ⟨rfl, h1, h2⟩ := hr
    simp only [Dict.get, Ents.get]
    by_cases hk : k = k0
    · right; refine ⟨c, v, by simp [hk], by simp [hk], hk ▸ h1⟩
    · simp only [if_neg hk]; exact RepTop.get k h2
  | [], .cons _ _ _, hr => by simp [RepTop] at hr
  | _ :: _, .nil, hr => by simp [RepTop] at hr

theorem RepTop.set {h : Heap} {Q : Str → ASet} {k : Str} {c : Cell} {v : Val} (hc : RepCell h (Q k) c v) :
    ∀ {l : Dict Str Cell} {es : Ents}, RepTop h Q l es → RepTop h Q (Dict.set l k c) (es.set k v)
  | [], .nil, _ => by simp [Dict.set, Ents.set, RepTop, hc]
  | (k0, c0) :: l, .cons k' v0 es, hr => by
    simp only [RepTop] at hr
    obtain ⟨rfl, h1, h2⟩ := hr
    simp only [Dict.set, Ents.set]
    by_cases hk : k = k0
    · subst hk; simp only [if_true, RepTop]; exact ⟨trivial, hc, h2⟩
    · simp only [if_neg hk, RepTop]; exact ⟨trivial, h1, RepTop.set hc h2⟩
  | [], .cons _ _ _, hr => by simp [RepTop] at hr
  | _ :: _, .nil, hr => by simp [RepTop] at hr


/-- Setting one key after other objects changed. -/
theorem RepTop.setFrame {h h' : Heap} {Q : Str → ASet} {k : Str} {c : Cell} {v : Val}
    (hag : ∀ k', k' ≠ k → ∀ x, Q k' x → h'.at_ x = h.at_ x) (hc : RepCell h' (Q k) c v) :
    ∀ {l : Dict Str Cell} {es : Ents}, es.WF → RepTop h Q l es → RepTop h' Q (Dict.set l k c) (es.set k v)
  | [], .nil, _, _ => by simp [Dict.set, Ents.set, RepTop, hc]
  | (k0, c0) :: l, .cons k' v0 es, hw, hr => by
    simp only [RepTop] at hr
    obtain ⟨rfl, h1, h2⟩ := hr
    simp only [Ents.WF] at hw
    simp only [Dict.set, Ents.set]
    by_cases hk : k = k0
    · subst hk; simp only [if_true, RepTop]
      exact ⟨trivial, hc, RepTop.others hag hw.1 h2⟩
    · simp only [if_neg hk, RepTop]
      exact ⟨trivial, h1.frame (hag k0 (Ne.symm hk)) (fun _ h => h), RepTop.setFrame hag hc hw.2.2 h2⟩
  | [], .cons _ _ _, _, hr => by simp [RepTop] at hr
  | _ :: _, .nil, _, hr => by simp [RepTop] at hr
where
  RepTop.others {h h' : Heap} {Q : Str → ASet} {k : Str}
    (hag : ∀ k', k' ≠ k → ∀ x, Q k' x → h'.at_ x = h.at_ x) :
    ∀ {l : Dict Str Cell} {es : Ents}, es.get k = none → RepTop h Q l es → RepTop h' Q l es
  | [], .nil, _, _ => by simp [RepTop]
  | (k0, c0) :: l, .cons k' v0 es, hn, hr => by
    simp only [RepTop] at hr ⊢
    obtain ⟨rfl, h1, h2⟩ := hr
    simp only [Ents.get] at hn
    by_cases hk : k = k0
    · simp [hk] at hn
    · rw [if_neg hk] at hn
      exact ⟨rfl, h1.frame (hag k0 (Ne.symm hk)) (fun _ h => h), RepTop.others hag hn h2⟩
  | [], .cons _ _ _, _, hr => by simp [RepTop] at hr
  | _ :: _, .nil, _, hr => by simp [RepTop] at hr

theorem RepEnts.get_none {h : Heap} {P : ASet} (k : Str) : ∀ {l : Dict Str Cell} {es : Ents},
    RepEnts h P l es → es.get k = none → Dict.get l k = none
  | l, .nil, hr, _ => by simp only [RepEnts] at hr; subst hr; rfl
  | l, .cons k' v es, hr, hn => by
    simp only [RepEnts] at hr
    obtain ⟨c, l', rfl, _, he⟩ := hr
    simp only [Ents.get] at hn
    by_cases hk : k = k'
    · simp [hk] at hn
    · rw [if_neg hk] at hn
      simp only [Dict.get, if_neg hk]
      exact he.get_none k hn

mutual
/-- In a tree, everything a value is made of lies in the tree. -/
theorem tree_repCell {h : Heap} {P S : ASet} {c : Cell} (ht : ∀ r, c = .ref r → Tree h r S) :
    ∀ (v : Val), v.WF → RepCell h P c v → RepCell h S c v
  | .leaf y, _, hr => by simpa [RepCell] using hr
  | .dict es, hw, hr => by
    simp only [RepCell] at hr ⊢
    obtain ⟨r, hc, _, he⟩ := hr
    have t := ht r hc
    refine ⟨r, hc, t.root, ?_⟩
    cases t with
    | mk a S kids ha hsub hself hdisj hk =>
      simp only [Val.WF] at hw
      exact (tree_repTop hk es hw he).toEnts hsub
theorem tree_repTop {h : Heap} {P : ASet} {kids : Str → ASet} {l : Dict Str Cell}
    (ht : ∀ k r, l.get k = some (.ref r) → Tree h r (kids k)) :
    ∀ (es : Ents), es.WF → RepEnts h P l es → RepTop h kids l es
  | .nil, _, hr => by simp only [RepEnts] at hr; subst hr; simp [RepTop]
  | .cons k v es, hw, hr => by
    simp only [RepEnts] at hr
    simp only [Ents.WF] at hw
    obtain ⟨c, l', rfl, hc, he⟩ := hr
    simp only [RepTop]
    refine ⟨trivial, tree_repCell (fun r hr => ht k r (by simp [Dict.get, hr])) v hw.2.1 hc, ?_⟩
    refine tree_repTop (fun k' r hg => ht k' r ?_) es hw.2.2 he
    by_cases hk : k' = k
    · subst hk; rw [he.get_none _ hw.1] at hg; cases hg
    · simpa [Dict.get, hk] using hg
end

/-! ### The loop -/

mutual
/-- Nesting depth of a dictionary. -/
def depthV : Val → Nat
  | .leaf _ => 0
  | .dict es => depthE es + 1
def depthE : Ents → Nat
  | .nil => 0
  | .cons _ v es => max (depthV v) (depthE es)
end

theorem mergeLoop_both {n : Nat} {h : Heap} {a : Nat} {k : Str} {r1 r2 : Nat} {items : Dict Str Cell}
    (h1 : (h.at_ a).get k = some (.ref r1)) :
    mergeLoop (n + 1) h a ((k, .ref r2) :: items) =
      (mergeLoop n h r1 (h.at_ r2)).bind (fun h' => mergeLoop (n + 1) (h'.put a k (.ref r1)) a items) := by
  rw [mergeLoop, mergeItems]
  case r1 => exact r1
  case heq => exact h1
  cases mergeLoop n h r1 (h.at_ r2) <;> rfl

theorem mergeLoop_other {n : Nat} {h : Heap} {a : Nat} {k : Str} {c : Cell} {items : Dict Str Cell}
    (h1 : ∀ r1 r2, (h.at_ a).get k = some (.ref r1) → c ≠ .ref r2) :
    mergeLoop n h a ((k, c) :: items) = mergeLoop n (h.put a k c) a items := by
  cases n <;> (rw [mergeLoop, mergeItems]; exact fun r1 r2 e => h1 r1 r2 e)

theorem mergeLoop_nil (n : Nat) (h : Heap) (a : Nat) : mergeLoop n h a [] = some h := by
  cases n <;> simp [mergeLoop, mergeItems]

theorem put_at (h : Heap) (a : Nat) (k : Str) (c : Cell) : (h.put a k c).at_ a = (h.at_ a).set k c := by
  simp [Heap.put]

theorem put_other (h : Heap) {a x : Nat} (k : Str) (c : Cell) (hx : x ≠ a) : (h.put a k c).at_ x = h.at_ x := by
  simp [Heap.put, hx]

theorem mergeVal_not_dict {old : Option Val} {v : Val}
    (hn : ∀ e1 e2, old = some (.dict e1) → v ≠ .dict e2) : mergeVal old v = v := by
  cases v with
  | leaf y => rfl
  | dict e2 =>
    simp only [mergeVal]
    split
    · next e1 => exact absurd rfl (hn e1 e2 rfl)
    · rfl

/-- What the loop does when the slots still to be merged hold trees of their own. -/
theorem loop_spec (B : Ents) (hB : B.WF) (n : Nat) (hn : depthE B ≤ n) (h : Heap) (a : Nat)
    (items : Dict Str Cell) (A : Ents) (hA : A.WF) (kids : Str → ASet) (T : ASet)
    (haT : ¬ T a) (hself : ∀ k, ¬ kids k a)
    (hdisj : ∀ k k' x, k ≠ k' → kids k x → ¬ kids k' x)
    (hT : ∀ k x, kids k x → ¬ T x)
    (htree : ∀ k r, B.get k ≠ none → (h.at_ a).get k = some (.ref r) → Tree h r (kids k))
    (hrA : RepTop h (fun k x => kids k x ∨ T x) (h.at_ a) A)
    (hrB : RepEnts h T items B) :
    ∃ h', mergeLoop n h a items = some h' ∧ h'.next = h.next ∧
      (∀ x, x ≠ a → (∀ k, ¬ kids k x) → h'.at_ x = h.at_ x) ∧
      RepTop h' (fun k x => kids k x ∨ T x) (h'.at_ a) (merge A B) := by
  match B, hB, hn, htree, hrB with
  | .nil, _, _, _, hrB =>
    simp only [RepEnts] at hrB
    subst hrB
    exact ⟨h, mergeLoop_nil n h a, rfl, fun _ _ _ => rfl, by simpa [merge] using hrA⟩
  | .cons k v B', hB, hn, htree, hrB =>
    simp only [Ents.WF] at hB
    simp only [RepEnts] at hrB
    simp only [depthE] at hn
    obtain ⟨c, items', rfl, hc, hrB'⟩ := hrB
    have hQa : ∀ k, ¬ (kids k a ∨ T a) := fun k h => h.elim (hself k) haT
    have hkne : ∀ k', B'.get k' ≠ none → k' ≠ k := fun k' h e => h (e ▸ hB.1)
    have htree' : ∀ (h1 : Heap), (∀ k', k' ≠ k → ∀ x, kids k' x → h1.at_ x = h.at_ x) →
        (∀ k', k' ≠ k → (h1.at_ a).get k' = (h.at_ a).get k') →
        ∀ k' r, B'.get k' ≠ none → (h1.at_ a).get k' = some (.ref r) → Tree h1 r (kids k') := by
      intro h1 hag hget k' r hk' hr
      have hne := hkne k' hk'
      rw [hget k' hne] at hr
      refine (htree k' r ?_ hr).frame (hag k' hne)
      simpa [Ents.get, hne] using hk'
    by_cases hboth : ∃ r1 r2, (h.at_ a).get k = some (.ref r1) ∧ c = .ref r2
    · obtain ⟨r1, r2, hg1, rfl⟩ := hboth
      -- both are dictionaries
      rcases hrA.get k with ⟨hno, _⟩ | ⟨c0, v0, hg, hgA, hrep⟩
      · rw [hno] at hg1; cases hg1
      rw [hg1] at hg
      obtain rfl : Cell.ref r1 = c0 := by injection hg
      cases v0 with
      | leaf y => simp [RepCell] at hrep
      | dict es1 =>
      cases v with
      | leaf y => simp [RepCell] at hc
      | dict es2 =>
      have hw1 : es1.WF := by have := WF_get hA hgA; simpa [Val.WF] using this
      have hw2 : es2.WF := by have := hB.2.1; simpa [Val.WF] using this
      have t := htree k r1 (by simp [Ents.get]) hg1
      simp only [depthV] at hn
      obtain ⟨m, rfl⟩ : ∃ m, n = m + 1 := ⟨n - 1, by omega⟩
      have hrep' := tree_repCell (S := kids k) (fun r e => by injection e with e; exact e ▸ t) (.dict es1)
        (by simpa [Val.WF] using hw1) hrep
      simp only [RepCell] at hrep' hc
      obtain ⟨r1', e1, hr1k, hE1⟩ := hrep'
      obtain rfl : r1 = r1' := by injection e1
      obtain ⟨r2', e2, hr2T, hE2⟩ := hc
      obtain rfl : r2 = r2' := by injection e2
      have hr1a : r1 ≠ a := fun e => hself k (e ▸ hr1k)
      cases t with
      | mk _ _ kids1 hroot hsub1 hself1 hdisj1 hk1 =>
      have htop1 := tree_repTop hk1 es1 hw1 hE1
      obtain ⟨h1, hrun, hnext, hag, hres⟩ := loop_spec es2 hw2 m (by omega) h r1 (h.at_ r2) es1 hw1 kids1 T
        (hT k r1 hr1k) hself1 hdisj1 (fun k' x hx => hT k x (hsub1 k' x hx))
        (fun k' r _ hr => hk1 k' r hr)
        (htop1.frame (fun _ _ _ => rfl) (fun _ _ hx => Or.inl hx)) hE2
      -- what the inner call leaves alone
      have hag1 : ∀ x, ¬ kids k x → h1.at_ x = h.at_ x := fun x hx =>
        hag x (fun e => hx (e ▸ hr1k)) (fun k' hx' => hx (hsub1 k' x hx'))
      have hag2 : ∀ x, x ≠ a → ¬ kids k x → (h1.put a k (.ref r1)).at_ x = h.at_ x := fun x hxa hx => by
        rw [put_other _ _ _ hxa, hag1 x hx]
      have hata : (h1.put a k (.ref r1)).at_ a = (h.at_ a).set k (.ref r1) := by
        rw [put_at, hag1 a (hself k)]
      have hcell : RepCell (h1.put a k (.ref r1)) (fun x => kids k x ∨ T x) (.ref r1) (.dict (merge es1 es2)) := by
        simp only [RepCell]
        refine ⟨r1, rfl, Or.inl hr1k, ?_⟩
        rw [put_other _ _ _ hr1a]
        refine (hres.toEnts (P := fun x => kids k x ∨ T x) ?_).frame (h := h1) (P := fun x => kids k x ∨ T x) ?_ (fun _ h => h)
        · rintro k' x (hx | hx)
          · exact Or.inl (hsub1 k' x hx)
          · exact Or.inr hx
        · intro x hx
          exact put_other _ _ _ (fun e => hQa k (e ▸ hx))
      have hfr : ∀ k', k' ≠ k → ∀ x, (kids k' x ∨ T x) → (h1.put a k (.ref r1)).at_ x = h.at_ x := by
        rintro k' hne x (hx | hx)
        · exact hag2 x (fun e => hself k' (e ▸ hx)) (hdisj k' k x hne hx)
        · exact hag2 x (fun e => haT (e ▸ hx)) (fun hx' => hT k x hx' hx)
      obtain ⟨h2, hrun2, hnext2, hag3, hres2⟩ := loop_spec B' hB.2.2 (m + 1) (by omega) (h1.put a k (.ref r1)) a items'
        (A.set k (.dict (merge es1 es2)))
        (set_WF _ _ _ hA (by simpa [Val.WF] using merge_WF es2 es1 hw1 hw2)) kids T haT hself hdisj hT
        (htree' _ (fun k' hne x hx => hfr k' hne x (Or.inl hx))
          (fun k' hne => by rw [hata, Dict.get_set_ne _ _ hne]))
        (by rw [hata]; exact RepTop.setFrame (Q := fun k x => kids k x ∨ T x) hfr hcell hA hrA)
        (hrB'.frame (fun x hx => hfr' hag2 haT hT x hx) (fun _ h => h))
      refine ⟨h2, ?_, by rw [hnext2]; exact hnext, ?_, ?_⟩
      · rw [mergeLoop_both hg1, hrun]; exact hrun2
      · intro x hxa hxk
        rw [hag3 x hxa hxk, hag2 x hxa (hxk k)]
      · rw [merge, hgA, mergeVal]; exact hres2
    · -- the slot is overwritten
      have hne2 : ∀ r1 r2, (h.at_ a).get k = some (.ref r1) → c ≠ .ref r2 := fun r1 r2 h1 h2 => hboth ⟨r1, r2, h1, h2⟩
      have hmv : mergeVal (A.get k) v = v := by
        refine mergeVal_not_dict ?_
        rintro e1 e2 he1 rfl
        rcases hrA.get k with ⟨_, hno⟩ | ⟨c0, v0, hg, hgA, hrep⟩
        · rw [hno] at he1; cases he1
        · rw [hgA] at he1
          obtain rfl : v0 = .dict e1 := by injection he1
          simp only [RepCell] at hrep hc
          obtain ⟨r1, rfl, _⟩ := hrep
          obtain ⟨r2, rfl, _⟩ := hc
          exact hne2 r1 r2 hg rfl
      have hfr : ∀ x, x ≠ a → (h.put a k c).at_ x = h.at_ x := fun x hx => put_other _ _ _ hx
      have hcell : RepCell (h.put a k c) (fun x => kids k x ∨ T x) c v :=
        hc.frame (fun x hx => hfr x (fun e => haT (e ▸ hx))) (fun _ h => Or.inr h)
      obtain ⟨h2, hrun2, hnext2, hag3, hres2⟩ := loop_spec B' hB.2.2 n (by omega) (h.put a k c) a items'
        (A.set k v) (set_WF _ _ _ hA hB.2.1) kids T haT hself hdisj hT
        (htree' _ (fun k' _ x hx => hfr x (fun e => hself k' (e ▸ hx)))
          (fun k' hne => by rw [put_at, Dict.get_set_ne _ _ hne]))
        (by
          rw [put_at]
          exact RepTop.setFrame (Q := fun k x => kids k x ∨ T x)
            (fun k' _ x hx => hfr x (fun e => hQa k' (e ▸ hx))) hcell hA hrA)
        (hrB'.frame (fun x hx => hfr x (fun e => haT (e ▸ hx))) (fun _ h => h))
      refine ⟨h2, ?_, hnext2, ?_, ?_⟩
      · rw [mergeLoop_other hne2]; exact hrun2
      · intro x hxa hxk
        rw [hag3 x hxa hxk, hfr x hxa]
      · rw [merge, hmv]; exact hres2
termination_by sizeOf B
where
  hfr' {h h1 : Heap} {a : Nat} {k : Str} {kids : Str → ASet} {T : ASet}
    (hag2 : ∀ x, x ≠ a → ¬ kids k x → h1.at_ x = h.at_ x) (haT : ¬ T a) (hT : ∀ k x, kids k x → ¬ T x)
    (x : Nat) (hx : T x) : h1.at_ x = h.at_ x :=
    hag2 x (fun e => haT (e ▸ hx)) (fun hx' => hT k x hx' hx)

/-! ### deepcopy -/

/-- The objects with addresses in `[i, j)`. -/
def Between (i j : Nat) : ASet := fun x => i ≤ x ∧ x < j

theorem set_new {d : Dict Str Cell} {k : Str} (c : Cell) (h : Dict.get d k = none) :
    Dict.set d k c = d ++ [(k, c)] := by
  induction d with
  | nil => rfl
  | cons e d ih =>
    obtain ⟨k0, c0⟩ := e
    simp only [Dict.get] at h
    by_cases hk : k = k0
    · simp [hk] at h
    · rw [if_neg hk] at h
      simp [Dict.set, hk, ih h]

theorem get_append (d d' : Dict Str Cell) (k : Str) :
    Dict.get (d ++ d') k = (Dict.get d k).or (Dict.get d' k) := by
  induction d with
  | nil => simp [Dict.get]
  | cons e d ih =>
    obtain ⟨k0, c0⟩ := e
    simp only [List.cons_append, Dict.get]
    by_cases hk : k = k0
    · simp [hk]
    · rw [if_neg hk, if_neg hk]; exact ih

mutual
theorem deepcopy_spec (es : Ents) (hw : es.WF) (n : Nat) (hn : depthE es < n) (h : Heap) (m : Memo) (a : Nat) (S : ASet)
    (hS : ∀ x, S x → x < h.next) (hm : ∀ x, S x → m x = none) (ht : Tree h a S)
    (hr : RepEnts h S (h.at_ a) es) :
    ∃ h' m' a', deepcopy n h m a = some (h', m', a') ∧ h.next < h'.next ∧
      (∀ x, x < h.next → h'.at_ x = h.at_ x) ∧ (∀ x, ¬ S x → m' x = m x) ∧
      Tree h' a' (Between h.next h'.next) ∧
      RepEnts h' (Between h.next h'.next) (h'.at_ a') es := by
  obtain ⟨n, rfl⟩ : ∃ m, n = m + 1 := ⟨n - 1, by omega⟩
  cases ht with
  | mk _ _ kidsA ha hsubA hselfA hdisjA hkA =>
  have hag0 : ∀ x, x < h.next → (h.alloc []).1.at_ x = h.at_ x := by
    intro x hx
    have : x ≠ h.next := by omega
    simp [Heap.alloc, this]
  have hlt : ∀ k x, kidsA k x → x < h.next := fun k x hx => hS x (hsubA k x hx)
  obtain ⟨h1, m1, d, hrun, hnext, hold, hmemo, hat, kids, hsub, hdisj, htree, hrep⟩ :=
    deepcopyItems_spec es hw n (by omega) h.next (h.alloc []).1 (fun x => if x = a then some h.next else m x) (h.at_ a)
      kidsA (by simp [Heap.alloc]) (fun k x hx => hlt k x hx)
      (fun k x hx => by
        have : x ≠ a := fun e => hselfA k (e ▸ hx)
        simp [this, hm x (hsubA k x hx)])
      hdisjA (fun k r hg => (hkA k r hg).frame (fun x hx => hag0 x (hlt k x hx)))
      ((tree_repTop hkA es hw hr).frame (fun k x hx => hag0 x (hlt k x hx)) (fun _ _ h => h))
      (by simp [Heap.alloc, Dict.get])
  have hn1 : (h.alloc []).1.next = h.next + 1 := rfl
  have hat' : h1.at_ h.next = d := by rw [hat]; simp [Heap.alloc]
  rw [hn1] at hnext
  refine ⟨h1, m1, h.next, ?_, by omega, ?_, ?_, ?_, ?_⟩
  · rw [deepcopy, hm a ha]
    simp only [hrun]
  · intro x hx
    rw [hold x (by omega) (by omega), hag0 x hx]
  · intro x hx
    rw [hmemo x (fun k hk => hx (hsubA k x hk))]
    have : x ≠ a := fun e => hx (e ▸ ha)
    simp [this]
  · refine .mk _ _ kids ⟨Nat.le_refl _, by omega⟩ ?_ ?_ hdisj ?_
    · intro k x hx
      have := hsub k x hx
      simp only [Between] at this ⊢
      omega
    · intro k hx
      have := hsub k _ hx
      simp only [Between] at this
      omega
    · intro k r hg
      rw [hat'] at hg
      exact htree k r hg
  · rw [hat']
    refine hrep.frame (fun _ _ => rfl) ?_
    intro x hx
    simp only [Between] at hx ⊢
    omega
termination_by (sizeOf es, 1)
theorem deepcopyItems_spec (es : Ents) (hw : es.WF) (n : Nat) (hn : depthE es ≤ n) (y : Nat) (h : Heap) (m : Memo)
    (l : Dict Str Cell) (kidsA : Str → ASet) (hy : y < h.next)
    (hlt : ∀ k x, kidsA k x → x < y) (hm : ∀ k x, kidsA k x → m x = none)
    (hdisjA : ∀ k k' x, k ≠ k' → kidsA k x → ¬ kidsA k' x)
    (htA : ∀ k r, Dict.get l k = some (.ref r) → Tree h r (kidsA k))
    (hr : RepTop h kidsA l es)
    (hnew : ∀ k, es.get k ≠ none → Dict.get (h.at_ y) k = none) :
    ∃ h' m' d, deepcopyItems (deepcopy n) y h m l = some (h', m') ∧ h.next ≤ h'.next ∧
      (∀ x, x < h.next → x ≠ y → h'.at_ x = h.at_ x) ∧
      (∀ x, (∀ k, ¬ kidsA k x) → m' x = m x) ∧
      h'.at_ y = h.at_ y ++ d ∧
      ∃ kids : Str → ASet, (∀ k x, kids k x → Between h.next h'.next x) ∧
        (∀ k k' x, k ≠ k' → kids k x → ¬ kids k' x) ∧
        (∀ k r, Dict.get d k = some (.ref r) → Tree h' r (kids k)) ∧
        RepEnts h' (Between h.next h'.next) d es := by
  match es, l, hw, hn, hr, hnew with
  | .nil, [], _, _, hr, _ =>
    refine ⟨h, m, [], by simp [deepcopyItems], Nat.le_refl _, fun _ _ _ => rfl, fun _ _ => rfl, by simp,
      fun _ _ => False, ?_, ?_, ?_, ?_⟩
    · intro _ _ h; exact h.elim
    · intro _ _ _ _ h; exact h.elim
    · intro k r h; simp [Dict.get] at h
    · simp [RepEnts]
  | .nil, _ :: _, _, _, hr, _ => simp [RepTop] at hr
  | .cons _ _ _, [], _, _, hr, _ => simp [RepTop] at hr
  | .cons k v es', (k0, c) :: l', hw, hn, hr, hnew =>
    simp only [RepTop] at hr
    simp only [Ents.WF] at hw
    simp only [depthE] at hn
    obtain ⟨rfl, hc, he⟩ := hr
    have hl'none : Dict.get l' k0 = none := (he.toEnts (P := fun _ => True) (fun _ _ _ => trivial)).get_none k0 hw.1
    have htA' : ∀ (h1 : Heap), (∀ x, x < h.next → x ≠ y → h1.at_ x = h.at_ x) →
        ∀ k r, Dict.get l' k = some (.ref r) → Tree h1 r (kidsA k) := by
      intro h1 hag k r hg
      have hne : k ≠ k0 := fun e => by rw [e, hl'none] at hg; cases hg
      refine (htA k r (by simpa [Dict.get, hne] using hg)).frame (fun x hx => ?_)
      have := hlt k x hx
      exact hag x (by omega) (by omega)
    have he' : ∀ (h1 : Heap), (∀ x, x < h.next → x ≠ y → h1.at_ x = h.at_ x) → RepTop h1 kidsA l' es' := by
      intro h1 hag
      refine he.frame (fun k x hx => ?_) (fun _ _ h => h)
      have := hlt k x hx
      exact hag x (by omega) (by omega)
    have hky : Dict.get (h.at_ y) k0 = none := hnew k0 (by simp [Ents.get])
    have hnew' : ∀ c, ∀ k, es'.get k ≠ none → Dict.get (h.at_ y ++ [(k0, c)]) k = none := by
      intro c k hk
      have hne : k ≠ k0 := fun e => hk (e ▸ hw.1)
      rw [get_append, hnew k (by simpa [Ents.get, hne] using hk)]
      simp [Dict.get, hne]
    obtain ⟨M, hM, hsz⟩ : ∃ M, M = sizeOf (Ents.cons k0 v es') ∧ sizeOf v < M := ⟨_, rfl, by simp; omega⟩
    match v, hc, hn, hw, hsz with
    | .leaf z, hc, hn, hw, _ =>
      simp only [RepCell] at hc
      subst hc
      have hag : ∀ x, x < h.next → x ≠ y → (h.put y k0 (.leaf z)).at_ x = h.at_ x :=
        fun x _ hx => put_other _ _ _ hx
      have haty : (h.put y k0 (.leaf z)).at_ y = h.at_ y ++ [(k0, .leaf z)] := by rw [put_at, set_new _ hky]
      obtain ⟨h1, m1, d, hrun, hnext, hold, hmemo, hat, kids, hsub, hdisj, htree, hrep⟩ :=
        deepcopyItems_spec es' hw.2.2 n (by omega) y (h.put y k0 (.leaf z)) m l' kidsA hy hlt hm hdisjA
          (htA' _ hag) (he' _ hag) (by rw [haty]; exact hnew' _)
      refine ⟨h1, m1, (k0, .leaf z) :: d, by rw [deepcopyItems]; exact hrun, hnext,
        fun x hx hxy => by rw [hold x hx hxy, hag x hx hxy], hmemo, by rw [hat, haty]; simp, kids, hsub, hdisj, ?_, ?_⟩
      · intro k' r hg
        simp only [Dict.get] at hg
        by_cases hk : k' = k0
        · simp [hk] at hg
        · rw [if_neg hk] at hg; exact htree k' r hg
      · simp only [RepEnts, RepCell]
        exact ⟨_, _, rfl, rfl, hrep⟩
    | .dict es1, hc, hn, hw, hsz =>
      simp only [RepCell] at hc
      obtain ⟨r, rfl, hr, hE⟩ := hc
      simp only [depthV] at hn
      have hw1 : es1.WF := by simpa [Val.WF] using hw.2.1
      have hkl : ∀ k x, kidsA k x → x < h.next := fun k x hx => by have := hlt k x hx; omega
      obtain ⟨h1, m1, r', hrun1, hnext1, hold1, hmemo1, htree1, hrep1⟩ :=
        deepcopy_spec es1 hw1 n (by omega) h m r (kidsA k0) (hkl k0) (hm k0)
          (htA k0 r (by simp [Dict.get])) hE
      have hag : ∀ x, x < h.next → x ≠ y → (h1.put y k0 (.ref r')).at_ x = h.at_ x :=
        fun x hx hxy => by rw [put_other _ _ _ hxy, hold1 x hx]
      have haty : (h1.put y k0 (.ref r')).at_ y = h.at_ y ++ [(k0, .ref r')] := by
        rw [put_at, hold1 y hy, set_new _ hky]
      have hpn : (h1.put y k0 (.ref r')).next = h1.next := rfl
      let kidsB : Str → ASet := fun k x => k ≠ k0 ∧ kidsA k x
      have htB : ∀ k r, Dict.get l' k = some (.ref r) → Tree (h1.put y k0 (.ref r')) r (kidsB k) := by
        intro k r hg
        have hne : k ≠ k0 := fun e => by rw [e, hl'none] at hg; cases hg
        have : kidsB k = kidsA k := by funext x; simp [kidsB, hne]
        rw [this]; exact htA' _ hag k r hg
      obtain ⟨h2, m2, d, hrun2, hnext2, hold2, hmemo2, hat2, kids, hsub, hdisj, htree2, hrep2⟩ :=
        deepcopyItems_spec es' hw.2.2 n (by omega) y (h1.put y k0 (.ref r')) m1 l' kidsB
          (by rw [hpn]; omega) (fun k x hx => hlt k x hx.2)
          (fun k x hx => by rw [hmemo1 x (hdisjA k k0 x hx.1 hx.2)]; exact hm k x hx.2)
          (fun k k' x hne h1 h2 => hdisjA k k' x hne h1.2 h2.2)
          htB
          (tree_repTop htB es' hw.2.2 ((he' _ hag).toEnts (P := fun _ => True) (fun _ _ _ => trivial)))
          (by rw [haty]; exact hnew' _)
      rw [hpn] at hnext2 hold2 hsub hrep2
      have hB1 : ∀ x, Between h.next h1.next x → h2.at_ x = h1.at_ x := by
        intro x hx
        have hxy : x ≠ y := by have := hx.1; omega
        rw [hold2 x hx.2 hxy, put_other _ _ _ hxy]
      refine ⟨h2, m2, (k0, .ref r') :: d, ?_, by omega,
        fun x hx hxy => by rw [hold2 x (by omega) hxy, hag x hx hxy], ?_, by rw [hat2, haty]; simp,
        fun k' => if k' = k0 then Between h.next h1.next else kids k', ?_, ?_, ?_, ?_⟩
      · rw [deepcopyItems, hrun1]; exact hrun2
      · intro x hx
        rw [hmemo2 x (fun k hk => hx k hk.2), hmemo1 x (hx k0)]
      · intro k' x hx
        by_cases hk : k' = k0
        · simp only [hk, if_true, Between] at hx ⊢; omega
        · simp only [if_neg hk] at hx
          have := hsub k' x hx
          simp only [Between] at this ⊢; omega
      · intro k1 k2 x hne h1x h2x
        by_cases hk1 : k1 = k0
        · have hk2 : k2 ≠ k0 := fun e => hne (hk1.trans e.symm)
          simp only [if_pos hk1] at h1x
          simp only [if_neg hk2] at h2x
          have := hsub k2 x h2x
          simp only [Between] at this h1x; omega
        · simp only [if_neg hk1] at h1x
          by_cases hk2 : k2 = k0
          · simp only [if_pos hk2] at h2x
            have := hsub k1 x h1x
            simp only [Between] at this h2x; omega
          · simp only [if_neg hk2] at h2x
            exact hdisj k1 k2 x hne h1x h2x
      · intro k' rr hg
        simp only [Dict.get] at hg
        by_cases hk : k' = k0
        · simp only [if_pos hk] at hg ⊢
          obtain rfl : r' = rr := by injection hg with hg; injection hg
          exact htree1.frame hB1
        · simp only [if_neg hk] at hg ⊢
          exact htree2 k' rr hg
      · simp only [RepEnts, RepCell]
        refine ⟨_, _, rfl, ⟨r', rfl, ?_, ?_⟩, ?_⟩
        · have := htree1.root
          simp only [Between] at this ⊢; omega
        · rw [hB1 r' htree1.root]
          refine hrep1.frame hB1 ?_
          intro x hx; simp only [Between] at hx ⊢; omega
        · refine hrep2.frame (fun _ _ => rfl) ?_
          intro x hx; simp only [Between] at hx ⊢; omega
termination_by (sizeOf es, 0)
decreasing_by
  all_goals first
    | (apply Prod.Lex.left; simp at *; omega)
    | (apply Prod.Lex.right; omega)
end

/-! ### C23 -/

/-- C23: merging in place. When no nested dictionary of the first is referred to twice and
the two share no dictionary object, the call returns the first dictionary object, which now
holds the merge of the two values; no object outside the first dictionary changes (in
particular the second dictionary and everything it holds stay as they were). -/
theorem C23_in_place (h : Heap) (a b : Nat) (A B : Ents) (hA : A.WF) (hB : B.WF) (S T : ASet)
    (hS : Tree h a S) (hrA : RepEnts h S (h.at_ a) A) (hrB : RepEnts h T (h.at_ b) B)
    (hST : ∀ x, S x → ¬ T x) (n : Nat) (hn : depthE B ≤ n) :
    ∃ h', mergeNested n h a b false false = some (h', a) ∧
      RepEnts h' (fun x => S x ∨ T x) (h'.at_ a) (merge A B) ∧
      (∀ x, ¬ S x → h'.at_ x = h.at_ x) ∧
      RepEnts h' T (h.at_ b) B := by
  cases hS with
  | mk _ _ kids ha hsub hself hdisj hk =>
  have htop := tree_repTop hk A hA hrA
  obtain ⟨h', hrun, _, hag, hres⟩ := loop_spec B hB n hn h a (h.at_ b) A hA kids T (hST a ha) hself hdisj
    (fun k x hx => hST x (hsub k x hx)) (fun k r _ hr => hk k r hr)
    (htop.frame (fun _ _ _ => rfl) (fun _ _ hx => Or.inl hx)) hrB
  have hag' : ∀ x, ¬ S x → h'.at_ x = h.at_ x := fun x hx =>
    hag x (fun e => hx (e ▸ ha)) (fun k hx' => hx (hsub k x hx'))
  refine ⟨h', by simp [mergeNested, hrun], ?_, hag', ?_⟩
  · refine hres.toEnts ?_
    rintro k x (hx | hx)
    · exact Or.inl (hsub k x hx)
    · exact Or.inr hx
  · exact hrB.frame (fun x hx => hag' x (fun hs => hST x hs hx)) (fun _ h => h)

/-- C23: with `deepcopy=True` a new dictionary comes back that holds the merge of the two
values, and no dictionary object that existed before the call has changed: neither the
first dictionary, nor the second, nor anything nested in them. The two arguments may
share nested dictionaries. -/
theorem C23_deepcopy (h : Heap) (a b : Nat) (A B : Ents) (hA : A.WF) (hB : B.WF) (S T : ASet)
    (hSn : ∀ x, S x → x < h.next) (hTn : ∀ x, T x → x < h.next) (hb : b < h.next)
    (hS : Tree h a S) (hrA : RepEnts h S (h.at_ a) A) (hrB : RepEnts h T (h.at_ b) B)
    (n : Nat) (hnA : depthE A < n) (hnB : depthE B ≤ n) :
    ∃ h' a', mergeNested n h a b false true = some (h', a') ∧ h.next ≤ a' ∧
      RepEnts h' (fun x => h.next ≤ x ∨ T x) (h'.at_ a') (merge A B) ∧
      (∀ x, x < h.next → h'.at_ x = h.at_ x) := by
  obtain ⟨h1, m1, a', hcp, hnext, hold, _, htree, hrep⟩ :=
    deepcopy_spec A hA n hnA h (fun _ => none) a S hSn (fun _ _ => rfl) hS hrA
  have hrB1 : RepEnts h1 T (h1.at_ b) B := by
    rw [hold b hb]
    exact hrB.frame (fun x hx => hold x (hTn x hx)) (fun _ h => h)
  obtain ⟨h', hrun, hres, hag, _⟩ := C23_in_place h1 a' b A B hA hB _ T htree hrep hrB1
    (fun x hx hp => by have := hTn x hp; have := hx.1; omega) n hnB
  refine ⟨h', a', ?_, htree.root.1, ?_, ?_⟩
  · simp only [mergeNested, Bool.false_eq_true, if_false] at hrun
    cases hm : mergeLoop n h1 a' (h1.at_ b) with
    | none => simp [hm] at hrun
    | some h2 =>
      simp [hm] at hrun
      simp [mergeNested, hcp, hm, hrun]
  · refine hres.frame (fun _ _ => rfl) ?_
    rintro x (hx | hx)
    · exact Or.inl hx.1
    · exact Or.inr hx
  · intro x hx
    rw [hag x (fun hb => by have := hb.1; omega), hold x hx]

/-- C23, `copy=True`: a new top-level dictionary comes back that holds the merge of the two
values, the top level of the first dictionary is unchanged, and so is everything outside
its nested dictionaries. Missing from the full statement "the first dictionary is
unchanged": the dictionaries nested in it are changed in place
(C23_copy_counterexample). -/
theorem C23_copy_partial (h : Heap) (a b : Nat) (A B : Ents) (hA : A.WF) (hB : B.WF) (S T : ASet)
    (hS : Tree h a S) (hSn : ∀ x, S x → x < h.next) (hTn : ∀ x, T x → x < h.next) (hb : b < h.next)
    (hrA : RepEnts h S (h.at_ a) A) (hrB : RepEnts h T (h.at_ b) B)
    (hST : ∀ x, S x → ¬ T x) (n : Nat) (hn : depthE B ≤ n) :
    ∃ h' a', mergeNested n h a b true false = some (h', a') ∧ h.next ≤ a' ∧
      RepEnts h' (fun x => x = a' ∨ S x ∨ T x) (h'.at_ a') (merge A B) ∧
      h'.at_ a = h.at_ a ∧
      (∀ x, x < h.next → ¬ S x → h'.at_ x = h.at_ x) := by
  cases hS with
  | mk _ _ kids ha hsub hself hdisj hk =>
  have hag0 : ∀ x, x < h.next → (h.alloc (h.at_ a)).1.at_ x = h.at_ x := by
    intro x hx
    have : x ≠ h.next := by omega
    simp [Heap.alloc, this]
  have hat : (h.alloc (h.at_ a)).1.at_ h.next = h.at_ a := by simp [Heap.alloc]
  have htop := tree_repTop hk A hA hrA
  obtain ⟨h', hrun, _, hag, hres⟩ := loop_spec B hB n hn (h.alloc (h.at_ a)).1 h.next (h.at_ b) A hA kids T
    (fun hx => by have := hTn _ hx; omega) (fun k hx => by have := hSn _ (hsub k _ hx); omega) hdisj
    (fun k x hx => hST x (hsub k x hx))
    (fun k r _ hr => (hk k r (by rw [hat] at hr; exact hr)).frame (fun x hx => hag0 x (hSn x (hsub k x hx))))
    (by
      rw [hat]
      exact htop.frame (fun k x hx => hag0 x (hSn x (hsub k x hx))) (fun _ _ hx => Or.inl hx))
    (hrB.frame (fun x hx => hag0 x (hTn x hx)) (fun _ h => h))
  have han := hSn a ha
  refine ⟨h', h.next, ?_, Nat.le_refl _, ?_, ?_, ?_⟩
  · simp only [mergeNested, if_true]
    show Option.map _ (mergeLoop n (h.alloc (h.at_ a)).1 h.next ((h.alloc (h.at_ a)).1.at_ b)) = _
    rw [hag0 b hb, hrun]
    rfl
  · refine hres.toEnts ?_
    rintro k x (hx | hx)
    · exact Or.inr (Or.inl (hsub k x hx))
    · exact Or.inr (Or.inr hx)
  · rw [hag a (by omega) hself, hag0 a han]
  · intro x hx hs
    rw [hag x (by omega) (fun k hx' => hs (hsub k x hx')), hag0 x hx]

/-! ### Examples and counterexamples -/

/-- `A = {x: {u: 1}}` at 0 (nested at 1), `B = {x: {v: 2}}` at 2 (nested at 3). -/
def exHeap : Heap :=
  ⟨fun
    | 0 => [(c!"x", .ref 1)]
    | 1 => [(c!"u", .leaf c!"1")]
    | 2 => [(c!"x", .ref 3)]
    | 3 => [(c!"v", .leaf c!"2")]
    | _ => [], 4⟩

def exA : Ents := .cons c!"x" (.dict (.cons c!"u" (.leaf c!"1") .nil)) .nil
def exB : Ents := .cons c!"x" (.dict (.cons c!"v" (.leaf c!"2") .nil)) .nil

theorem exTree : Tree exHeap 0 (fun x => x < 2) := by
  refine .mk 0 _ (fun k x => k = c!"x" ∧ x = 1) (by decide) ?_ ?_ ?_ ?_
  · rintro k x ⟨_, rfl⟩; decide
  · rintro k ⟨_, h⟩; cases h
  · rintro k k' x hne ⟨rfl, _⟩ ⟨h, _⟩; exact hne h.symm
  · intro k r hr
    simp only [exHeap, Dict.get] at hr
    by_cases hk : k = c!"x"
    · subst hk
      simp at hr
      subst hr
      refine .mk 1 _ (fun _ _ => False) ⟨rfl, rfl⟩ ?_ ?_ ?_ ?_
      · intro _ _ h; exact h.elim
      · intro _ h; exact h
      · intro _ _ _ _ h; exact h.elim
      · intro k r hr
        simp only [exHeap, Dict.get] at hr
        by_cases hk : k = c!"u"
        · simp [hk] at hr
        · rw [if_neg hk] at hr; cases hr
    · rw [if_neg hk] at hr; cases hr

/-- The hypotheses of the C23 theorems are met. -/
example : exA.WF ∧ exB.WF ∧ Tree exHeap 0 (fun x => x < 2) ∧
    RepEnts exHeap (fun x => x < 2) (exHeap.at_ 0) exA ∧
    RepEnts exHeap (fun x => x = 3) (exHeap.at_ 2) exB ∧
    RepEnts exHeap (fun x => x < 4) (exHeap.at_ 0) exA ∧
    RepEnts exHeap (fun x => x < 4) (exHeap.at_ 2) exB ∧
    (∀ x, x < 2 → ¬ x = 3) ∧ depthE exA < 3 ∧ depthE exB ≤ 3 := by
  refine ⟨by simp [exA, Ents.WF, Val.WF, Ents.get], by simp [exB, Ents.WF, Val.WF, Ents.get], exTree,
    ?_, ?_, ?_, ?_, by omega, by decide, by decide⟩
  all_goals simp [exHeap, exA, exB, RepEnts, RepCell]

/-- The documented use of `copy=True` ("operate on a copy") is violated one level down: after
`C = mergeNestedDictionaries(A, B, copy=True)` the caller's own `A['x']` holds B's key. -/
theorem C23_copy_counterexample :
    ∃ h', mergeNested 3 exHeap 0 2 true false = some (h', 4) ∧
      h'.at_ 0 = exHeap.at_ 0 ∧
      exHeap.at_ 1 = [(c!"u", .leaf c!"1")] ∧
      h'.at_ 1 = [(c!"u", .leaf c!"1"), (c!"v", .leaf c!"2")] :=
  ⟨_, rfl, by decide, by decide, by decide⟩

/-- Aliasing: settings at 0, initially empty; the user's dictionaries at 2 and 5
(`{x: {v: 2}}` and `{x: {w: 9}}`). -/
def aliasHeap : Heap :=
  ⟨fun
    | 2 => [(c!"x", .ref 3)]
    | 3 => [(c!"v", .leaf c!"2")]
    | 5 => [(c!"x", .ref 6)]
    | 6 => [(c!"w", .leaf c!"9")]
    | _ => [], 7⟩

/-- `updateSettings(U1)` followed by `updateSettings(U2)` changes the dictionary nested in the
caller's `U1`, because the first call stored that very object in the settings. -/
theorem C23_alias_counterexample :
    ∃ h1 h2, mergeNested 3 aliasHeap 0 2 false false = some (h1, 0) ∧
      h1.at_ 3 = aliasHeap.at_ 3 ∧
      mergeNested 3 h1 0 5 false false = some (h2, 0) ∧
      h2.at_ 3 = [(c!"v", .leaf c!"2"), (c!"w", .leaf c!"9")] ∧ h2.at_ 3 ≠ aliasHeap.at_ 3 :=
  ⟨_, _, rfl, by decide, rfl, by decide, by decide⟩

/-- The first dictionary `{x: S, y: S}` holds one dictionary twice; merging `{x: {v: 2}}`
into it also changes what is read under `y`. -/
def shareHeap : Heap :=
  ⟨fun
    | 0 => [(c!"x", .ref 1), (c!"y", .ref 1)]
    | 2 => [(c!"x", .ref 3)]
    | 3 => [(c!"v", .leaf c!"2")]
    | _ => [], 4⟩

theorem C23_sharing_counterexample :
    ∃ h', mergeNested 3 shareHeap 0 2 false false = some (h', 0) ∧
      Dict.get (shareHeap.at_ 0) c!"y" = some (.ref 1) ∧ shareHeap.at_ 1 = [] ∧
      Dict.get (h'.at_ 0) c!"y" = some (.ref 1) ∧ h'.at_ 1 = [(c!"v", .leaf c!"2")] :=
  ⟨_, rfl, by decide, by decide, by decide, by decide⟩

end Cheetah.Settings
