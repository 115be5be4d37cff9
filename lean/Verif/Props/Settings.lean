import Verif.Settings
/-
Properties C22 (what merged settings read) and C23 (who is changed by merging).
-/
namespace Cheetah.Settings

/-! ### Spec: what a nested dictionary reads at a path -/

/-- What is found at a path: nothing, an atom, or a dictionary. -/
inductive Found where
  | nothing
  | atom (x : Str)
  | table
  deriving DecidableEq, Repr

mutual
/-- `d[k1][k2]…`: what following the keys finds, in a value … -/
def readVal : Val → List Str → Found
  | .leaf x, [] => .atom x
  | .leaf _, _ :: _ => .nothing
  | .dict _, [] => .table
  | .dict d, k :: p => readEnts d k p
/-- … and in the entries of a dictionary. -/
def readEnts : Ents → Str → List Str → Found
  | .nil, _, _ => .nothing
  | .cons k' v d, k, p => if k = k' then readVal v p else readEnts d k p
end

/-- `B` has an atom at a proper, non-empty prefix of the path: nothing can be found
at the path itself. -/
def Blocked (d : Ents) (k : Str) (p : List Str) : Prop :=
  ∃ q r x, p = q ++ r ∧ r ≠ [] ∧ readEnts d k q = .atom x

mutual
/-- Python dictionaries have no duplicate keys, at any level. -/
def Ents.WF : Ents → Prop
  | .nil => True
  | .cons k v d => d.get k = none ∧ v.WF ∧ d.WF
def Val.WF : Val → Prop
  | .leaf _ => True
  | .dict d => d.WF
end

/-! ### C22 -/

theorem readEnts_get (d : Ents) (k : Str) (p : List Str) :
    readEnts d k p = match d.get k with | some v => readVal v p | none => .nothing := by
  induction d using Ents.rec (motive_1 := fun _ => True) with
  | nil => simp [readEnts, Ents.get]
  | cons k' v d _ ih =>
    simp only [readEnts, Ents.get]
    by_cases h : k = k'
    · simp [h]
    · simp only [if_neg h]; exact ih
  | leaf => trivial
  | dict => trivial

theorem get_set (d : Ents) (k k' : Str) (v : Val) :
    (d.set k v).get k' = if k' = k then some v else d.get k' := by
  induction d using Ents.rec (motive_1 := fun _ => True) with
  | nil => simp [Ents.set, Ents.get]
  | cons k0 v0 d _ ih =>
    simp only [Ents.set]
    by_cases h : k = k0
    · subst h
      simp only [if_true, Ents.get]
      by_cases h' : k' = k <;> simp [h']
    · simp only [if_neg h, Ents.get]
      by_cases h' : k' = k0
      · subst h'; simp [Ne.symm h]
      · simp [h', ih]
  | leaf => trivial
  | dict => trivial

/-- One level: the merged dictionary's entry for a key. -/
theorem merge_get (d1 d2 : Ents) (h2 : d2.WF) (k : Str) :
    (merge d1 d2).get k = match d2.get k with
      | some v => some (mergeVal (d1.get k) v)
      | none => d1.get k := by
  induction d2 using Ents.rec (motive_1 := fun _ => True) generalizing d1 with
  | nil => simp [merge, Ents.get]
  | cons k0 v0 d _ ih =>
    simp only [Ents.WF] at h2
    rw [merge, ih _ h2.2.2]
    simp only [Ents.get, get_set]
    by_cases h : k = k0
    · subst h; simp [h2.1]
    · simp [h]
  | leaf => trivial
  | dict => trivial

theorem WF_get {d : Ents} (h : d.WF) {k : Str} {v : Val} (hg : d.get k = some v) : v.WF := by
  induction d using Ents.rec (motive_1 := fun _ => True) with
  | nil => simp [Ents.get] at hg
  | cons k0 v0 d _ ih =>
    simp only [Ents.WF] at h
    simp only [Ents.get] at hg
    by_cases hk : k = k0
    · rw [if_pos hk] at hg; cases hg; exact h.2.1
    · rw [if_neg hk] at hg; exact ih h.2.2 hg
  | leaf => trivial
  | dict => trivial

theorem not_blocked_nil (d : Ents) (k : Str) : ¬ Blocked d k [] := by
  rintro ⟨q, r, x, h, hr, _⟩
  simp at h
  exact hr h.2

theorem blocked_cons {d : Ents} {k j : Str} {p : List Str} :
    Blocked d k (j :: p) ↔ (∃ x, d.get k = some (.leaf x)) ∨
      (∃ e, d.get k = some (.dict e) ∧ Blocked e j p) := by
  constructor
  · rintro ⟨q, r, x, h, hr, hq⟩
    rw [readEnts_get] at hq
    cases hg : d.get k with
    | none => simp [hg] at hq
    | some v =>
      rw [hg] at hq
      cases v with
      | leaf y => exact Or.inl ⟨y, rfl⟩
      | dict e =>
        right
        cases q with
        | nil => simp [readVal] at hq
        | cons j' q =>
          simp at h
          obtain ⟨rfl, h⟩ := h
          exact ⟨e, rfl, q, r, x, h, hr, by simpa [readVal] using hq⟩
  · rintro (⟨x, hg⟩ | ⟨e, hg, q, r, x, h, hr, hq⟩)
    · exact ⟨[], j :: p, x, rfl, by simp, by rw [readEnts_get, hg]; rfl⟩
    · exact ⟨j :: q, r, x, by simp [h], hr, by rw [readEnts_get, hg]; simpa [readVal] using hq⟩

/-- **C22, what a merged dictionary reads.** At every path the merged settings read
what `B` reads if `B` has something there, nothing if `B` has an atom on the way,
and what `A` reads otherwise. -/
theorem C22_merge_reads (A B : Ents) (hB : B.WF) (k : Str) (p : List Str) :
    (readEnts B k p ≠ .nothing → readEnts (merge A B) k p = readEnts B k p) ∧
    (Blocked B k p → readEnts (merge A B) k p = .nothing) ∧
    (readEnts B k p = .nothing → ¬ Blocked B k p → readEnts (merge A B) k p = readEnts A k p) := by
  induction p generalizing A B k with
  | nil =>
    refine ⟨?_, fun h => absurd h (not_blocked_nil B k), ?_⟩
    · intro h
      rw [readEnts_get, merge_get A B hB k]
      rw [readEnts_get] at h ⊢
      cases hg : B.get k with
      | none => simp [hg] at h
      | some v =>
        cases v with
        | leaf x => simp [mergeVal]
        | dict e =>
          simp only [mergeVal]
          split <;> simp [readVal]
    · intro h _
      rw [readEnts_get, merge_get A B hB k, readEnts_get]
      rw [readEnts_get] at h
      cases hg : B.get k with
      | none => rfl
      | some v => rw [hg] at h; cases v <;> simp [readVal] at h
  | cons j p ih =>
    have hm : readEnts (merge A B) k (j :: p) =
        match B.get k with
        | some v => readVal (mergeVal (A.get k) v) (j :: p)
        | none => readEnts A k (j :: p) := by
      rw [readEnts_get, merge_get A B hB k]
      cases B.get k with
      | none => rw [readEnts_get]
      | some v => rfl
    rw [hm, blocked_cons]
    have hb : readEnts B k (j :: p) = match B.get k with
        | some (.dict e) => readEnts e j p
        | _ => .nothing := by
      rw [readEnts_get]
      cases B.get k with
      | none => rfl
      | some v => cases v <;> rfl
    rw [hb]
    cases hg : B.get k with
    | none => simp
    | some v =>
      cases v with
      | leaf x => simp [mergeVal, readVal]
      | dict e =>
        have hwe : e.WF := WF_get hB hg
        simp only [Option.some.injEq, Val.dict.injEq, reduceCtorEq, exists_false, false_or, exists_eq_left']
        cases ha : A.get k with
        | none =>
          simp only [mergeVal, readVal]
          refine ⟨fun _ => trivial, ?_, ?_⟩
          · rintro hbl
            -- blocked paths read nothing in B itself
            obtain ⟨_, h2, _⟩ := ih Ents.nil e hwe j
            have h3 := h2 hbl
            by_cases hn : readEnts e j p = .nothing
            · exact hn
            · obtain ⟨h1, _, _⟩ := ih Ents.nil e hwe j
              rw [h1 hn] at h3
              exact absurd h3 hn
          · intro hn _
            rw [readEnts_get A, ha]; exact hn
        | some w =>
          cases w with
          | leaf y =>
            simp only [mergeVal, readVal]
            refine ⟨fun _ => trivial, ?_, ?_⟩
            · rintro hbl
              obtain ⟨h1, h2, _⟩ := ih Ents.nil e hwe j
              have h3 := h2 hbl
              by_cases hn : readEnts e j p = .nothing
              · exact hn
              · rw [h1 hn] at h3
                exact absurd h3 hn
            · intro hn _
              rw [readEnts_get A, ha]; simpa [readVal] using hn
          | dict f =>
            simp only [mergeVal, readVal]
            obtain ⟨h1, h2, h3⟩ := ih f e hwe j
            refine ⟨h1, h2, ?_⟩
            intro hn hbl
            rw [h3 hn hbl, readEnts_get A, ha]
            rfl

/-- Two dictionaries are `==` for Python: they read the same at every path. -/
def Same (A B : Ents) : Prop := ∀ k p, readEnts A k p = readEnts B k p

/-- If nothing blocks and nothing is there, or something is there: exactly one of the
three cases of `C22_merge_reads` applies. -/
theorem reads_cases (A B : Ents) (hB : B.WF) (k : Str) (p : List Str) :
    readEnts (merge A B) k p = readEnts B k p ∨
    (readEnts B k p = .nothing ∧ ¬ Blocked B k p ∧ readEnts (merge A B) k p = readEnts A k p) := by
  obtain ⟨h1, h2, h3⟩ := C22_merge_reads A B hB k p
  by_cases hn : readEnts B k p = .nothing
  · by_cases hb : Blocked B k p
    · left; rw [h2 hb, hn]
    · exact Or.inr ⟨hn, hb, h3 hn hb⟩
  · exact Or.inl (h1 hn)

/-- **C22, merging the same settings again changes nothing.** -/
theorem C22_merge_idempotent (A B : Ents) (hB : B.WF) : Same (merge (merge A B) B) (merge A B) := by
  intro k p
  rcases reads_cases (merge A B) B hB k p with h | ⟨_, _, h⟩
  · rcases reads_cases A B hB k p with h' | ⟨h1, h2, h3⟩
    · rw [h, h']
    · rw [(C22_merge_reads (merge A B) B hB k p).2.2 h1 h2]
  · exact h

/-- **C22, merging nothing / into nothing.** -/
theorem C22_merge_empty (A B : Ents) (hB : B.WF) : merge A .nil = A ∧ Same (merge .nil B) B := by
  refine ⟨by simp [merge], ?_⟩
  intro k p
  rcases reads_cases .nil B hB k p with h | ⟨h1, _, h3⟩
  · exact h
  · rw [h3, h1]; simp [readEnts]

/-- `B` and `C` agree on which paths are atoms and which are dictionaries. -/
def Compatible (B C : Ents) : Prop := ∀ k p x, readEnts B k p = .atom x → readEnts C k p ≠ .table

theorem blocked_read {d : Ents} (hd : d.WF) {k : Str} {p : List Str} (h : Blocked d k p) :
    readEnts d k p = .nothing := by
  have h2 := (C22_merge_reads .nil d hd k p).2.1 h
  by_cases hn : readEnts d k p = .nothing
  · exact hn
  · rw [(C22_merge_reads .nil d hd k p).1 hn] at h2; exact h2

theorem blocked_mono {d : Ents} {k : Str} {q r : List Str} (h : Blocked d k q) : Blocked d k (q ++ r) := by
  obtain ⟨q', r', x, h1, h2, h3⟩ := h
  exact ⟨q', r' ++ r, x, by simp [h1], by simp [h2], h3⟩

mutual
theorem set_WF : ∀ (d : Ents) (k : Str) (v : Val), d.WF → v.WF → (d.set k v).WF
  | .nil, k, v, _, hv => by simp [Ents.set, Ents.WF, Ents.get, hv]
  | .cons k0 v0 d, k, v, hd, hv => by
    simp only [Ents.WF] at hd
    simp only [Ents.set]
    by_cases h : k = k0
    · simp only [if_pos h, Ents.WF]; exact ⟨hd.1, hv, hd.2.2⟩
    · simp only [if_neg h, Ents.WF, get_set]
      exact ⟨by simp [Ne.symm h, hd.1], hd.2.1, set_WF d k v hd.2.2 hv⟩
end

mutual
theorem merge_WF : ∀ (B A : Ents), A.WF → B.WF → (merge A B).WF
  | .nil, A, hA, _ => by simpa [merge] using hA
  | .cons k v d, A, hA, hB => by
    simp only [Ents.WF] at hB
    rw [merge]
    refine merge_WF d _ (set_WF A k _ hA ?_) hB.2.2
    exact mergeVal_WF v (A.get k) (fun w hw => WF_get hA hw) hB.2.1
theorem mergeVal_WF : ∀ (v : Val) (old : Option Val), (∀ w, old = some w → w.WF) → v.WF →
    (mergeVal old v).WF
  | .leaf x, old, _, _ => by simp [mergeVal, Val.WF]
  | .dict e, old, ho, hv => by
    simp only [Val.WF] at hv
    cases old with
    | none => simpa [mergeVal, Val.WF] using hv
    | some w =>
      cases w with
      | leaf y => simpa [mergeVal, Val.WF] using hv
      | dict f =>
        have := ho _ rfl
        simp only [Val.WF] at this
        simp only [mergeVal, Val.WF]
        exact merge_WF e f this hv
end

/-- **C22, associativity (partial).** Full statement: merging is associative. Missing:
it fails when `C` has a dictionary where `B` has an atom
(`C22_associativity_counterexample`); it holds otherwise. -/
theorem C22_merge_assoc_partial (A B C : Ents) (hB : B.WF) (hC : C.WF) (hc : Compatible B C) :
    Same (merge (merge A B) C) (merge A (merge B C)) := by
  intro k p
  have hBC := merge_WF C B hB hC
  rcases reads_cases (merge A B) C hC k p with h1 | ⟨h1, h2, h3⟩
  · -- C decides on the left
    rw [h1]
    by_cases hn : readEnts C k p = .nothing
    · -- blocked by C, or decided by the cases below
      by_cases hb : Blocked C k p
      · have hbc : Blocked (merge B C) k p := by
          obtain ⟨q, r, x, e1, e2, e3⟩ := hb
          exact ⟨q, r, x, e1, e2, by rw [(C22_merge_reads B C hC k q).1 (by rw [e3]; simp), e3]⟩
        rw [(C22_merge_reads A (merge B C) hBC k p).2.1 hbc, hn]
      · have := (C22_merge_reads (merge A B) C hC k p).2.2 hn hb
        rw [h1, hn] at this
        -- merge A B reads nothing at p
        rw [hn]
        have hBC1 := (C22_merge_reads B C hC k p).2.2 hn hb
        rcases reads_cases A B hB k p with h4 | ⟨h4, h5, h6⟩
        · rw [← this] at h4
          by_cases hbb : Blocked B k p
          · have hbc : Blocked (merge B C) k p := by
              obtain ⟨q, r, x, e1, e2, e3⟩ := hbb
              refine ⟨q, r, x, e1, e2, ?_⟩
              rcases reads_cases B C hC k q with e4 | ⟨_, _, e4⟩
              · rw [e4]
                cases hcq : readEnts C k q with
                | nothing =>
                  by_cases hbq : Blocked C k q
                  · exact absurd (e1 ▸ blocked_mono hbq) hb
                  · have := (C22_merge_reads B C hC k q).2.2 hcq hbq
                    rw [e4, hcq, e3] at this; cases this
                | atom y => exact absurd ⟨q, r, y, e1, e2, hcq⟩ hb
                | table => exact absurd hcq (hc k q x e3)
              · rw [e4, e3]
            rw [(C22_merge_reads A (merge B C) hBC k p).2.1 hbc]
          · have h7 := (C22_merge_reads A B hB k p).2.2 h4.symm hbb
            have hnb : ¬ Blocked (merge B C) k p := by
              rintro ⟨q, r, x, e1, e2, e3⟩
              rcases reads_cases B C hC k q with e4 | ⟨_, _, e4⟩
              · exact hb ⟨q, r, x, e1, e2, by rw [← e4, e3]⟩
              · exact hbb ⟨q, r, x, e1, e2, by rw [← e4, e3]⟩
            rw [(C22_merge_reads A (merge B C) hBC k p).2.2 (hBC1.trans h4.symm) hnb, ← h7, ← this]
        · have hnb : ¬ Blocked (merge B C) k p := by
            rintro ⟨q, r, x, e1, e2, e3⟩
            rcases reads_cases B C hC k q with e4 | ⟨_, _, e4⟩
            · exact hb ⟨q, r, x, e1, e2, by rw [← e4, e3]⟩
            · exact h5 ⟨q, r, x, e1, e2, by rw [← e4, e3]⟩
          rw [(C22_merge_reads A (merge B C) hBC k p).2.2 (hBC1.trans h4) hnb, ← h6, ← this]
    · have h4 := (C22_merge_reads B C hC k p).1 hn
      rw [(C22_merge_reads A (merge B C) hBC k p).1 (by rw [h4]; exact hn), h4]
  · rw [h3]
    have hBC1 := (C22_merge_reads B C hC k p).2.2 h1 h2
    rcases reads_cases A B hB k p with h4 | ⟨h4, h5, h6⟩
    · by_cases hn : readEnts B k p = .nothing
      · by_cases hbb : Blocked B k p
        · have hbc : Blocked (merge B C) k p := by
            obtain ⟨q, r, x, e1, e2, e3⟩ := hbb
            refine ⟨q, r, x, e1, e2, ?_⟩
            cases hcq : readEnts C k q with
            | nothing =>
              have hbq : ¬ Blocked C k q := fun hbq => h2 (e1 ▸ blocked_mono hbq)
              rw [(C22_merge_reads B C hC k q).2.2 hcq hbq, e3]
            | atom y => exact absurd ⟨q, r, y, e1, e2, hcq⟩ h2
            | table => exact absurd hcq (hc k q x e3)
          rw [(C22_merge_reads A (merge B C) hBC k p).2.1 hbc, h4, hn]
        · have hnb : ¬ Blocked (merge B C) k p := by
            rintro ⟨q, r, x, e1, e2, e3⟩
            rcases reads_cases B C hC k q with e4 | ⟨_, _, e4⟩
            · exact h2 ⟨q, r, x, e1, e2, by rw [← e4, e3]⟩
            · exact hbb ⟨q, r, x, e1, e2, by rw [← e4, e3]⟩
          rw [(C22_merge_reads A (merge B C) hBC k p).2.2 (hBC1.trans hn) hnb,
            (C22_merge_reads A B hB k p).2.2 hn hbb]
      · rw [(C22_merge_reads A (merge B C) hBC k p).1 (by rw [hBC1]; exact hn), hBC1, h4]
    · have hnb : ¬ Blocked (merge B C) k p := by
        rintro ⟨q, r, x, e1, e2, e3⟩
        rcases reads_cases B C hC k q with e4 | ⟨_, _, e4⟩
        · exact h2 ⟨q, r, x, e1, e2, by rw [← e4, e3]⟩
        · exact h5 ⟨q, r, x, e1, e2, by rw [← e4, e3]⟩
      rw [(C22_merge_reads A (merge B C) hBC k p).2.2 (hBC1.trans h4) hnb, h6]

/-- `{k: v}` and `{k: {j: v}}`, for the examples. -/
def one (k x : Str) : Ents := .cons k (.leaf x) .nil
def two (k j x : Str) : Ents := .cons k (.dict (one j x)) .nil

/-- Merging is not associative: an atom overriding a dictionary, itself overridden by
a dictionary, hides the first dictionary's entries or not depending on the order. -/
theorem C22_associativity_counterexample :
    let A := two c!"a" c!"c" c!"3"
    let B := one c!"a" c!"1"
    let C := two c!"a" c!"b" c!"2"
    readEnts (merge (merge A B) C) c!"a" [c!"c"] = .nothing ∧
    readEnts (merge A (merge B C)) c!"a" [c!"c"] = .atom c!"3" := by decide

example : (two c!"a" c!"b" c!"2").WF ∧ Compatible (two c!"a" c!"b" c!"2") (two c!"a" c!"c" c!"3") := by
  refine ⟨by simp [two, one, Ents.WF, Val.WF, Ents.get], ?_⟩
  intro k p x h hn
  have hg : ∀ j y : Str, readEnts (two c!"a" j y) k p = .table → k = c!"a" ∧ p = [] := by
    intro j y ht
    rw [readEnts_get] at ht
    simp only [two, Ents.get] at ht
    by_cases hk : k = c!"a"
    · rw [if_pos hk] at ht
      refine ⟨hk, ?_⟩
      cases p with
      | nil => rfl
      | cons i p =>
        have : readEnts (one j y) i p = .table := by simpa [readVal] using ht
        rw [readEnts_get] at this
        simp only [one, Ents.get] at this
        by_cases hi : i = j
        · rw [if_pos hi] at this; cases p <;> simp [readVal] at this
        · rw [if_neg hi] at this; cases this
    · rw [if_neg hk] at ht; cases ht
  obtain ⟨rfl, rfl⟩ := hg _ _ hn
  revert h; simp [two, readEnts, readVal]

/-- **C22, updateSettings** with `merge=False` overwrites whole top-level entries. -/
theorem C22_update_overwrites (s new : Ents) (hn : new.WF) (k : Str) :
    (updateSettings s new false).get k = (match new.get k with | some v => some v | none => s.get k) ∧
    updateSettings s new true = merge s new := by
  refine ⟨?_, rfl⟩
  simp only [updateSettings]
  show (update s new).get k = _
  induction new using Ents.rec (motive_1 := fun _ => True) generalizing s with
  | nil => simp [update, Ents.get]
  | cons k0 v0 d _ ih =>
    simp only [Ents.WF] at hn
    rw [update, ih _ hn.2.2]
    simp only [Ents.get, get_set]
    by_cases h : k = k0
    · subst h; simp [hn.1]
    · simp [h]
  | leaf => trivial
  | dict => trivial

/-- **C22, reading a setting**: what was put under the name, else the default, else KeyError. In
particular a default never hides a setting, and after an update the new values are read. -/
theorem C22_setting (s : Ents) (name : Str) (v : Val) (default : Option Val) :
    (s.get name = some v → setting s name default = .ok v) ∧
    (s.get name = none → setting s name (some v) = .ok v ∧ setting s name none = .error name) := by
  constructor
  · intro h; simp [setting, h]
  · intro h; simp [setting, h]

example : (match setting (one c!"a" c!"1") c!"a" (some (.leaf c!"2")) with | .ok (.leaf x) => x | _ => []) = c!"1" := by
  decide

end Cheetah.Settings
