import Verif.ModuleName
/-
C46: module names of template paths.  C54: splitting dotted names.
-/
namespace Cheetah.ModuleName

/-! ### Specification -/

/-- ASCII letters and digits. -/
def IsWord (c : Char) : Prop :=
  ('0' ≤ c ∧ c ≤ '9') ∨ ('a' ≤ c ∧ c ≤ 'z') ∨ ('A' ≤ c ∧ c ≤ 'Z')

instance (c : Char) : Decidable (IsWord c) := by unfold IsWord; infer_instance

/-! ### C46 -/

theorem table_length : table.length = 256 := by decide +kernel

theorem table_get : ∀ n < 256, ∀ c : Char, c = Char.ofNat n → table[n]? = some (if IsWord c then c else '_') := by
  have : ∀ n < 256, table[n]? = some (if IsWord (Char.ofNat n) then Char.ofNat n else '_') := by decide +kernel
  intro n hn c hc
  rw [hc]; exact this n hn

/-- C46: the name has a character for each character of the path: letters and digits stay,
other characters below 256 become underscores, the others stay. -/
theorem C46_character_by_character (p : Str) :
    (convertTmplPathToModuleName p).length = p.length ∧
    ∀ (i : Nat) (c : Char), p[i]? = some c → (convertTmplPathToModuleName p)[i]? =
      some (if IsWord c then c else if c.toNat < 256 then '_' else c) := by
  refine ⟨by simp [convertTmplPathToModuleName, translate, withoutDrive], ?_⟩
  intro i c hc
  simp only [convertTmplPathToModuleName, translate, withoutDrive, List.getElem?_map, hc, Option.map_some]
  congr 1
  by_cases h : c.toNat < 256
  · have := table_get c.toNat h c (Char.ofNat_toNat c).symm
    rw [List.getD_eq_getElem?_getD, this]
    simp [h]
  · have h1 : table[c.toNat]? = none := by
      rw [List.getElem?_eq_none_iff, table_length]; omega
    have h2 : ¬ IsWord c := by
      intro hw
      apply h
      rcases hw with ⟨_, hw⟩ | ⟨_, hw⟩ | ⟨_, hw⟩
      all_goals
        have : c.val.toNat ≤ _ := hw
        have e : c.toNat = c.val.toNat := rfl
        rw [e]
        exact Nat.lt_of_le_of_lt this (by decide)
    rw [List.getD_eq_getElem?_getD, h1]
    simp [h, h2]

/-- C46: for paths of characters below 256 the name consists of letters, digits and
underscores. -/
theorem C46_identifier_characters (p : Str) (h : ∀ c ∈ p, c.toNat < 256) :
    ∀ c ∈ convertTmplPathToModuleName p, IsWord c ∨ c = '_' := by
  intro c hc
  obtain ⟨i, hi⟩ := List.mem_iff_getElem?.mp hc
  obtain ⟨hlen, hch⟩ := C46_character_by_character p
  have : i < p.length := by
    rw [← hlen]
    exact (List.getElem?_eq_some_iff.mp hi).1
  have h1 := hch i p[i] (List.getElem?_eq_getElem this)
  rw [h1] at hi
  injection hi with hi
  have h2 := h p[i] (List.getElem_mem this)
  rw [← hi]
  by_cases hw : IsWord p[i]
  · rw [if_pos hw]; exact .inl hw
  · rw [if_neg hw, if_pos h2]; exact .inr rfl

example : convertTmplPathToModuleName c!"/a-b/c.tmpl" = c!"_a_b_c_tmpl" := by decide +kernel
example : ∀ c ∈ c!"/a-b/c.tmpl", c.toNat < 256 := by decide

/-- C46: names are not identifiers in general: a digit may come first, a character above
255 is kept, and different paths may share a name. -/
theorem C46_limits :
    convertTmplPathToModuleName c!"1.tmpl" = c!"1_tmpl" ∧
    convertTmplPathToModuleName c!"→" = c!"→" ∧
    convertTmplPathToModuleName c!"a-b" = convertTmplPathToModuleName c!"a_b" := by decide +kernel

/-! ### C54 -/

theorem lastDot_none {s : Str} : ∀ {n : Nat}, lastDot s n = none → ∀ i < n, s[i]? ≠ some '.'
  | 0, _, i, hi => by omega
  | n + 1, h, i, hi => by
    rw [lastDot] at h
    split at h
    · cases h
    · rename_i hn
      by_cases e : i = n
      · rw [e]; exact hn
      · exact lastDot_none h i (by omega)

theorem lastDot_some {s : Str} : ∀ {n k : Nat}, lastDot s n = some k →
    k < n ∧ s[k]? = some '.' ∧ ∀ i, k < i → i < n → s[i]? ≠ some '.'
  | 0, _, h => by cases h
  | n + 1, k, h => by
    rw [lastDot] at h
    split at h
    · rename_i hn
      injection h with h
      subst h
      exact ⟨by omega, hn, by intro i h1 h2; omega⟩
    · rename_i hn
      obtain ⟨h1, h2, h3⟩ := lastDot_some h
      refine ⟨by omega, h2, ?_⟩
      intro i hi hi'
      by_cases e : i = n
      · rw [e]; exact hn
      · exact h3 i hi (by omega)

/-- Splitting at the last dot. -/
theorem lastDot_split (s : Str) :
    (lastDot s s.length = none ∧ '.' ∉ s) ∨
    ∃ k, lastDot s s.length = some k ∧ s = s.take k ++ '.' :: s.drop (k + 1) ∧ '.' ∉ s.drop (k + 1) := by
  cases h : lastDot s s.length with
  | none =>
    left
    refine ⟨rfl, fun hm => ?_⟩
    obtain ⟨i, hi⟩ := List.mem_iff_getElem?.mp hm
    exact lastDot_none h i (List.getElem?_eq_some_iff.mp hi).1 hi
  | some k =>
    right
    obtain ⟨h1, h2, h3⟩ := lastDot_some h
    refine ⟨k, rfl, ?_, ?_⟩
    · have h4 : s.drop k = '.' :: s.drop (k + 1) := by
        rw [List.drop_eq_getElem_cons h1]
        have := List.getElem?_eq_some_iff.mp h2
        rw [this.2]
      rw [← h4, List.take_append_drop]
    · intro hm
      obtain ⟨i, hi⟩ := List.mem_iff_getElem?.mp hm
      rw [List.getElem?_drop] at hi
      exact h3 (k + 1 + i) (by omega) (List.getElem?_eq_some_iff.mp hi).1 hi

/-- C54: `packageName` and `getPathExt` cut at the last dot; a string without dots has
neither package nor extension. -/
theorem C54_last_dot (s : Str) :
    (∀ a b, s = a ++ '.' :: b → '.' ∉ b → packageName s = a ∧ getPathExt s = '.' :: b) ∧
    ('.' ∉ s → packageName s = [] ∧ getPathExt s = []) := by
  rcases lastDot_split s with ⟨h, hn⟩ | ⟨k, h, hs, hd⟩
  · constructor
    · rintro a b rfl _; exact absurd (by simp) hn
    · intro _; simp [packageName, getPathExt, h]
  · constructor
    · intro a b hab hb
      have key : ∀ (a b a' b' : Str), a ++ '.' :: b = a' ++ '.' :: b' → '.' ∉ b → '.' ∉ b' → a = a' ∧ b = b' := by
        intro a b a' b' e hb hb'
        rcases List.append_eq_append_iff.mp e with ⟨x, e1, e2⟩ | ⟨x, e1, e2⟩
        · cases x with
          | nil => simp at e1 e2; exact ⟨e1.symm, e2⟩
          | cons c x => injection e2 with e2 e3; exact absurd (by rw [e3]; simp) hb
        · cases x with
          | nil => simp at e1 e2; exact ⟨e1, e2.symm⟩
          | cons c x => injection e2 with e2 e3; exact absurd (by rw [e3]; simp) hb'
      obtain ⟨e1, e2⟩ := key _ _ _ _ (hs.symm.trans hab) hd hb
      have h5 : s.drop k = '.' :: s.drop (k + 1) := by
        have hl : (s.take k).length = k := by
          rw [List.length_take]; have := (lastDot_some h).1; omega
        have : s.drop k = (s.take k ++ '.' :: s.drop (k + 1)).drop k := by rw [← hs]
        rw [this, List.drop_append, hl]; simp
      simp only [packageName, getPathExt, h, h5, e1, e2, and_self]
    · intro hn; rw [hs] at hn; exact absurd (by simp) hn

example : packageName c!"a.b.c" = c!"a.b" ∧ getPathExt c!"x.tar.gz" = c!".gz" ∧ packageName c!"abc" = [] := by decide

theorem splitLoop_spec (s : Str) : ∀ (n j i : Nat) (acc : List Str), i ≤ j → j + n = s.length →
    (∀ k, i ≤ k → k < j → s[k]? ≠ some '.') →
    ∃ pieces i', splitLoop s n j i acc = (acc ++ pieces, i') ∧ i' ≤ s.length ∧
      (∀ p ∈ pieces, '.' ∉ p) ∧ (∀ k, i' ≤ k → s[k]? ≠ some '.') ∧
      s.drop i = (pieces.map (· ++ ['.'])).flatten ++ s.drop i'
  | 0, j, i, acc, h1, h2, h3 => by
    refine ⟨[], i, by simp [splitLoop], by omega, by simp, ?_, by simp⟩
    intro k hk hs
    have := (List.getElem?_eq_some_iff.mp hs).1
    exact h3 k hk (by omega) hs
  | n + 1, j, i, acc, h1, h2, h3 => by
    rw [splitLoop]
    by_cases hd : s[j]? = some '.'
    · rw [if_pos hd]
      obtain ⟨ps, i', e, b1, b2, b3, b4⟩ := splitLoop_spec s n (j + 1) (j + 1)
        (acc ++ [(s.drop i).take (j - i)]) (by omega) (by omega) (by intro k _ _; omega)
      refine ⟨(s.drop i).take (j - i) :: ps, i', by rw [e]; simp, b1, ?_, b3, ?_⟩
      · intro p hp
        rcases List.mem_cons.mp hp with rfl | hp
        · intro hm
          obtain ⟨k, hk⟩ := List.mem_iff_getElem?.mp hm
          rw [List.getElem?_take] at hk
          split at hk
          · rw [List.getElem?_drop] at hk
            exact h3 (i + k) (by omega) (by omega) hk
          · cases hk
        · exact b2 p hp
      · have hj : s.drop j = '.' :: s.drop (j + 1) := by
          have := List.getElem?_eq_some_iff.mp hd
          rw [List.drop_eq_getElem_cons this.1, this.2]
        have h4 : s.drop i = (s.drop i).take (j - i) ++ s.drop j := by
          have : s.drop j = (s.drop i).drop (j - i) := by rw [List.drop_drop]; congr 1; omega
          rw [this, List.take_append_drop]
        rw [h4, hj, b4]
        have h5 : (s.drop i).take (j - i) ++ '.' :: s.drop (j + 1) = s.drop i := by rw [← hj, ← h4]
        simp only [List.map_cons, List.flatten_cons, List.append_assoc, List.cons_append, List.nil_append]
        rw [← b4, h5]
        exact h5.symm
    · rw [if_neg hd]
      refine splitLoop_spec s n (j + 1) i acc (by omega) (by omega) ?_
      intro k hk hk'
      by_cases e : k = j
      · rw [e]; exact hd
      · exact h3 k hk (by omega)

theorem join_pieces : ∀ (ps : List Str) (t : Str), (ps.map (· ++ ['.'])).flatten ++ t = joinStr ['.'] (ps ++ [t])
  | [], t => by simp [joinStr]
  | p :: ps, t => by
    have ih := join_pieces ps t
    cases ps with
    | nil => simp [joinStr]
    | cons q ps =>
      simp only [List.map_cons, List.flatten_cons, List.append_assoc, List.cons_append, joinStr] at ih ⊢
      rw [ih]

/-- C54: the components hold no dots, and joining them with dots gives the name back; a dot
at the end is lost. -/
theorem C54_nameSplit (s : Str) :
    (∀ p ∈ nameSplit s, '.' ∉ p) ∧
    (s = joinStr ['.'] (nameSplit s) ∧ s.getLast? ≠ some '.' ∨ s = (nameSplit s |>.map (· ++ ['.'])).flatten) := by
  obtain ⟨ps, i, e, b1, b2, b3, b4⟩ := splitLoop_spec s s.length 0 0 [] (by omega) (by omega) (by intro k _ h; omega)
  have hs : s = (ps.map (· ++ ['.'])).flatten ++ s.drop i := by simpa using b4
  have hns : nameSplit s = if i < s.length then ps ++ [s.drop i] else ps := by
    simp only [nameSplit, e, List.nil_append]
  have hdrop : '.' ∉ s.drop i := by
    intro hm
    obtain ⟨k, hk⟩ := List.mem_iff_getElem?.mp hm
    rw [List.getElem?_drop] at hk
    exact b3 (i + k) (by omega) hk
  by_cases hi : i < s.length
  · rw [hns, if_pos hi]
    constructor
    · intro p hp
      rcases List.mem_append.mp hp with hp | hp
      · exact b2 p hp
      · simp at hp; rw [hp]; exact hdrop
    · left
      refine ⟨by rw [← join_pieces]; exact hs, ?_⟩
      rw [List.getLast?_eq_getElem?]
      exact b3 _ (by omega)
  · rw [hns, if_neg hi]
    refine ⟨b2, .inr ?_⟩
    have : s.drop i = [] := List.drop_eq_nil_of_le (by omega)
    rw [this, List.append_nil] at hs
    exact hs

/-- C54: a name that does not end in a dot is the join of its components. -/
theorem C54_nameSplit_joins_back (s : Str) (h : s.getLast? ≠ some '.') : joinStr ['.'] (nameSplit s) = s := by
  obtain ⟨_, h2⟩ := C54_nameSplit s
  rcases h2 with ⟨h2, _⟩ | h2
  · exact h2.symm
  · rcases List.eq_nil_or_concat (nameSplit s) with e | ⟨l, p, e⟩
    · rw [e] at h2 ⊢; simpa [joinStr] using h2.symm
    · exfalso
      apply h
      rw [h2, e]
      simp

example : nameSplit c!"a.b..c" = [c!"a", c!"b", [], c!"c"] ∧ nameSplit c!"a." = [c!"a"] ∧ nameSplit [] = [] := by decide

/-- C54, the exception: after a trailing dot the last, empty component is dropped. -/
theorem C54_trailing_dot_lost : nameSplit c!"a." = nameSplit c!"a" := by decide

end Cheetah.ModuleName
