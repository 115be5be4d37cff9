import Verif.Version
/-
C45: version strings.
-/
namespace Cheetah.Version

/-! ### Specification -/

/-- The release types in their order. -/
inductive Phase where
  | alpha | beta | candidate | final
  deriving DecidableEq, Repr

/-- How the type is written in a version string. -/
def Phase.mark : Phase → Str
  | .alpha => c!"a" | .beta => c!"b" | .candidate => c!"rc" | .final => []

/-- How the type is named in a tuple. -/
def Phase.name : Phase → Str
  | .alpha => c!"alpha" | .beta => c!"beta" | .candidate => c!"candidate" | .final => c!"final"

def Phase.rank : Phase → Nat
  | .alpha => 0 | .beta => 1 | .candidate => 2 | .final => 3

/-- The version strings and what they stand for: one to three numbers separated by dots,
and for all but final releases the mark of the type and a number. The numbers are what
Python's `int` accepts. -/
inductive Means : Str → List Int → Phase → Int → Prop
  | final {parts : List Str} {nums : List Int} : parts.map pyInt = nums.map some → 1 ≤ parts.length →
      parts.length ≤ 3 → Means (joinStr ['.'] parts) nums .final 0
  | pre {parts : List Str} {nums : List Int} {ph : Phase} {sub : Str} {k : Int} :
      parts.map pyInt = nums.map some → 1 ≤ parts.length → parts.length ≤ 3 → ph ≠ .final →
      pyInt sub = some k → Means (joinStr ['.'] parts ++ ph.mark ++ sub) nums ph k

/-- Missing components are 0. -/
def comp (nums : List Int) (i : Nat) : Int := nums.getD i 0

/-! ### Lemmas -/

theorem pyInt_plain {s : Str} {n : Int} (h : pyInt s = some n) {c : Char} (hc : c ∈ s) :
    c ≠ 'a' ∧ c ≠ 'b' ∧ c ≠ 'r' ∧ c ≠ 'c' ∧ c ≠ '.' := by
  have := (pyInt_chars h).2 c hc
  refine ⟨?_, ?_, ?_, ?_, ?_⟩ <;> intro e <;> rw [e] at this <;> revert this <;> decide +kernel

theorem parts_plain {parts : List Str} {nums : List Int} (h : parts.map pyInt = nums.map some) :
    ∀ p ∈ parts, ∃ n, pyInt p = some n := by
  intro p hp
  have : pyInt p ∈ parts.map pyInt := List.mem_map_of_mem hp
  rw [h] at this
  obtain ⟨n, _, hn⟩ := List.mem_map.mp this
  exact ⟨n, hn.symm⟩

theorem mem_joinStr {sep : Char} : ∀ {ps : List Str} {c : Char}, c ∈ joinStr [sep] ps → c = sep ∨ ∃ p ∈ ps, c ∈ p
  | [], c, h => by simp [joinStr] at h
  | [p], c, h => .inr ⟨p, by simp, h⟩
  | p :: q :: ps, c, h => by
    simp only [joinStr, List.mem_append, List.mem_singleton] at h
    rcases h with (h | h) | h
    · exact .inr ⟨p, by simp, h⟩
    · exact .inl h
    · rcases mem_joinStr h with h | ⟨r, hr, hc⟩
      · exact .inl h
      · exact .inr ⟨r, by simp [List.mem_cons.mp hr], hc⟩

theorem joined_plain {parts : List Str} {nums : List Int} (h : parts.map pyInt = nums.map some) {c : Char}
    (hc : c ∈ joinStr ['.'] parts) : c ≠ 'a' ∧ c ≠ 'b' ∧ c ≠ 'r' ∧ c ≠ 'c' := by
  rcases mem_joinStr hc with e | ⟨p, hp, hc⟩
  · rw [e]; decide
  · obtain ⟨n, hn⟩ := parts_plain h p hp
    obtain ⟨h1, h2, h3, h4, _⟩ := pyInt_plain hn hc
    exact ⟨h1, h2, h3, h4⟩

theorem containsCh {c : Char} {s : Str} : containsStr [c] s = true ↔ c ∈ s := by
  rw [containsStr_iff]
  constructor
  · rintro ⟨a, b, rfl⟩; simp
  · intro h
    obtain ⟨a, b, rfl⟩ := List.append_of_mem h
    exact ⟨a, b, by simp⟩

theorem containsRc {s : Str} : containsStr c!"rc" s = true → 'r' ∈ s := by
  rw [containsStr_iff]; rintro ⟨a, b, rfl⟩; simp

theorem splitRc_plain : ∀ {s : Str}, 'r' ∉ s → splitRc s = [s]
  | [], _ => rfl
  | [c], _ => rfl
  | c :: d :: s, h => by
    have hc : c ≠ 'r' := fun e => h (by simp [e])
    have ih := splitRc_plain (s := d :: s) (fun hm => h (List.mem_cons_of_mem _ hm))
    rw [splitRc, if_neg (fun hh => hc hh.1), ih]; rfl

theorem splitRc_two : ∀ {a : Str}, 'r' ∉ a → ∀ {b : Str}, 'r' ∉ b → splitRc (a ++ c!"rc" ++ b) = [a, b]
  | [], _, b, hb => by
    show splitRc ('r' :: 'c' :: b) = _
    rw [splitRc, if_pos ⟨rfl, rfl⟩, splitRc_plain hb]
  | [c], h, b, hb => by
    have hc : c ≠ 'r' := fun e => h (by simp [e])
    show splitRc (c :: 'r' :: 'c' :: b) = _
    rw [splitRc, if_neg (fun hh => hc hh.1), splitRc, if_pos ⟨rfl, rfl⟩, splitRc_plain hb]; rfl
  | c :: d :: a, h, b, hb => by
    have hc : c ≠ 'r' := fun e => h (by simp [e])
    have ih := splitRc_two (a := d :: a) (fun hm => h (List.mem_cons_of_mem _ hm)) hb
    show splitRc (c :: d :: (a ++ c!"rc" ++ b)) = _
    rw [splitRc, if_neg (fun hh => hc hh.1)]
    have e : d :: (a ++ c!"rc" ++ b) = d :: a ++ c!"rc" ++ b := rfl
    rw [e, ih]; rfl

theorem consPiece_join (c : Char) {ps : List Str} (h : ps ≠ []) :
    joinStr c!"rc" (consPiece c ps) = c :: joinStr c!"rc" ps := by
  cases ps with
  | nil => exact absurd rfl h
  | cons p ps => cases ps <;> rfl

theorem splitRc_ne_nil : ∀ s : Str, splitRc s ≠ []
  | [] => by simp [splitRc]
  | [c] => by simp [splitRc]
  | c :: d :: s => by
    rw [splitRc]
    split
    · simp
    · cases h : splitRc (d :: s) <;> simp [consPiece]

theorem splitRc_join : ∀ s : Str, joinStr c!"rc" (splitRc s) = s
  | [] => rfl
  | [c] => rfl
  | c :: d :: s => by
    rw [splitRc]
    split
    · rename_i h
      have := splitRc_join s
      cases hs : splitRc s with
      | nil => exact absurd hs (splitRc_ne_nil s)
      | cons p ps =>
        rw [hs] at this
        show [] ++ c!"rc" ++ joinStr c!"rc" (p :: ps) = _
        rw [this, h.1, h.2]; rfl
    · rw [consPiece_join c (splitRc_ne_nil _), splitRc_join (d :: s)]

theorem two_ok {l : List Str} {p : Str × Str} (h : two l = .ok p) : l = [p.1, p.2] := by
  unfold two at h
  split at h
  · injection h with h; rw [← h]
  · exact absurd h (by simp)

theorem splitKind_final {s : Str} (h1 : 'a' ∉ s) (h2 : 'b' ∉ s) (h3 : 'r' ∉ s) :
    splitKind s = .ok (s, c!"final", c!"0") := by
  unfold splitKind
  rw [if_neg (fun h => h1 (containsCh.mp h)), if_neg (fun h => h2 (containsCh.mp h)),
    if_neg (fun h => h3 (containsRc h))]

theorem splitCh_two {c : Char} {a b : Str} (ha : c ∉ a) (hb : c ∉ b) : splitCh c (a ++ [c] ++ b) = [a, b] := by
  have := splitCh_append_sep c a b
  rw [List.append_assoc]
  show splitCh c (a ++ c :: b) = _
  rw [this, splitCh_of_not_mem ha, splitCh_of_not_mem hb]; rfl

theorem splitKind_pre {a b : Str} {ph : Phase} (hf : ph ≠ .final) (ha : ∀ c ∈ a, c ≠ 'a' ∧ c ≠ 'b' ∧ c ≠ 'r' ∧ c ≠ 'c')
    (hb : ∀ c ∈ b, c ≠ 'a' ∧ c ≠ 'b' ∧ c ≠ 'r' ∧ c ≠ 'c') :
    splitKind (a ++ ph.mark ++ b) = .ok (a, ph.name, b) := by
  have na : ∀ x : Char, x = 'a' ∨ x = 'b' ∨ x = 'r' → x ∉ a := by
    rintro x (rfl | rfl | rfl) hm
    · exact (ha _ hm).1 rfl
    · exact (ha _ hm).2.1 rfl
    · exact (ha _ hm).2.2.1 rfl
  have nb : ∀ x : Char, x = 'a' ∨ x = 'b' ∨ x = 'r' → x ∉ b := by
    rintro x (rfl | rfl | rfl) hm
    · exact (hb _ hm).1 rfl
    · exact (hb _ hm).2.1 rfl
    · exact (hb _ hm).2.2.1 rfl
  unfold splitKind
  cases ph with
  | final => exact absurd rfl hf
  | alpha =>
    rw [if_pos (containsCh.mpr (by simp [Phase.mark]))]
    show (two (splitCh 'a' (a ++ ['a'] ++ b))).map _ = _
    rw [splitCh_two (na _ (.inl rfl)) (nb _ (.inl rfl))]; rfl
  | beta =>
    have h1 : ¬ containsStr c!"a" (a ++ Phase.beta.mark ++ b) = true := by
      rw [containsCh]; simp [Phase.mark, na, nb]
    rw [if_neg h1, if_pos (containsCh.mpr (by simp [Phase.mark]))]
    show (two (splitCh 'b' (a ++ ['b'] ++ b))).map _ = _
    rw [splitCh_two (na _ (.inr (.inl rfl))) (nb _ (.inr (.inl rfl)))]; rfl
  | candidate =>
    have h1 : ¬ containsStr c!"a" (a ++ Phase.candidate.mark ++ b) = true := by
      rw [containsCh]; simp [Phase.mark, na, nb]
    have h2 : ¬ containsStr c!"b" (a ++ Phase.candidate.mark ++ b) = true := by
      rw [containsCh]; simp [Phase.mark, na, nb]
    have h3 : containsStr c!"rc" (a ++ Phase.candidate.mark ++ b) = true := containsStr_iff.mpr ⟨a, b, rfl⟩
    rw [if_neg h1, if_neg h2, if_pos h3]
    show (two (splitRc (a ++ c!"rc" ++ b))).map _ = _
    rw [splitRc_two (na _ (.inr (.inr rfl))) (nb _ (.inr (.inr rfl)))]; rfl

theorem fill_ok {parts : List Str} {nums : List Int} (h : parts.map pyInt = nums.map some)
    (h1 : 1 ≤ parts.length) (h3 : parts.length ≤ 3) :
    fill [0, 0, 0] 0 parts = .ok [comp nums 0, comp nums 1, comp nums 2] := by
  rcases parts with _ | ⟨p, _ | ⟨q, _ | ⟨r, _ | ⟨x, ps⟩⟩⟩⟩
  · simp at h1
  all_goals rcases nums with _ | ⟨n0, _ | ⟨n1, _ | ⟨n2, _ | ⟨n3, ns⟩⟩⟩⟩ <;> simp at h
  · simp [fill, toInt, h, comp]
  · simp [fill, toInt, h, comp]
  · simp [fill, toInt, h, comp]
  all_goals simp at h3

theorem fill_some : ∀ {ps : List Str} {acc res : List Int} {i : Nat}, fill acc i ps = .ok res →
    ps = [] ∨ i + ps.length ≤ acc.length ∧ True
  | [], _, _, _, _ => .inl rfl
  | p :: ps, acc, res, i, h => by
    right
    unfold fill at h
    split at h
    · exact absurd h (by simp)
    · split at h
      · rename_i n _ hlt
        rcases fill_some h with e | ⟨e, _⟩
        · rw [e]; simp; omega
        · simp at e ⊢; omega
      · exact absurd h (by simp)

theorem fill_ints : ∀ {ps : List Str} {acc res : List Int} {i : Nat}, fill acc i ps = .ok res →
    ∃ nums : List Int, ps.map pyInt = nums.map some
  | [], _, _, _, _ => ⟨[], rfl⟩
  | p :: ps, acc, res, i, h => by
    unfold fill at h
    split at h
    · exact absurd h (by simp)
    · rename_i n hn
      split at h
      · obtain ⟨nums, hr⟩ := fill_ints h
        refine ⟨n :: nums, ?_⟩
        have : pyInt p = some n := by
          unfold toInt at hn
          split at hn
          · rename_i m hm; injection hn with hn; rw [hm, hn]
          · exact absurd hn (by simp)
        rw [List.map_cons, List.map_cons, hr, this]
      · exact absurd h (by simp)

/-! ### C45 -/

/-- C45: a version string is converted to its numbers, padded with zeros, the name of its
type and the number of that type. -/
theorem C45_value {s : Str} {nums : List Int} {ph : Phase} {k : Int} (h : Means s nums ph k) :
    convert s = .ok ⟨comp nums 0, comp nums 1, comp nums 2, ph.name, k⟩ := by
  cases h with
  | @final parts nums hp h1 h3 =>
    have hpl : ∀ x, x = 'a' ∨ x = 'b' ∨ x = 'r' → x ∉ joinStr ['.'] parts := by
      rintro x (rfl | rfl | rfl) hm
      · exact (joined_plain hp hm).1 rfl
      · exact (joined_plain hp hm).2.1 rfl
      · exact (joined_plain hp hm).2.2.1 rfl
    have hsp : splitCh '.' (joinStr ['.'] parts) = parts :=
      splitCh_join (by intro e; rw [e] at h1; simp at h1) fun p hp' => by
        obtain ⟨n, hn⟩ := parts_plain hp p hp'
        exact fun hm => (pyInt_plain hn hm).2.2.2.2 rfl
    unfold convert
    rw [splitKind_final (hpl _ (.inl rfl)) (hpl _ (.inr (.inl rfl))) (hpl _ (.inr (.inr rfl)))]
    simp only [hsp, fill_ok hp h1 h3]
    have : toInt c!"0" = .ok 0 := by decide +kernel
    rw [this]; rfl
  | @pre parts nums ph sub k hp h1 h3 hf hk =>
    have hsp : splitCh '.' (joinStr ['.'] parts) = parts :=
      splitCh_join (by intro e; rw [e] at h1; simp at h1) fun p hp' => by
        obtain ⟨n, hn⟩ := parts_plain hp p hp'
        exact fun hm => (pyInt_plain hn hm).2.2.2.2 rfl
    unfold convert
    rw [splitKind_pre hf (fun c hc => joined_plain hp hc)
      (fun c hc => by obtain ⟨a, b, c', d, _⟩ := pyInt_plain hk hc; exact ⟨a, b, c', d⟩)]
    simp only [hsp, fill_ok hp h1 h3, toInt, hk]
    rfl

example : Means c!"3.4.1a1" [3, 4, 1] .alpha 1 :=
  .pre (parts := [c!"3", c!"4", c!"1"]) (nums := [3, 4, 1]) (ph := .alpha) (sub := c!"1") (k := 1)
    (by decide +kernel) (by decide) (by decide) (by decide)
    (by decide +kernel)
example : Means c!"2.0" [2, 0] .final 0 :=
  .final (parts := [c!"2", c!"0"]) (by decide +kernel) (by decide) (by decide)

/-- C45: every other string is rejected. -/
theorem C45_rejects_the_rest {s : Str} (h : ¬ ∃ nums ph k, Means s nums ph k) : ∃ e, convert s = .error e := by
  cases hc : convert s with
  | error e => exact ⟨e, rfl⟩
  | ok t =>
    exfalso
    apply h
    unfold convert at hc
    split at hc
    · exact absurd hc (by simp)
    rename_i num kind sub hk
    split at hc
    · exact absurd hc (by simp)
    rename_i nums0 hfill
    split at hc
    · exact absurd hc (by simp)
    rename_i k hsub
    obtain ⟨nums, hn⟩ := fill_ints hfill
    have hlen : (splitCh '.' num).length ≤ 3 := by
      rcases fill_some hfill with e | ⟨e, _⟩
      · rw [e]; simp
      · simpa using e
    have hpos : 1 ≤ (splitCh '.' num).length := by
      cases hs : splitCh '.' num with
      | nil => exact absurd hs (splitCh_ne_nil _ _)
      | cons _ _ => simp
    have hj : joinStr ['.'] (splitCh '.' num) = num := join_splitCh '.' num
    have hk' : pyInt sub = some k := by
      unfold toInt at hsub
      split at hsub
      · rename_i m hm; injection hsub with hsub; rw [hm, hsub]
      · exact absurd hsub (by simp)
    have pre : ∀ ph : Phase, ph ≠ .final → s = num ++ ph.mark ++ sub → ∃ nums ph k, Means s nums ph k := by
      intro ph hf e
      refine ⟨nums, ph, k, ?_⟩
      rw [e]
      conv => arg 1; rw [← hj]
      exact .pre hn hpos hlen hf hk'
    unfold splitKind at hk
    split at hk
    · cases ht : two (splitCh 'a' s) with
      | error e => rw [ht] at hk; exact absurd hk (by simp [Except.map])
      | ok p =>
        rw [ht] at hk
        injection hk with hk
        have e1 : p.1 = num := (Prod.mk.inj hk).1
        have e2 : p.2 = sub := (Prod.mk.inj (Prod.mk.inj hk).2).2
        refine pre .alpha (by decide) ?_
        have := join_splitCh 'a' s
        rw [two_ok ht] at this
        rw [← this, e1, e2]; rfl
    split at hk
    · cases ht : two (splitCh 'b' s) with
      | error e => rw [ht] at hk; exact absurd hk (by simp [Except.map])
      | ok p =>
        rw [ht] at hk
        injection hk with hk
        have e1 : p.1 = num := (Prod.mk.inj hk).1
        have e2 : p.2 = sub := (Prod.mk.inj (Prod.mk.inj hk).2).2
        refine pre .beta (by decide) ?_
        have := join_splitCh 'b' s
        rw [two_ok ht] at this
        rw [← this, e1, e2]; rfl
    split at hk
    · cases ht : two (splitRc s) with
      | error e => rw [ht] at hk; exact absurd hk (by simp [Except.map])
      | ok p =>
        rw [ht] at hk
        injection hk with hk
        have e1 : p.1 = num := (Prod.mk.inj hk).1
        have e2 : p.2 = sub := (Prod.mk.inj (Prod.mk.inj hk).2).2
        refine pre .candidate (by decide) ?_
        have := splitRc_join s
        rw [two_ok ht] at this
        rw [← this, e1, e2]; rfl
    · injection hk with hk
      have e1 : s = num := (Prod.mk.inj hk).1
      refine ⟨nums, .final, 0, ?_⟩
      rw [e1]
      conv => arg 1; rw [← hj]
      exact .final hn hpos hlen

/-- Malformed strings: four numbers, a missing number, a doubled mark. -/
example : convert c!"1.2.3.4" = .error .indexError ∧ convert c!"1.0a" = .error .valueError ∧
    convert c!"1.0a1a2" = .error .valueError ∧ convert [] = .error .valueError := by decide +kernel

/-- C45: two version strings compare as their numbers, then alpha < beta < candidate <
final, then the number of the type. -/
theorem C45_order {s s' : Str} {nums nums' : List Int} {ph ph' : Phase} {k k' : Int}
    (h : Means s nums ph k) (h' : Means s' nums' ph' k') :
    ∃ t t', convert s = .ok t ∧ convert s' = .ok t' ∧
      (t.lt t' = true ↔
        comp nums 0 < comp nums' 0 ∨ comp nums 0 = comp nums' 0 ∧
        (comp nums 1 < comp nums' 1 ∨ comp nums 1 = comp nums' 1 ∧
        (comp nums 2 < comp nums' 2 ∨ comp nums 2 = comp nums' 2 ∧
        (ph.rank < ph'.rank ∨ ph = ph' ∧ k < k')))) := by
  refine ⟨_, _, C45_value h, C45_value h', ?_⟩
  have hkind : ∀ p q : Phase, (p.name = q.name ↔ p = q) ∧ (strLt p.name q.name = true ↔ p.rank < q.rank) := by
    intro p q; cases p <;> cases q <;> decide
  have hne : ∀ p q : Phase, p.rank < q.rank → p ≠ q := by intro p q; cases p <;> cases q <;> decide
  obtain ⟨g1, g2⟩ := hkind ph ph'
  have g3 := hne ph ph'
  simp only [Tuple.lt]
  by_cases e0 : comp nums 0 = comp nums' 0
  · by_cases e1 : comp nums 1 = comp nums' 1
    · by_cases e2 : comp nums 2 = comp nums' 2
      · by_cases e3 : ph = ph'
        · subst e3
          simp [e0, e1, e2]
        · have : ph.name ≠ ph'.name := fun e => e3 (g1.mp e)
          simp [e0, e1, e2, e3, this, g2]
      · simp [e0, e1, e2]
    · simp [e0, e1]
  · simp [e0]

end Cheetah.Version
