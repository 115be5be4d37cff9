import Verif.Config
import Verif.PyInt
import Verif.Props.Settings
/-
C77: settings in configuration text mean what they say.
-/
namespace Cheetah.Config
open Cheetah.Settings (Ents)

/-! ### Specification -/

/-- The characters numbers and sums of numbers are written with. -/
def Arithmetic (v : Str) : Prop :=
  (∃ c ∈ v, isDigit c = true) ∧ ∀ c ∈ v, isSpace c = true ∨ c ∈ c!"0123456789abcdefABCDEFxXoOjJ_.+-()"

/-- Text that is nothing else: it does not begin like a number, is none of the three words, and does
not say that it is Python. -/
def Plain (v : Str) : Prop :=
  (∃ c r, strip v = c :: r ∧ isDigit c = false ∧ c ∉ c!".(+-") ∧
  lower v ≠ c!"none" ∧ lower v ≠ c!"true" ∧ lower v ≠ c!"false" ∧ ¬ c!"python:" <+: lower v

/-! ### Matching -/

/-- The characters an expression can take. -/
def Re.chars : Re → Char → Prop
  | .set p, c => p c = true
  | .seq a b, c => a.chars c ∨ b.chars c
  | .alt a b, c => a.chars c ∨ b.chars c
  | .opt a, c => a.chars c
  | .star a, c => a.chars c

theorem starM_mem {f : Str → List Str} {P : Char → Prop} (hf : ∀ s r, r ∈ f s → ∃ t, s = t ++ r ∧ ∀ c ∈ t, P c) :
    ∀ n s r, r ∈ starM f n s → ∃ t, s = t ++ r ∧ ∀ c ∈ t, P c := by
  intro n
  induction n with
  | zero => intro s r h; simp [starM] at h; exact ⟨[], by simp [h], by simp⟩
  | succ n ih =>
    intro s r h
    simp only [starM, List.mem_append, List.mem_flatMap, List.mem_filter, List.mem_singleton] at h
    rcases h with ⟨u, ⟨hu, _⟩, hr⟩ | rfl
    · obtain ⟨t, ht, hP⟩ := hf s u hu
      obtain ⟨t', ht', hP'⟩ := ih u r hr
      refine ⟨t ++ t', by rw [ht, ht', List.append_assoc], ?_⟩
      intro c hc
      rcases List.mem_append.1 hc with h | h
      · exact hP c h
      · exact hP' c h
    · exact ⟨[], rfl, by simp⟩

theorem m_chars (re : Re) : ∀ s r, r ∈ re.m s → ∃ t, s = t ++ r ∧ ∀ c ∈ t, re.chars c := by
  induction re with
  | set p =>
    intro s r h
    cases s with
    | nil => simp [Re.m] at h
    | cons c s =>
      simp only [Re.m] at h
      split at h
      next hp => simp at h; subst h; exact ⟨[c], rfl, by simpa [Re.chars] using hp⟩
      · simp at h
  | seq a b iha ihb =>
    intro s r h
    simp only [Re.m, List.mem_flatMap] at h
    obtain ⟨u, hu, hr⟩ := h
    obtain ⟨t, ht, hP⟩ := iha s u hu
    obtain ⟨t', ht', hP'⟩ := ihb u r hr
    refine ⟨t ++ t', by rw [ht, ht', List.append_assoc], ?_⟩
    intro c hc
    rcases List.mem_append.1 hc with h | h
    · exact Or.inl (hP c h)
    · exact Or.inr (hP' c h)
  | alt a b iha ihb =>
    intro s r h
    simp only [Re.m, List.mem_append] at h
    rcases h with h | h
    · obtain ⟨t, ht, hP⟩ := iha s r h
      exact ⟨t, ht, fun c hc => Or.inl (hP c hc)⟩
    · obtain ⟨t, ht, hP⟩ := ihb s r h
      exact ⟨t, ht, fun c hc => Or.inr (hP c hc)⟩
  | opt a ih =>
    intro s r h
    simp only [Re.m, List.mem_append, List.mem_singleton] at h
    rcases h with h | rfl
    · exact ih s r h
    · exact ⟨[], rfl, by simp⟩
  | star a ih => intro s r h; exact starM_mem ih _ s r h

/-- Every match takes a character of a kind. -/
def Re.Needs (P : Char → Prop) : Re → Prop
  | .set p => ∀ c, p c = true → P c
  | .seq a b => a.Needs P ∨ b.Needs P
  | .alt a b => a.Needs P ∧ b.Needs P
  | .opt _ => False
  | .star _ => False

theorem m_needs (P : Char → Prop) (re : Re) (hn : re.Needs P) : ∀ s r, r ∈ re.m s → ∃ t, s = t ++ r ∧ ∃ c ∈ t, P c := by
  induction re with
  | set p =>
    intro s r h
    cases s with
    | nil => simp [Re.m] at h
    | cons c s =>
      simp only [Re.m] at h
      split at h
      next hp => simp at h; subst h; exact ⟨[c], rfl, c, by simp, hn c hp⟩
      · simp at h
  | seq a b iha ihb =>
    intro s r h
    simp only [Re.m, List.mem_flatMap] at h
    obtain ⟨u, hu, hr⟩ := h
    rcases hn with hn | hn
    · obtain ⟨t, ht, c, hc, hP⟩ := iha hn s u hu
      obtain ⟨t', ht', _⟩ := m_chars b u r hr
      exact ⟨t ++ t', by rw [ht, ht', List.append_assoc], c, by simp [hc], hP⟩
    · obtain ⟨t, ht, _⟩ := m_chars a s u hu
      obtain ⟨t', ht', c, hc, hP⟩ := ihb hn u r hr
      exact ⟨t ++ t', by rw [ht, ht', List.append_assoc], c, by simp [hc], hP⟩
  | alt a b iha ihb =>
    intro s r h
    simp only [Re.m, List.mem_append] at h
    rcases h with h | h
    · exact iha hn.1 s r h
    · exact ihb hn.2 s r h
  | opt a ih => exact hn.elim
  | star a ih => exact hn.elim

theorem m_nil_of_needs (P : Char → Prop) (re : Re) (hn : re.Needs P) (s : Str) (h : ∀ c ∈ s, ¬ P c) : re.m s = [] := by
  cases hm : re.m s with
  | nil => rfl
  | cons r l =>
    obtain ⟨t, ht, c, hc, hP⟩ := m_needs P re hn s r (by simp [hm])
    exact absurd hP (h c (by simp [ht, hc]))

/-- What a match that takes something begins with; and whether a match may take nothing. -/
def Re.nullable : Re → Prop
  | .set _ => False
  | .seq a b => a.nullable ∧ b.nullable
  | .alt a b => a.nullable ∨ b.nullable
  | .opt _ => True
  | .star _ => True

/-- The characters a match may begin with. -/
def Re.first : Re → Char → Prop
  | .set p, c => p c = true
  | .seq a b, c => a.first c ∨ (a.nullable ∧ b.first c)
  | .alt a b, c => a.first c ∨ b.first c
  | .opt a, c => a.first c
  | .star a, c => a.first c

theorem starM_first {f : Str → List Str} {P : Char → Prop}
    (hf : ∀ s r, r ∈ f s → r = s ∨ ∃ c t, s = c :: t ∧ P c) :
    ∀ n s r, r ∈ starM f n s → r = s ∨ ∃ c t, s = c :: t ∧ P c := by
  intro n s r h
  cases n with
  | zero => simp [starM] at h; exact Or.inl h
  | succ n =>
    simp only [starM, List.mem_append, List.mem_flatMap, List.mem_filter, List.mem_singleton, decide_eq_true_eq] at h
    rcases h with ⟨u, ⟨hu, hl⟩, _⟩ | rfl
    · rcases hf s u hu with rfl | h
      · omega
      · exact Or.inr h
    · exact Or.inl rfl

theorem m_first (re : Re) : ∀ s r, r ∈ re.m s → (r = s ∧ re.nullable) ∨ ∃ c t, s = c :: t ∧ re.first c := by
  induction re with
  | set p =>
    intro s r h
    cases s with
    | nil => simp [Re.m] at h
    | cons c s =>
      simp only [Re.m] at h
      split at h
      next hp => exact Or.inr ⟨c, s, rfl, hp⟩
      · simp at h
  | seq a b iha ihb =>
    intro s r h
    simp only [Re.m, List.mem_flatMap] at h
    obtain ⟨u, hu, hr⟩ := h
    rcases iha s u hu with ⟨rfl, hn⟩ | ⟨c, t, hs, hc⟩
    · rcases ihb u r hr with ⟨rfl, hn'⟩ | ⟨c, t, hs, hc⟩
      · exact Or.inl ⟨rfl, hn, hn'⟩
      · exact Or.inr ⟨c, t, hs, Or.inr ⟨hn, hc⟩⟩
    · exact Or.inr ⟨c, t, hs, Or.inl hc⟩
  | alt a b iha ihb =>
    intro s r h
    simp only [Re.m, List.mem_append] at h
    rcases h with h | h
    · rcases iha s r h with ⟨rfl, hn⟩ | ⟨c, t, hs, hc⟩
      · exact Or.inl ⟨rfl, Or.inl hn⟩
      · exact Or.inr ⟨c, t, hs, Or.inl hc⟩
    · rcases ihb s r h with ⟨rfl, hn⟩ | ⟨c, t, hs, hc⟩
      · exact Or.inl ⟨rfl, Or.inr hn⟩
      · exact Or.inr ⟨c, t, hs, Or.inr hc⟩
  | opt a ih =>
    intro s r h
    simp only [Re.m, List.mem_append, List.mem_singleton] at h
    rcases h with h | rfl
    · rcases ih s r h with ⟨rfl, _⟩ | ⟨c, t, hs, hc⟩
      · exact Or.inl ⟨rfl, trivial⟩
      · exact Or.inr ⟨c, t, hs, hc⟩
    · exact Or.inl ⟨rfl, trivial⟩
  | star a ih =>
    intro s r h
    rcases starM_first (P := a.first) (fun s r h => (ih s r h).imp (·.1) id) _ s r h with rfl | h
    · exact Or.inl ⟨rfl, trivial⟩
    · exact Or.inr h

/-! ### The expressions for numbers -/

/-- The characters of numbers. -/
def NumChar (c : Char) : Prop := c ∈ c!"0123456789abcdefABCDEFxXoOjJ_.+-() \t"

theorem isDigit_mem {c : Char} (h : isDigit c = true) : c ∈ c!"0123456789" := by
  have h1 : c.toNat ∈ [48, 49, 50, 51, 52, 53, 54, 55, 56, 57] := by
    simp only [isDigit, Bool.and_eq_true, decide_eq_true_eq] at h
    simp; omega
  have : c = Char.ofNat c.toNat := by simp
  rw [this]
  generalize c.toNat = n at h1
  simp only [List.mem_cons, List.not_mem_nil, or_false] at h1
  rcases h1 with rfl | rfl | rfl | rfl | rfl | rfl | rfl | rfl | rfl | rfl <;> decide

theorem isDigit_num {c : Char} (h : isDigit c = true) : NumChar c := by
  have := isDigit_mem h
  unfold NumChar
  simp only [List.mem_cons] at this ⊢
  grind

theorem one_num (k : Char) (hk : NumChar k) {c : Char} (h : (one k).chars c) : NumChar c := by
  simp only [one, Re.chars, beq_iff_eq] at h; subst h; exact hk

theorem oneOf_num (ks : Str) (hk : ∀ k ∈ ks, NumChar k) {c : Char} (h : (oneOf ks).chars c) : NumChar c := by
  simp only [oneOf, Re.chars, List.contains_iff_mem] at h; exact hk c h

theorem number_chars {c : Char} (h : number.chars c) : NumChar c := by
  simp only [number, imagnumber, floatnumber, pointfloat, exponent, intnumber, hexnumber, binnumber, octnumber, decnumber,
    digitsRe, d, one, oneOf, Re.chars, beq_iff_eq, List.contains_iff_mem] at h
  unfold NumChar
  have hd : isDigit c = true → c ∈ c!"0123456789abcdefABCDEFxXoOjJ_.+-() \t" := isDigit_num
  simp only [List.mem_cons, List.not_mem_nil, or_false] at h hd ⊢
  grind

theorem complex_chars {c : Char} (h : complexNumber.chars c) : NumChar c := by
  simp only [complexNumber, Re.chars] at h
  rcases h with h | h | h | h | h | h | h
  · exact one_num '(' (by unfold NumChar; decide) h
  · exact number_chars h
  · exact oneOf_num c!" \t" (by unfold NumChar; decide) h
  · exact one_num '+' (by unfold NumChar; decide) h
  · exact oneOf_num c!" \t" (by unfold NumChar; decide) h
  · exact number_chars h
  · exact one_num ')' (by unfold NumChar; decide) h

theorem number_needs : number.Needs fun c => isDigit c = true := by
  have h0 : isDigit '0' = true := by decide
  have h9 : ∀ c, c ∈ c!"123456789" → isDigit c = true := by decide
  simp only [number, imagnumber, floatnumber, pointfloat, exponent, intnumber, hexnumber, binnumber, octnumber, decnumber,
    digitsRe, d, one, oneOf, Re.Needs, beq_iff_eq, List.contains_iff_mem]
  simp [h0]
  exact by simpa using h9

theorem number_first {c : Char} (h : number.first c) : isDigit c = true ∨ c = '.' := by
  have h0 : isDigit '0' = true := by decide
  have h9 : ∀ c, c ∈ c!"123456789" → isDigit c = true := by decide
  simp only [number, imagnumber, floatnumber, pointfloat, exponent, intnumber, hexnumber, binnumber, octnumber, decnumber,
    digitsRe, d, one, oneOf, Re.first, Re.nullable, beq_iff_eq, List.contains_iff_mem, false_and, or_false] at h
  have h9' := h9 c
  have h0' : c = '0' → isDigit c = true := fun e => e ▸ h0
  grind

theorem number_not_nullable : ¬ number.nullable := by
  simp [number, imagnumber, floatnumber, pointfloat, exponent, intnumber, hexnumber, binnumber, octnumber, decnumber,
    digitsRe, d, one, oneOf, Re.nullable]

theorem complex_first {c : Char} (h : complexNumber.first c) : isDigit c = true ∨ c = '.' ∨ c = '(' := by
  have hn := number_not_nullable
  simp only [complexNumber, Re.first] at h
  rcases h with h | ⟨_, h | ⟨h, _⟩⟩
  · simp [one, Re.first] at h; exact Or.inr (Or.inr h)
  · exact (number_first h).imp id Or.inl
  · exact absurd h hn

theorem complex_not_nullable : ¬ complexNumber.nullable := by
  intro h
  simp only [complexNumber, Re.nullable] at h
  exact number_not_nullable h.2.1

/-- What `isNumeral` accepts. -/
theorem isNumeral_match {s : Str} (h : isNumeral s = true) : [] ∈ complexNumber.m s ∨ [] ∈ number.m s := by
  unfold isNumeral at h
  cases hc : (complexNumber.m s).head? with
  | some r =>
    rw [hc] at h
    have : r = [] := by simpa using h
    exact Or.inl (this ▸ List.mem_of_head? hc)
  | none =>
    rw [hc] at h
    cases hn : (number.m s).head? with
    | some r =>
      rw [hn] at h
      have : r = [] := by simpa using h
      exact Or.inr (this ▸ List.mem_of_head? hn)
    | none => rw [hn] at h; simp at h

theorem isNumeral_chars {s : Str} (h : isNumeral s = true) : (∃ c ∈ s, isDigit c = true) ∧ ∀ c ∈ s, NumChar c := by
  rcases isNumeral_match h with h | h
  · have hn : complexNumber.Needs fun c => isDigit c = true := Or.inr (Or.inl number_needs)
    obtain ⟨t, ht, hc⟩ := m_needs _ _ hn _ _ h
    obtain ⟨t', ht', hP⟩ := m_chars _ _ _ h
    simp at ht ht'
    exact ⟨ht ▸ hc, fun c hc => complex_chars (hP c (ht' ▸ hc))⟩
  · obtain ⟨t, ht, hc⟩ := m_needs _ _ number_needs _ _ h
    obtain ⟨t', ht', hP⟩ := m_chars _ _ _ h
    simp at ht ht'
    exact ⟨ht ▸ hc, fun c hc => number_chars (hP c (ht' ▸ hc))⟩

theorem isNumeral_first {s : Str} (h : isNumeral s = true) : ∃ c t, s = c :: t ∧ (isDigit c = true ∨ c = '.' ∨ c = '(') := by
  rcases isNumeral_match h with h | h
  · rcases m_first _ _ _ h with ⟨_, hn⟩ | ⟨c, t, hs, hc⟩
    · exact absurd hn complex_not_nullable
    · exact ⟨c, t, hs, complex_first hc⟩
  · rcases m_first _ _ _ h with ⟨_, hn⟩ | ⟨c, t, hs, hc⟩
    · exact absurd hn number_not_nullable
    · exact ⟨c, t, hs, (number_first hc).imp id Or.inl⟩

/-! ### Values -/

theorem unsign_chars (s : Str) : (∀ c ∈ unsign s, c ∈ s) ∧ ∀ c ∈ s, c ∈ unsign s ∨ isSpace c = true ∨ c = '-' ∨ c = '+' := by
  unfold unsign
  split
  next c c' r =>
    split
    next hc =>
      refine ⟨fun x hx => List.mem_cons_of_mem _ (strip_mem hx), fun x hx => ?_⟩
      rcases List.mem_cons.1 hx with rfl | hx
      · exact Or.inr (Or.inr hc)
      · obtain ⟨a, b, h, ha, hb, _⟩ := strip_spec (c' :: r)
        rw [h] at hx
        simp only [List.mem_append] at hx
        rcases hx with (hx | hx) | hx
        · exact Or.inr (Or.inl (ha x hx))
        · exact Or.inl hx
        · exact Or.inr (Or.inl (hb x hx))
    · exact ⟨fun _ h => h, fun _ h => Or.inl h⟩
  · exact ⟨fun _ h => h, fun _ h => Or.inl h⟩

theorem stringIsNumber_true {v : Str} (h : stringIsNumber v = .ok true) : isNumeral (unsign (strip v)) = true := by
  unfold stringIsNumber at h
  split at h
  · cases h
  next t ht => rw [Except.ok.injEq] at h; exact h

theorem number_arithmetic {v : Str} (h : stringIsNumber v = .ok true) : Arithmetic v := by
  obtain ⟨⟨c, hc, hd⟩, hall⟩ := isNumeral_chars (stringIsNumber_true h)
  obtain ⟨hu1, hu2⟩ := unsign_chars (strip v)
  obtain ⟨a, b, hv, ha, hb, _⟩ := strip_spec v
  refine ⟨⟨c, strip_mem (hu1 c hc), hd⟩, fun x hx => ?_⟩
  have num : ∀ x, NumChar x → isSpace x = true ∨ x ∈ c!"0123456789abcdefABCDEFxXoOjJ_.+-()" := by
    intro x hx
    have hs : isSpace ' ' = true := by decide +kernel
    have ht : isSpace '\t' = true := by decide +kernel
    unfold NumChar at hx
    simp only [List.mem_cons, List.not_mem_nil, or_false] at hx ⊢
    grind
  rw [hv] at hx
  simp only [List.mem_append] at hx
  rcases hx with (hx | hx) | hx
  · exact Or.inl (ha x hx)
  · rcases hu2 x hx with h | h | h | h
    · exact num x (hall x h)
    · exact Or.inl h
    · exact Or.inr (by rw [h]; decide)
    · exact Or.inr (by rw [h]; decide)
  · exact Or.inl (hb x hx)

theorem word_run {ok : Str → Bool} {v e : Str} (h : word ok v = .ok (.result e) ∨ word ok v = .error (.eval e)) :
    startsWith (lower v) c!"python:" = true ∧ e = v.drop 7 := by
  unfold word at h
  by_cases hp : startsWith (lower v) c!"python:" = true
  · rw [if_pos hp] at h
    refine ⟨hp, ?_⟩
    unfold evaluate at h
    split at h <;> simp at h <;> exact h.symm
  · rw [if_neg hp] at h
    exfalso
    repeat' split at h
    all_goals simp at h

theorem startsWith_prefix {s p : Str} (h : startsWith s p = true) : p <+: s := by
  unfold startsWith at h
  cases hs : stripPrefix? p s with
  | none => rw [hs] at h; simp at h
  | some r => exact ⟨r, (stripPrefix?_some.1 hs).symm⟩

theorem prefix_startsWith {s p : Str} (h : p <+: s) : startsWith s p = true := by
  obtain ⟨r, rfl⟩ := h
  unfold startsWith
  rw [stripPrefix?_some.2 rfl]; rfl

/-! ### The theorems on values -/

/-- **C77, text is never run.** Whatever a value is: Python evaluates a part of it only if it begins with
`python:` — then what follows that — or if it is written with the characters of numbers only, and has a digit. -/
theorem C77_text_is_never_run (ok : Str → Bool) (v e : Str)
    (h : convert ok v = .ok (.result e) ∨ convert ok v = .error (.eval e)) :
    (c!"python:" <+: lower v ∧ e = v.drop 7) ∨ (e = v ∧ Arithmetic v) := by
  unfold convert at h
  cases hw : word ok v with
  | error x =>
    rw [hw] at h
    have hx : x = .eval e := by
      rcases h with h | h
      · cases h
      · exact Except.error.inj h
    obtain ⟨h1, h2⟩ := word_run (Or.inr (hx ▸ hw))
    exact Or.inl ⟨startsWith_prefix h1, h2⟩
  | ok w =>
    rw [hw] at h
    cases hn : stringIsNumber v with
    | error x =>
      have hx : x = .index := by
        unfold stringIsNumber at hn
        split at hn
        · exact (Except.error.inj hn).symm
        · cases hn
      subst hx
      rw [hn] at h
      rcases h with h | h <;> exact nomatch h
    | ok b =>
      rw [hn] at h
      cases b with
      | true =>
        right
        have he : evaluate ok v = .ok (.result e) ∨ evaluate ok v = .error (.eval e) := h
        refine ⟨?_, number_arithmetic hn⟩
        unfold evaluate at he
        split at he <;> simp at he <;> exact he.symm
      | false =>
        left
        have he : w = .result e := by
          rcases h with h | h
          · exact Except.ok.inj h
          · exact nomatch h
        obtain ⟨h1, h2⟩ := word_run (Or.inl (he ▸ hw))
        exact ⟨startsWith_prefix h1, h2⟩

theorem not_number {v : Str} {c : Char} {r : Str} (h : strip v = c :: r) (hd : isDigit c = false) (hc : c ∉ c!".(+-") :
    stringIsNumber v = .ok false := by
  unfold stringIsNumber
  rw [h]
  have hu : unsign (c :: r) = c :: r := by
    unfold unsign
    split
    next heq =>
      obtain ⟨rfl, _⟩ := List.cons.inj heq
      rw [if_neg]
      rintro (rfl | rfl) <;> exact hc (by decide)
    · rfl
  simp only [hu]
  congr 1
  refine Bool.eq_false_iff.2 fun hn => ?_
  obtain ⟨c', t, he, hc'⟩ := isNumeral_first hn
  obtain ⟨rfl, _⟩ := List.cons.inj he
  rcases hc' with h | rfl | rfl
  · rw [hd] at h; cases h
  · exact hc (by decide)
  · exact hc (by decide)

/-- **C77, text stays text.** A value that does not look like anything else is the text itself. -/
theorem C77_text_stays (ok : Str → Bool) (v : Str) (h : Plain v) : convert ok v = .ok (.text v) := by
  obtain ⟨⟨c, r, hs, hd, hc⟩, h1, h2, h3, h4⟩ := h
  have hw : word ok v = .ok (.text v) := by
    unfold word
    rw [if_neg (fun h => h4 (startsWith_prefix h)), if_neg h1, if_neg h2, if_neg h3]
  unfold convert
  rw [hw, not_number hs hd hc]
  rfl

theorem strip_first {v : Str} {c : Char} {r : Str} (hv : v = c :: r) (hc : isSpace c = false) : ∃ r', strip v = c :: r' := by
  obtain ⟨a, b, h, ha, hb, _⟩ := strip_spec v
  cases a with
  | cons x a =>
    rw [hv] at h
    have := (List.cons.inj h).1
    have hx := ha x (by simp)
    rw [← this, hc] at hx; cases hx
  | nil =>
    cases hs : strip v with
    | nil =>
      rw [hs] at h
      cases b with
      | nil => simp at h; rw [h] at hv; cases hv
      | cons x b =>
        rw [hv] at h
        have := (List.cons.inj h).1
        have hx := hb x (by simp)
        rw [← this, hc] at hx; cases hx
    | cons y ys =>
      rw [hs, hv] at h
      have := (List.cons.inj h).1
      exact ⟨ys, by rw [this]⟩

/-- **C77, the three words**, in any case. -/
theorem C77_words (ok : Str → Bool) (v : Str) :
    (lower v = c!"none" → convert ok v = .ok .none_) ∧
    (lower v = c!"true" → convert ok v = .ok (.bool true)) ∧
    (lower v = c!"false" → convert ok v = .ok (.bool false)) := by
  have key : ∀ (w : Str) (x : Char) (xs : Str), w = x :: xs → (∀ c : Char, c.toLower = x → isSpace c = false ∧ isDigit c = false ∧ c ∉ c!".(+-") →
      lower v = w → stringIsNumber v = .ok false := by
    intro w x xs hw hx hv
    rw [hw] at hv
    cases v with
    | nil => cases hv
    | cons c r =>
      obtain ⟨hc, _⟩ := List.cons.inj (show c.toLower :: lower r = x :: xs from hv)
      obtain ⟨h1, h2, h3⟩ := hx c hc
      obtain ⟨r', hr⟩ := strip_first (v := c :: r) rfl h1
      exact not_number hr h2 h3
  have letter : ∀ x : Char, 'a' ≤ x → x ≤ 'z' → x ∉ c!"." → ∀ c : Char, c.toLower = x → isSpace c = false ∧ isDigit c = false ∧ c ∉ c!".(+-" := by
    intro x h1 h2 _ c hc
    have hcr : c = x ∨ (c.toNat + 32 = x.toNat) := by
      unfold Char.toLower at hc
      split at hc
      next hu =>
        right
        rw [← hc]
        show _ = UInt32.toNat _
        have e : c.val.toNat ≤ 90 := by simpa [UInt32.le_iff_toNat_le] using hu.2
        have : (c.val + 32).toNat = c.val.toNat + 32 := by
          rw [UInt32.toNat_add]; simp only [UInt32.reduceToNat]; omega
        exact this.symm
      · exact Or.inl hc
    have hx1 : 97 ≤ x.toNat := by simpa [Char.le_def, UInt32.le_iff_toNat_le] using h1
    have hx2 : x.toNat ≤ 122 := by simpa [Char.le_def, UInt32.le_iff_toNat_le] using h2
    have hn : (65 ≤ c.toNat ∧ c.toNat ≤ 90) ∨ (97 ≤ c.toNat ∧ c.toNat ≤ 122) := by
      rcases hcr with rfl | h <;> omega
    refine ⟨?_, ?_, ?_⟩
    · simp only [isSpace, Bool.or_eq_false_iff, Bool.and_eq_false_iff, decide_eq_false_iff_not, beq_eq_false_iff_ne]
      omega
    · simp [isDigit]; omega
    · intro hm
      simp only [List.mem_cons, List.not_mem_nil, or_false] at hm
      rcases hm with rfl | rfl | rfl | rfl <;> revert hn <;> decide
  refine ⟨fun h => ?_, fun h => ?_, fun h => ?_⟩
  all_goals unfold convert word
  · have := key _ 'n' _ rfl (letter _ (by decide) (by decide) (by decide)) h
    rw [this, h]
    rfl
  · have := key _ 't' _ rfl (letter _ (by decide) (by decide) (by decide)) h
    rw [this, h]
    rfl
  · have := key _ 'f' _ rfl (letter _ (by decide) (by decide) (by decide)) h
    rw [this, h]
    rfl

/-! ### Integers -/

theorem star_digits (s : Str) (hs : ∀ c ∈ s, isDigit c = true) (n : Nat) (hn : s.length ≤ n) :
    (starM (Re.seq (.opt (one '_')) d).m n s).head? = some [] := by
  induction s generalizing n with
  | nil =>
    cases n with
    | zero => rfl
    | succ n => simp [starM, Re.m, one, d]
  | cons c s ih =>
    cases n with
    | zero => simp at hn
    | succ n =>
      have hc := hs c (by simp)
      have hu : (c == '_') = false := by
        cases h : c == '_' with
        | false => rfl
        | true => rw [eq_of_beq h] at hc; exact absurd hc (by decide)
      have hm : (Re.seq (.opt (one '_')) d).m (c :: s) = [s] := by
        simp [Re.m, one, d, hu, hc]
      have := ih (fun x hx => hs x (by simp [hx])) n (by simpa using hn)
      rw [starM, hm]
      simp only [List.filter_cons, List.length_cons, List.filter_nil]
      rw [if_pos (by simp)]
      simp only [List.flatMap_cons, List.flatMap_nil, List.append_nil]
      rw [List.head?_append, this]; rfl

theorem decimal_head (n : Nat) (h : 0 < n) : ∃ c r, decimal n = c :: r ∧ c ∈ c!"123456789" := by
  induction n using Nat.strongRecOn with
  | ind n ih =>
    rw [decimal_eq]
    split
    next hn =>
      refine ⟨digit n, [], rfl, ?_⟩
      have : n ∈ [1, 2, 3, 4, 5, 6, 7, 8, 9] := by simp; omega
      simp only [List.mem_cons, List.not_mem_nil, or_false] at this
      rcases this with rfl | rfl | rfl | rfl | rfl | rfl | rfl | rfl | rfl <;> decide
    next hn =>
      obtain ⟨c, r, h1, h2⟩ := ih (n / 10) (by omega) (by omega)
      exact ⟨c, r ++ [digit (n % 10)], by rw [h1]; rfl, h2⟩

theorem number_decimal (n : Nat) : isNumeral (decimal n) = true := by
  have hd := decimal_digits n
  by_cases h0 : n = 0
  · subst h0; decide +kernel
  · obtain ⟨c, r, hc, h9⟩ := decimal_head n (by omega)
    generalize decimal n = s at hd hc
    have hno : ∀ c ∈ s, ¬ (isDigit c = false) := fun c hc => by rw [hd c hc]; simp
    have nil : ∀ re : Re, re.Needs (fun c => isDigit c = false) → re.m s = [] := fun re h => m_nil_of_needs _ re h s hno
    have hof : ∀ cs : Str, (∀ c ∈ cs, isDigit c = false) → (oneOf cs).Needs fun c => isDigit c = false := by
      intro cs h c hc
      exact h c (by simpa using hc)
    have hone : ∀ k : Char, isDigit k = false → (one k).Needs fun c => isDigit c = false := by
      intro k h c hc
      rw [eq_of_beq hc]; exact h
    have e1 : complexNumber.m s = [] := nil _ (Or.inr (Or.inr (Or.inr (Or.inl (hone _ (by decide))))))
    have e2 : imagnumber.m s = [] := nil _ ⟨Or.inr (hof _ (by decide)), Or.inr (hof _ (by decide))⟩
    have e3 : floatnumber.m s = [] := nil _ ⟨Or.inl ⟨Or.inr (Or.inl (hone _ (by decide))), Or.inl (hone _ (by decide))⟩,
      Or.inr (Or.inl (hof _ (by decide)))⟩
    have e4 : hexnumber.m s = [] := nil _ (Or.inr (Or.inl (hof _ (by decide))))
    have e5 : binnumber.m s = [] := nil _ (Or.inr (Or.inl (hof _ (by decide))))
    have e6 : octnumber.m s = [] := nil _ (Or.inr (Or.inl (hof _ (by decide))))
    have e7 : number.m s = decnumber.m s := by
      simp only [number, intnumber, Re.m, e2, e3, e4, e5, e6, List.nil_append]
    have hz : (c == '0') = false := by
      cases h : c == '0' with
      | false => rfl
      | true => rw [eq_of_beq h] at h9; exact absurd h9 (by decide)
    have e8 : (decnumber.m s).head? = some [] := by
      subst hc
      have h9' : c!"123456789".contains c = true := by simpa using h9
      have hd' : decnumber.m (c :: r) = starM (Re.seq (.opt (one '_')) d).m r.length r := by
        have a1 : (one '0').m (c :: r) = [] := by simp [one, Re.m, hz]
        have a2 : (oneOf c!"123456789").m (c :: r) = [r] := by
          show (if c!"123456789".contains c then [r] else []) = [r]
          rw [h9']; rfl
        show ((one '0').m (c :: r)).flatMap _ ++ ((oneOf c!"123456789").m (c :: r)).flatMap _ = _
        rw [a1, a2]
        simp [Re.m]
      rw [hd']
      exact star_digits r (fun x hx => hd x (by simp [hx])) _ (Nat.le_refl _)
    unfold isNumeral
    rw [e1, e7, e8]
    rfl

theorem lower_digit {c : Char} (h : isDigit c = true) : c.toLower = c := by
  have := isDigit_mem h
  simp only [List.mem_cons, List.not_mem_nil, or_false] at this
  rcases this with rfl | rfl | rfl | rfl | rfl | rfl | rfl | rfl | rfl | rfl <;> decide

/-- **C77, integers** become what Python makes of them, with and without a sign. -/
theorem C77_integers (ok : Str → Bool) (n : Nat) (sign v : Str) (hs : sign = [] ∨ sign = c!"-" ∨ sign = c!"+")
    (hv : v = sign ++ decimal n) : convert ok v = if ok v then .ok (.result v) else .error (.eval v) := by
  have hd := decimal_digits n
  obtain ⟨c, r, hcr⟩ : ∃ c r, decimal n = c :: r := by
    cases h : decimal n with
    | nil => exact absurd h (decimal_ne_nil n)
    | cons c r => exact ⟨c, r, rfl⟩
  have hc : isDigit c = true := hd c (by simp [hcr])
  have hsolid : ∀ x ∈ v, isSpace x = false := by
    intro x hx
    rw [hv] at hx
    rcases List.mem_append.1 hx with h | h
    · have h1 : isSpace '-' = false := by decide +kernel
      have h2 : isSpace '+' = false := by decide +kernel
      rcases hs with rfl | rfl | rfl <;> simp at h <;> subst h <;> assumption
    · exact digit_notspace (hd x h)
  have hst : strip v = v := strip_solid hsolid
  have hun : unsign v = decimal n := by
    have hdd : strip (decimal n) = decimal n := strip_solid fun x hx => digit_notspace (hd x hx)
    rcases hs with rfl | rfl | rfl
    · rw [hv, List.nil_append, hcr]
      unfold unsign
      split
      next heq =>
        obtain ⟨rfl, _⟩ := List.cons.inj heq
        rw [if_neg]
        rintro (h | h) <;> rw [h] at hc <;> exact absurd hc (by decide)
      · rfl
    · rw [hv, hcr]
      show (if '-' = '-' ∨ '-' = '+' then strip (c :: r) else '-' :: c :: r) = _
      rw [if_pos (Or.inl rfl), ← hcr, hdd]
    · rw [hv, hcr]
      show (if '+' = '-' ∨ '+' = '+' then strip (c :: r) else '+' :: c :: r) = _
      rw [if_pos (Or.inr rfl), ← hcr, hdd]
  have hn : stringIsNumber v = .ok true := by
    unfold stringIsNumber
    rw [hst]
    split
    next => exact absurd (congrArg List.length hv) (by simp [hcr])
    next => rw [hun, number_decimal]
  have hl : ∀ w : Str, (∀ x ∈ w.head?, 'a' ≤ x) → w ≠ [] → ¬ w <+: lower v := by
    rintro w hw hne ⟨t, ht⟩
    cases w with
    | nil => exact hne rfl
    | cons x w =>
      have hx := hw x (by simp)
      rw [hv, hcr] at ht
      have ha : ¬ 'a' ≤ c := by
        have := isDigit_mem hc
        simp only [List.mem_cons, List.not_mem_nil, or_false] at this
        rcases this with rfl | rfl | rfl | rfl | rfl | rfl | rfl | rfl | rfl | rfl <;> decide
      rcases hs with rfl | rfl | rfl
      · have := (List.cons.inj (show x :: (w ++ t) = c.toLower :: _ from ht)).1
        rw [lower_digit hc] at this
        exact ha (this ▸ hx)
      · have := (List.cons.inj (show x :: (w ++ t) = '-' :: _ from ht)).1
        rw [this] at hx; exact absurd hx (by decide)
      · have := (List.cons.inj (show x :: (w ++ t) = '+' :: _ from ht)).1
        rw [this] at hx; exact absurd hx (by decide)
  have hw : word ok v = .ok (.text v) := by
    unfold word
    rw [if_neg (fun h => hl _ (by simp) (by simp) (startsWith_prefix h)),
      if_neg (fun h => hl c!"none" (by simp) (by simp) ⟨[], by simp [h]⟩),
      if_neg (fun h => hl c!"true" (by simp) (by simp) ⟨[], by simp [h]⟩),
      if_neg (fun h => hl c!"false" (by simp) (by simp) ⟨[], by simp [h]⟩)]
  unfold convert
  rw [hw, hn]
  rfl

/-! ### Sections -/

/-- The options of a section, converted one by one. -/
inductive Converted (ok : Str → Bool) : List (Str × Str) → Dict Str Value → Prop
  | nil : Converted ok [] []
  | cons {k v : Str} {w : Value} {opts : List (Str × Str)} {vs : Dict Str Value} (h : convert ok v = .ok w)
      (t : Converted ok opts vs) : Converted ok ((k, v) :: opts) ((k, w) :: vs)

theorem readOptions_ok {ok : Str → Bool} {opts : List (Str × Str)} {vs : Dict Str Value} (h : readOptions ok true opts = .ok vs) :
    Converted ok opts vs := by
  induction opts generalizing vs with
  | nil => cases h; exact .nil
  | cons o opts ih =>
    obtain ⟨k, v⟩ := o
    rw [readOptions] at h
    cases hc : convert ok v with
    | error e => rw [hc] at h; exact nomatch h
    | ok w =>
      rw [hc] at h
      replace h : (if lower k = c!"importsettings" then (.error .attribute : Except Err (Dict Str Value)) else do
        let vs ← readOptions ok true opts
        pure ((k, w) :: vs)) = .ok vs := h
      by_cases hk : lower k = c!"importsettings"
      · rw [if_pos hk] at h; exact nomatch h
      · rw [if_neg hk] at h
        cases hr : readOptions ok true opts with
        | error e => rw [hr] at h; exact nomatch h
        | ok ws =>
          rw [hr] at h
          have : (k, w) :: ws = vs := Except.ok.inj h
          subst this
          exact .cons hc (ih hr)

theorem converted_keys {ok : Str → Bool} {opts : List (Str × Str)} {vs : Dict Str Value} (h : Converted ok opts vs) :
    vs.keys = opts.map (·.1) := by
  induction h with
  | nil => rfl
  | cons h _ ih => simp only [Dict.keys, List.map_cons] at ih ⊢; rw [ih]

theorem converted_get {ok : Str → Bool} {opts : List (Str × Str)} {vs : Dict Str Value} (h : Converted ok opts vs)
    (hn : (opts.map (·.1)).Nodup) {k v : Str} (hm : (k, v) ∈ opts) : ∃ w, convert ok v = .ok w ∧ vs.get k = some w := by
  have : ∃ w, convert ok v = .ok w ∧ (k, w) ∈ vs := by
    clear hn
    induction h with
    | nil => simp at hm
    | cons h _ ih =>
      rcases List.mem_cons.1 hm with hm | hm
      · obtain ⟨rfl, rfl⟩ := Prod.mk.inj hm
        exact ⟨_, h, by simp⟩
      · obtain ⟨w, h1, h2⟩ := ih hm
        exact ⟨w, h1, by simp [h2]⟩
  obtain ⟨w, h1, h2⟩ := this
  exact ⟨w, h1, Dict.get_of_mem_nodup vs (by rw [converted_keys h]; exact hn) h2⟩

theorem addAll_get (vs : Dict Str Value) (hn : vs.keys.Nodup) (s : Dict Str Setting) (k : Str) :
    (addAll s vs).get k = match vs.get k with | some v => some (.value v) | none => s.get k := by
  induction vs generalizing s with
  | nil => rfl
  | cons x vs ih =>
    obtain ⟨k', v⟩ := x
    simp only [Dict.keys, List.map_cons, List.nodup_cons] at hn
    rw [addAll, ih hn.2]
    rw [Dict.get]
    by_cases hk : k = k'
    · subst hk
      have : Dict.get vs k = none := (Dict.get_eq_none _ _).2 hn.1
      simp [this, Dict.get_set_self]
    · cases hg : Dict.get vs k with
      | some w => simp [hk]
      | none => simp [hk, Dict.get_set_ne _ _ hk]

theorem addAll_nodup (vs : Dict Str Value) (s : Dict Str Setting) (h : s.keys.Nodup) : (addAll s vs).keys.Nodup := by
  induction vs generalizing s with
  | nil => exact h
  | cons x vs ih => exact ih _ (Dict.nodup_set s _ _ h)

/-- The value of a section, if it has not been replaced. -/
def filled (s : Option Setting) (vs : Dict Str Value) : Option Setting :=
  match s with
  | some (.section_ _) => some (.section_ vs)
  | x => x

theorem storeSection_other {s : Dict Str Setting} {n : Str} {vs : Dict Str Value} (hn : lower n ≠ c!"globals") (hs : s.keys.Nodup) :
    ∃ s', storeSection s n vs = .ok s' ∧ s'.keys.Nodup ∧ ∀ k, s'.get k = if k = n then filled (s.get k) vs else s.get k := by
  unfold storeSection
  cases hg : s.get n with
  | none =>
    simp only [if_neg hn]
    refine ⟨s, rfl, hs, fun k => ?_⟩
    split
    next hk => rw [hk, hg]; rfl
    · rfl
  | some x =>
    cases x with
    | value v =>
      simp only [if_neg hn]
      refine ⟨s, rfl, hs, fun k => ?_⟩
      split
      next hk => rw [hk, hg]; rfl
      · rfl
    | section_ o =>
      simp only [if_neg hn]
      refine ⟨_, rfl, Dict.nodup_set _ _ _ hs, fun k => ?_⟩
      rw [Dict.get_set]
      split
      next hk => rw [hk, hg]; rfl
      · rfl

theorem readSections_other (ok : Str → Bool) (L : List (Str × List (Str × Str))) (hL : ∀ x ∈ L, lower x.1 ≠ c!"globals")
    (hn : (L.map (·.1)).Nodup) (s r : Dict Str Setting) (hs : s.keys.Nodup) (rest : List (Str × List (Str × Str)))
    (h : readSections ok true s (L ++ rest) = .ok r) :
    ∃ s', readSections ok true s' rest = .ok r ∧ s'.keys.Nodup ∧
      (∀ k, k ∉ L.map (·.1) → s'.get k = s.get k) ∧
      ∀ x ∈ L, ∃ vs, Converted ok x.2 vs ∧ s'.get x.1 = filled (s.get x.1) vs := by
  induction L generalizing s with
  | nil => exact ⟨s, h, hs, fun _ _ => rfl, by simp⟩
  | cons x L ih =>
    obtain ⟨n, o⟩ := x
    simp only [List.map_cons, List.nodup_cons] at hn
    rw [List.cons_append, readSections] at h
    cases ho : readOptions ok true o with
    | error e => rw [ho] at h; exact nomatch h
    | ok vs =>
      rw [ho] at h
      obtain ⟨s1, h1, h2, h3⟩ := storeSection_other (s := s) (vs := vs) (hL (n, o) (by simp)) hs
      have h' : readSections ok true s1 (L ++ rest) = .ok r := by
        have : (do let s ← storeSection s n vs; readSections ok true s (L ++ rest)) = .ok r := h
        rw [h1] at this; exact this
      obtain ⟨s', a, b, c, e⟩ := ih (fun x hx => hL x (by simp [hx])) hn.2 s1 h2 h'
      refine ⟨s', a, b, fun k hk => ?_, fun x hx => ?_⟩
      · simp only [List.map_cons, List.mem_cons, not_or] at hk
        rw [c k hk.2, h3, if_neg hk.1]
      · rcases List.mem_cons.1 hx with rfl | hx
        · refine ⟨vs, readOptions_ok ho, ?_⟩
          rw [c n hn.1, h3, if_pos rfl]
        · obtain ⟨ws, w1, w2⟩ := e x hx
          refine ⟨ws, w1, ?_⟩
          have hne : x.1 ≠ n := fun he => hn.1 (he ▸ List.mem_map_of_mem hx)
          rw [w2, h3, if_neg hne]

/-- **C77, reading.** A configuration with one globals section `G`, in any case, among other sections: the options
of `G` become settings with their values, the other sections become tables, and there is nothing else.
(An option with the name of a section wins. An option with the name `G` itself is lost.) -/
theorem C77_config_is_read (ok : Str → Bool) (pre post : List (Str × List (Str × Str))) (G : Str) (opts : List (Str × Str))
    (r : Dict Str Setting) (hG : lower G = c!"globals") (ho : ∀ x ∈ pre ++ post, lower x.1 ≠ c!"globals")
    (hn : ((pre ++ (G, opts) :: post).map (·.1)).Nodup) (hk : (opts.map (·.1)).Nodup)
    (h : readConfig ok true (pre ++ (G, opts) :: post) = .ok r) :
    (∀ k v, (k, v) ∈ opts → k ≠ G → ∃ w, convert ok v = .ok w ∧ r.get k = some (.value w)) ∧
    (∀ x ∈ pre ++ post, x.1 ∉ opts.map (·.1) → ∃ vs, Converted ok x.2 vs ∧ r.get x.1 = some (.section_ vs)) ∧
    (∀ k, k ∉ opts.map (·.1) → k ∉ (pre ++ post).map (·.1) → r.get k = none) ∧ r.get G = none ∧ r.keys.Nodup := by
  unfold readConfig at h
  have hs0 : Dict.keys ((pre ++ (G, opts) :: post).map fun s => (s.1, Setting.section_ [])) |>.Nodup := by
    simpa [Dict.keys, Function.comp_def] using hn
  have g0 : ∀ k, Dict.get ((pre ++ (G, opts) :: post).map fun s => (s.1, Setting.section_ [])) k =
      if k ∈ (pre ++ (G, opts) :: post).map (·.1) then some (.section_ []) else none := by
    intro k
    generalize pre ++ (G, opts) :: post = l
    clear h hs0 hn
    induction l with
    | nil => rfl
    | cons x l ih =>
      simp only [List.map_cons, Dict.get, List.mem_cons]
      by_cases hkx : k = x.1
      · simp [hkx]
      · rw [if_neg hkx, ih]; simp only [hkx, false_or]
  generalize (((pre ++ (G, opts) :: post).map fun s => (s.1, Setting.section_ [])) : Dict Str Setting) = s0 at h hs0 g0
  have hn' := hn
  rw [List.map_append, List.map_cons, List.nodup_append] at hn'
  obtain ⟨hnpre, hnGpost, hdis⟩ := hn'
  rw [List.nodup_cons] at hnGpost
  have hGpre : G ∉ pre.map (·.1) := fun hm => hdis G hm G (by simp) rfl
  obtain ⟨s1, h1, hs1, k1, x1⟩ := readSections_other ok pre (fun x hx => ho x (by simp [hx])) hnpre s0 r hs0 _ h
  rw [readSections] at h1
  cases hro : readOptions ok true opts with
  | error e => rw [hro] at h1; exact nomatch h1
  | ok vs =>
    rw [hro] at h1
    have hc := readOptions_ok hro
    have hvk : vs.keys = opts.map (·.1) := converted_keys hc
    have hvn : vs.keys.Nodup := by rw [hvk]; exact hk
    have hGs : s1.get G = some (.section_ []) := by rw [k1 G hGpre, g0, if_pos (by simp)]
    have hst : storeSection s1 G vs = .ok ((addAll (s1.set G (.section_ vs)) vs).del G) := by
      unfold storeSection
      rw [hGs]; simp only [if_pos hG]
    have h2 : readSections ok true ((addAll (s1.set G (.section_ vs)) vs).del G) (post ++ []) = .ok r := by
      have : (do let s ← storeSection s1 G vs; readSections ok true s post) = .ok r := h1
      rw [hst] at this; rw [List.append_nil]; exact this
    have hs2a : (addAll (s1.set G (.section_ vs)) vs).keys.Nodup := addAll_nodup _ _ (Dict.nodup_set _ _ _ hs1)
    have g2 : ∀ k, ((addAll (s1.set G (.section_ vs)) vs).del G).get k = if k = G then none else
        match vs.get k with | some v => some (.value v) | none => s1.get k := by
      intro k
      by_cases hkG : k = G
      · rw [if_pos hkG, hkG, Dict.get_del _ hs2a, if_pos rfl]
      · rw [if_neg hkG, Dict.get_del_ne _ hkG, addAll_get _ hvn, Dict.get_set_ne _ _ hkG]
    obtain ⟨s3, h3, hs3, k3, x3⟩ := readSections_other ok post (fun x hx => ho x (by simp [hx])) hnGpost.2 _ r (Dict.nodup_del _ _ hs2a) [] h2
    have h3' : s3 = r := Except.ok.inj h3
    subst h3'
    have hpp : ∀ x ∈ pre, x.1 ∉ post.map (·.1) := fun x hx hm => hdis x.1 (List.mem_map_of_mem hx) x.1 (by simp [hm]) rfl
    refine ⟨fun k v hm hkG => ?_, fun x hx hxo => ?_, fun k hko hks => ?_, ?_, hs3⟩
    · obtain ⟨w, hw1, hw2⟩ := converted_get hc hk hm
      refine ⟨w, hw1, ?_⟩
      have g : ((addAll (s1.set G (.section_ vs)) vs).del G).get k = some (.value w) := by
        rw [g2, if_neg hkG, hw2]
      by_cases hp : k ∈ post.map (·.1)
      · obtain ⟨x, hx, hxk⟩ := List.mem_map.1 hp
        obtain ⟨us, _, hu⟩ := x3 x hx
        rw [hxk, g] at hu
        exact hu
      · rw [k3 k hp, g]
    · have hv : vs.get x.1 = none := (Dict.get_eq_none _ _).2 (by rw [hvk]; exact hxo)
      have hxG : x.1 ≠ G := by
        intro he
        exact ho x hx (he ▸ hG)
      rcases List.mem_append.1 hx with hx | hx
      · obtain ⟨us, hu1, hu2⟩ := x1 x hx
        refine ⟨us, hu1, ?_⟩
        rw [k3 x.1 (hpp x hx), g2, if_neg hxG, hv]
        simp only
        rw [hu2, g0, if_pos (by simp only [List.map_append, List.mem_append]; exact Or.inl (List.mem_map_of_mem hx))]
        rfl
      · obtain ⟨us, hu1, hu2⟩ := x3 x hx
        refine ⟨us, hu1, ?_⟩
        have hxpre : x.1 ∉ pre.map (·.1) := fun hm => hdis x.1 hm x.1 (by simp only [List.mem_cons]; exact Or.inr (List.mem_map_of_mem hx)) rfl
        rw [hu2, g2, if_neg hxG, hv]
        simp only
        rw [k1 _ hxpre, g0, if_pos (by simp only [List.map_append, List.mem_append, List.map_cons, List.mem_cons]; exact Or.inr (Or.inr (List.mem_map_of_mem hx)))]
        rfl
    · simp only [List.map_append, List.mem_append, not_or] at hks
      have hv : vs.get k = none := (Dict.get_eq_none _ _).2 (by rw [hvk]; exact hko)
      rw [k3 k hks.2, g2]
      by_cases hkG : k = G
      · rw [if_pos hkG]
      · rw [if_neg hkG, hv]
        simp only
        rw [k1 k hks.1, g0, if_neg]
        simp only [List.map_append, List.mem_append, List.map_cons, List.mem_cons, not_or]
        exact ⟨hks.1, hkG, hks.2⟩
    · rw [k3 G hnGpost.1, g2, if_pos rfl]

/-! ### The settings afterwards -/

theorem ofOptions_get (o : Dict Str Value) (k : Str) : (ofOptions o).get k = (o.get k).map fun v => .leaf v.atom := by
  induction o with
  | nil => rfl
  | cons x o ih =>
    simp only [ofOptions, Ents.get, Dict.get]
    split <;> simp_all

theorem ofOptions_WF (o : Dict Str Value) (h : o.keys.Nodup) : (ofOptions o).WF := by
  induction o with
  | nil => simp [ofOptions, Ents.WF]
  | cons x o ih =>
    simp only [Dict.keys, List.map_cons, List.nodup_cons] at h
    simp only [ofOptions, Ents.WF, Settings.Val.WF, true_and]
    refine ⟨?_, ih h.2⟩
    rw [ofOptions_get, (Dict.get_eq_none o x.1).2 h.1]; rfl

/-- A setting read, as a value of the settings. -/
def Setting.val : Setting → Settings.Val
  | .value v => .leaf v.atom
  | .section_ o => .dict (ofOptions o)

theorem ofConfig_get (c : Dict Str Setting) (k : Str) : (ofConfig c).get k = (c.get k).map Setting.val := by
  induction c with
  | nil => rfl
  | cons x c ih =>
    obtain ⟨k', v⟩ := x
    cases v <;> simp only [ofConfig, Ents.get, Dict.get] <;> split <;> simp_all [Setting.val]

theorem ofConfig_WF (c : Dict Str Setting) (h : c.keys.Nodup) (ho : ∀ k o, c.get k = some (.section_ o) → o.keys.Nodup) : (ofConfig c).WF := by
  induction c with
  | nil => simp [ofConfig, Ents.WF]
  | cons x c ih =>
    obtain ⟨k, v⟩ := x
    simp only [Dict.keys, List.map_cons, List.nodup_cons] at h
    have hne : ∀ k', (∃ o, Dict.get c k' = some (.section_ o)) → k' ≠ k := by
      rintro k' ⟨o, hg⟩ rfl
      exact h.1 ((Dict.get_isSome c k').1 (by rw [hg]; rfl))
    have hr := ih h.2 (fun k' o hg => ho k' o (by rw [Dict.get, if_neg (hne k' ⟨o, hg⟩)]; exact hg))
    have hk : (ofConfig c).get k = none := by rw [ofConfig_get, (Dict.get_eq_none c k).2 h.1]; rfl
    cases v with
    | value v => exact ⟨hk, trivial, hr⟩
    | section_ o => exact ⟨hk, ofOptions_WF o (ho k o (by simp [Dict.get])), hr⟩

/-- **C77, settings in text.** After `#compiler-settings` with some options, and perhaps further
sections: if nothing was raised, every option (not called `globals`) is a setting with its value, and every
setting that is neither an option nor a section there is as before. If something was raised, all settings are as before. -/
theorem C77_settings_in_text_partial (ok truth : Str → Bool) (opts : List (Str × Str)) (more : List (Str × List (Str × Str))) (s : Ents)
    (hG : ∀ x ∈ more, lower x.1 ≠ c!"globals") (hn : (more.map (·.1)).Nodup) (hk : (opts.map (·.1)).Nodup)
    (hmk : ∀ x ∈ more, (x.2.map (·.1)).Nodup) :
    match updateFromStr ok truth opts more s with
    | (s', none) =>
      (∀ k v, (k, v) ∈ opts → k ≠ c!"globals" → ∃ w, convert ok v = .ok w ∧ s'.get k = some (.leaf w.atom)) ∧
      ∀ k, k ∉ opts.map (·.1) → k ∉ more.map (·.1) → s'.get k = s.get k
    | (s', some _) => s' = s := by
  unfold updateFromStr updateFromConfig
  cases hr : readConfig ok true ((c!"globals", opts) :: more) with
  | error e => rfl
  | ok r =>
    simp only
    have hnG : ((([] : List (Str × List (Str × Str))) ++ (c!"globals", opts) :: more).map (·.1)).Nodup := by
      rw [List.nil_append, List.map_cons, List.nodup_cons]
      refine ⟨fun hm => ?_, hn⟩
      obtain ⟨x, hx, he⟩ := List.mem_map.1 hm
      exact hG x hx (by rw [he]; show lower c!"globals" = _; decide)
    obtain ⟨h1, h2, h3, hGn, h4⟩ := C77_config_is_read ok [] more c!"globals" opts r (by decide) (by simpa using hG) hnG hk hr
    have hWF : (ofConfig r).WF := by
      refine ofConfig_WF r h4 fun k o hg => ?_
      by_cases hm : k ∈ opts.map (·.1)
      · obtain ⟨x, hx, rfl⟩ := List.mem_map.1 hm
        by_cases hxg : x.1 = c!"globals"
        · -- the option `globals` is deleted, so this is a section
          rw [hxg, hGn] at hg; cases hg
        · obtain ⟨w, _, hw⟩ := h1 x.1 x.2 hx hxg
          rw [hw] at hg; cases hg
      · by_cases hmm : k ∈ more.map (·.1)
        · obtain ⟨x, hx, rfl⟩ := List.mem_map.1 hmm
          obtain ⟨vs, hvs, hg'⟩ := h2 x (by simpa using hx) hm
          rw [hg'] at hg
          have : vs = o := by simpa using hg
          rw [← this, converted_keys hvs]
          exact hmk x hx
        · rw [h3 k hm (by simpa using hmm)] at hg; cases hg
    have hget : ∀ (m : Bool) (k : Str), (Settings.updateSettings s (ofConfig r) m).get k =
        match r.get k with
        | some x => some (if m then Settings.mergeVal (s.get k) x.val else x.val)
        | none => s.get k := by
      intro m k
      cases m with
      | true =>
        show (Settings.merge s (ofConfig r)).get k = _
        rw [Settings.merge_get _ _ hWF, ofConfig_get]
        cases r.get k <;> rfl
      | false =>
        rw [(Settings.C22_update_overwrites s (ofConfig r) hWF k).1, ofConfig_get]
        cases r.get k <;> rfl
    refine ⟨fun k v hm hkG => ?_, fun k hko hks => ?_⟩
    · obtain ⟨w, hw1, hw2⟩ := h1 k v hm hkG
      refine ⟨w, hw1, ?_⟩
      rw [hget, hw2]
      simp [Setting.val, Settings.mergeVal]
    · rw [hget, h3 k hko (by simpa using hks)]

/-- **C77, reset.** After a reset every plain default setting has its default, and a setting that is none of the
defaults is what it was. -/
theorem C77_reset_partial (defaults s : Ents) (hd : defaults.WF) (k x : Str) :
    (defaults.get k = some (.leaf x) → (reset defaults s).get k = some (.leaf x)) ∧
    (defaults.get k = none → (reset defaults s).get k = s.get k) := by
  have := Settings.merge_get s defaults hd k
  refine ⟨fun h => ?_, fun h => ?_⟩ <;> rw [h] at this
  · exact this.trans (by simp [Settings.mergeVal])
  · exact this

/-! ### Where the code falls short -/

/-- A setting with an empty value is an error (an `IndexError`), not an empty text: `commentStartToken =` cannot be written. -/
theorem C77_empty_value_counterexample (ok truth : Str → Bool) (s : Ents) :
    convert ok [] = .error .index ∧
    updateFromStr ok truth [(c!"macroDirectives", [])] [] s = (s, some .index) := ⟨rfl, rfl⟩

/-- Plain text that looks like a sum in brackets is evaluated as Python: `(1+2)*` is not, but `(1+2)` is 3 and `((1+2)` is a
syntax error, where other texts are taken as they are. -/
theorem C77_sum_counterexample :
    (∀ ok, convert ok c!"(1+2)*" = .ok (.text c!"(1+2)*")) ∧
    (∀ ok, ok c!"(1+2)" = true → convert ok c!"(1+2)" = .ok (.result c!"(1+2)")) ∧
    (∀ ok, ok c!"((1+2)" = false → convert ok c!"((1+2)" = .error (.eval c!"((1+2)")) := by
  have n1 : stringIsNumber c!"(1+2)*" = .ok false := by decide +kernel
  have n2 : stringIsNumber c!"(1+2)" = .ok true := by decide +kernel
  have n3 : stringIsNumber c!"((1+2)" = .ok true := by decide +kernel
  refine ⟨fun ok => ?_, fun ok h => ?_, fun ok h => ?_⟩ <;> unfold convert
  · rw [show word ok c!"(1+2)*" = .ok (.text c!"(1+2)*") from rfl, n1]; rfl
  · rw [show word ok c!"(1+2)" = .ok (.text c!"(1+2)") from rfl, n2]
    show evaluate ok c!"(1+2)" = _
    unfold evaluate; rw [h]; rfl
  · rw [show word ok c!"((1+2)" = .ok (.text c!"((1+2)") from rfl, n3]
    show evaluate ok c!"((1+2)" = _
    unfold evaluate; rw [h]; rfl

/-- `importSettings` always fails: the method that should read the other file does not exist. -/
theorem C77_importSettings_counterexample (ok truth : Str → Bool) (file : Str) (s : Ents) (w : Value) (h : convert ok file = .ok w) :
    updateFromStr ok truth [(c!"importSettings", file)] [] s = (s, some .attribute) := by
  have : readConfig ok true [(c!"globals", [(c!"importSettings", file)])] = .error .attribute := by
    unfold readConfig
    rw [readSections, readOptions, h]
    rfl
  unfold updateFromStr updateFromConfig
  rw [this]

example : convert (fun _ => true) c!"other.cfg" = .ok (.text c!"other.cfg") := by decide +kernel

/-- A setting called `globals` is lost. -/
theorem C77_globals_counterexample :
    (updateFromStr (fun _ => true) (fun _ => true) [(c!"globals", c!"x"), (c!"a", c!"y")] [] .nil).1.get c!"globals" = none ∧
    (updateFromStr (fun _ => true) (fun _ => true) [(c!"globals", c!"x"), (c!"a", c!"y")] [] .nil).1.get c!"a" = some (.leaf c!"ty") := by
  have h : readConfig (fun _ => true) true [(c!"globals", [(c!"globals", c!"x"), (c!"a", c!"y")])] = .ok [(c!"a", .value (.text c!"y"))] := by
    decide +kernel
  unfold updateFromStr updateFromConfig
  rw [h]
  simp [Dict.get, ofConfig, Settings.updateSettings, Settings.merge, Ents.get, Ents.set, Settings.mergeVal, Value.atom]

/-- A reset does not forget: a setting that has no default stays, and inside a setting that is a table new entries stay. It
also forgets too much: what was passed to the compiler from outside is gone (`cheetahVarStartToken` is `@` before). -/
theorem C77_reset_counterexample : ∃ (defaults passed s : Ents), defaults.WF ∧ passed.WF ∧
    s = Settings.updateSettings (Settings.updateSettings defaults passed true) (.cons c!"extra" (.leaf c!"1") .nil) true ∧
    s.get c!"cheetahVarStartToken" = some (.leaf c!"@") ∧
    (reset defaults s).get c!"extra" = some (.leaf c!"1") ∧
    (reset defaults s).get c!"cheetahVarStartToken" = some (.leaf c!"$") := by
  refine ⟨.cons c!"cheetahVarStartToken" (.leaf c!"$") .nil, .cons c!"cheetahVarStartToken" (.leaf c!"@") .nil, _, ?_, ?_, rfl, ?_⟩
  · simp [Ents.WF, Settings.Val.WF, Ents.get]
  · simp [Ents.WF, Settings.Val.WF, Ents.get]
  · simp [reset, Settings.updateSettings, Settings.merge, Ents.get, Ents.set, Settings.mergeVal]

/-! ### The hypotheses are met -/

example : Plain c!"@@" ∧ convert (fun _ => false) c!"@@" = .ok (.text c!"@@") :=
  ⟨⟨⟨'@', ['@'], by decide +kernel⟩, by decide, by decide, by decide, by
    rw [← List.isPrefixOf_iff_prefix]; decide⟩, by decide +kernel⟩

example : convert (fun _ => true) c!"-42" = .ok (.result c!"-42") := by
  have := C77_integers (fun _ => true) 42 c!"-" c!"-42" (Or.inr (Or.inl rfl)) (by decide +kernel)
  exact this

/-- A configuration as in the Users' Guide. -/
example : ∃ r, readConfig (fun _ => true) true
      [(c!"server", [(c!"port", c!"80")]), (c!"Globals", [(c!"cheetahVarStartToken", c!"@"), (c!"useNameMapper", c!"False")])] = .ok r ∧
    r.get c!"cheetahVarStartToken" = some (.value (.text c!"@")) ∧ r.get c!"useNameMapper" = some (.value (.bool false)) ∧
    r.get c!"server" = some (.section_ [(c!"port", .result c!"80")]) ∧ r.get c!"Globals" = none :=
  ⟨[(c!"server", .section_ [(c!"port", .result c!"80")]), (c!"cheetahVarStartToken", .value (.text c!"@")), (c!"useNameMapper", .value (.bool false))],
    by decide +kernel, by decide +kernel, by decide +kernel, by decide +kernel, by decide +kernel⟩

example : (updateFromStr (fun _ => true) (fun _ => true) [(c!"cheetahVarStartToken", c!"@")] []
    (.cons c!"cheetahVarStartToken" (.leaf c!"$") (.cons c!"commentStartToken" (.leaf c!"##") .nil))).1.get c!"cheetahVarStartToken" =
    some (.leaf c!"t@") := by
  have h : readConfig (fun _ => true) true [(c!"globals", [(c!"cheetahVarStartToken", c!"@")])] =
      .ok [(c!"cheetahVarStartToken", .value (.text c!"@"))] := by decide +kernel
  unfold updateFromStr updateFromConfig
  rw [h]
  simp [Dict.get, ofConfig, Settings.updateSettings, Settings.merge, Ents.get, Ents.set, Settings.mergeVal, Value.atom]

end Cheetah.Config
