import Verif.PyStr
/-
Python's `int(s)` for strings (trusted base; models no code in /repo). Simplification:
Python also takes decimal digits outside ASCII.
-/
namespace Cheetah

/-- `int(s)` (called in Indenter.py 58, Version.py 29, 32). Simplification: ASCII digits only, which may be
separated by single underscores. -/
def intDigits : Str → Option Str
  | [] => none
  | [c] => if isDigit c then some [c] else none
  | c :: d :: s =>
    if isDigit c then
      if d = '_' then (intDigits s).map (c :: ·) else (intDigits (d :: s)).map (c :: ·)
    else none

/-- `int(s)` with its optional sign (called in Indenter.py 58, Version.py 29, 32). -/
def pyInt (s : Str) : Option Int :=
  match strip s with
  | '-' :: r => (intDigits r).map fun d => -(parseDecimal d : Int)
  | '+' :: r => (intDigits r).map fun d => (parseDecimal d : Int)
  | r => (intDigits r).map fun d => (parseDecimal d : Int)

theorem strip_solid {s : Str} (h : ∀ c ∈ s, isSpace c = false) : strip s = s := by
  have h1 : lstrip s = s := lstrip_eq_self fun c hc => h c (List.mem_of_mem_head? hc)
  have h2 : rstrip s = s := rstrip_eq_self fun c hc => h c (List.mem_of_getLast? hc)
  rw [strip, h1, h2]

theorem digit_notspace {c : Char} (h : isDigit c = true) : isSpace c = false := by
  simp only [isDigit, Bool.and_eq_true, decide_eq_true_eq] at h
  simp only [isSpace, Bool.or_eq_false_iff, Bool.and_eq_false_iff, decide_eq_false_iff_not, beq_eq_false_iff_ne]
  omega

theorem intDigits_digits : ∀ {s : Str}, s ≠ [] → (∀ c ∈ s, isDigit c = true) → intDigits s = some s
  | [], h, _ => absurd rfl h
  | [c], _, h => by simp [intDigits, h c (by simp)]
  | c :: d :: s, _, h => by
    have hd : d ≠ '_' := by
      intro e; have := h d (by simp); rw [e] at this; exact absurd this (by decide +kernel)
    rw [intDigits, if_pos (h c (by simp)), if_neg hd,
      intDigits_digits (by simp) (fun x hx => h x (by simp [List.mem_cons.mp hx]))]
    rfl

theorem pyInt_decimal (n : Nat) : pyInt (decimal n) = some (n : Int) := by
  have hd := decimal_digits n
  have hne := decimal_ne_nil n
  have h1 : strip (decimal n) = decimal n := strip_solid fun c hc => digit_notspace (hd c hc)
  have h2 := intDigits_digits hne hd
  unfold pyInt
  rw [h1]
  cases hs : decimal n with
  | nil => exact absurd hs hne
  | cons c r =>
    have hc : isDigit c = true := hd c (by simp [hs])
    have e1 : c ≠ '-' := by intro e; rw [e] at hc; exact absurd hc (by decide +kernel)
    have e2 : c ≠ '+' := by intro e; rw [e] at hc; exact absurd hc (by decide +kernel)
    rw [hs] at h2
    have h3 : parseDecimal (c :: r) = n := by rw [← hs]; exact parse_decimal n
    split
    · rename_i heq; exact absurd (List.cons.inj heq).1 e1
    · rename_i heq; exact absurd (List.cons.inj heq).1 e2
    · rw [h2]; simp [h3]


/-- The characters of a string `int` accepts. -/
theorem intDigits_chars : ∀ {s t : Str}, intDigits s = some t → s ≠ [] ∧ ∀ c ∈ s, isDigit c = true ∨ c = '_'
  | [], t, h => by simp [intDigits] at h
  | [c], t, h => by
    simp only [intDigits] at h
    split at h
    · rename_i hc; exact ⟨by simp, fun x hx => by simp at hx; rw [hx]; exact .inl hc⟩
    · exact absurd h (by simp)
  | c :: d :: s, t, h => by
    simp only [intDigits] at h
    split at h
    · rename_i hc
      refine ⟨by simp, ?_⟩
      split at h
      · rename_i hd
        cases hi : intDigits s with
        | none => rw [hi] at h; exact absurd h (by simp)
        | some r =>
          intro x hx
          rcases List.mem_cons.mp hx with e | hx
          · rw [e]; exact .inl hc
          · rcases List.mem_cons.mp hx with e | hx
            · rw [e, hd]; exact .inr rfl
            · exact (intDigits_chars hi).2 x hx
      · cases hi : intDigits (d :: s) with
        | none => rw [hi] at h; exact absurd h (by simp)
        | some r =>
          intro x hx
          rcases List.mem_cons.mp hx with e | hx
          · rw [e]; exact .inl hc
          · exact (intDigits_chars hi).2 x hx
    · exact absurd h (by simp)

/-- A string `int` accepts holds digits, underscores, a sign and white space only. -/
theorem pyInt_chars {s : Str} {n : Int} (h : pyInt s = some n) :
    s ≠ [] ∧ ∀ c ∈ s, isDigit c = true ∨ c = '_' ∨ c = '-' ∨ c = '+' ∨ isSpace c = true := by
  obtain ⟨a, b, hs, ha, hb, _⟩ := strip_spec s
  have core : strip s ≠ [] ∧ ∀ c ∈ strip s, isDigit c = true ∨ c = '_' ∨ c = '-' ∨ c = '+' := by
    unfold pyInt at h
    split at h
    · rename_i r heq
      cases hi : intDigits r with
      | none => rw [hi] at h; exact absurd h (by simp)
      | some t =>
        rw [heq]
        refine ⟨by simp, fun c hc => ?_⟩
        rcases List.mem_cons.mp hc with e | hc
        · exact .inr (.inr (.inl e))
        · rcases (intDigits_chars hi).2 c hc with h | h
          · exact .inl h
          · exact .inr (.inl h)
    · rename_i r heq
      cases hi : intDigits r with
      | none => rw [hi] at h; exact absurd h (by simp)
      | some t =>
        rw [heq]
        refine ⟨by simp, fun c hc => ?_⟩
        rcases List.mem_cons.mp hc with e | hc
        · exact .inr (.inr (.inr e))
        · rcases (intDigits_chars hi).2 c hc with h | h
          · exact .inl h
          · exact .inr (.inl h)
    · cases hi : intDigits (strip s) with
      | none => rw [hi] at h; exact absurd h (by simp)
      | some t =>
        refine ⟨(intDigits_chars hi).1, fun c hc => ?_⟩
        rcases (intDigits_chars hi).2 c hc with h | h
        · exact .inl h
        · exact .inr (.inl h)
  constructor
  · intro e
    rw [e] at hs
    exact core.1 (by
      rw [e]
      have := (List.append_eq_nil_iff.mp hs.symm).1
      exact (List.append_eq_nil_iff.mp this).2)
  · intro c hc
    rw [hs] at hc
    rcases List.mem_append.mp hc with hc | hc
    · rcases List.mem_append.mp hc with hc | hc
      · exact .inr (.inr (.inr (.inr (ha c hc))))
      · rcases core.2 c hc with h | h | h | h
        · exact .inl h
        · exact .inr (.inl h)
        · exact .inr (.inr (.inl h))
        · exact .inr (.inr (.inr (.inl h)))
    · exact .inr (.inr (.inr (.inr (hb c hc))))

end Cheetah
