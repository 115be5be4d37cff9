import Verif.Str
/-
More Python `str` built-ins: whitespace, strip, split(), decimal numbers, slices.
Transcribed from the documented behaviour of CPython (trusted base).
-/
namespace Cheetah

/-- `str.isspace` for one code point: the Unicode whitespace CPython's
`str.strip()` and `str.split()` use.
Python built-in; models no code in /repo (used by Filters.py 12-190, Compiler.py 137-184). -/
def isSpace (c : Char) : Bool :=
  let n := c.toNat
  (9 ≤ n && n ≤ 13) || (28 ≤ n && n ≤ 32) || n == 0x85 || n == 0xa0 || n == 0x1680 ||
  (0x2000 ≤ n && n ≤ 0x200a) || n == 0x2028 || n == 0x2029 || n == 0x202f || n == 0x205f ||
  n == 0x3000

/-- `s.lstrip()`.
Python built-in; models no code in /repo (used by Filters.py 12-190, Compiler.py 137-184). -/
def lstrip (s : Str) : Str := s.dropWhile isSpace

/-- `s.rstrip()`.
Python built-in; models no code in /repo (used by Filters.py 12-190, Compiler.py 137-184). -/
def rstrip : Str → Str
  | [] => []
  | c :: cs =>
    match rstrip cs with
    | [] => if isSpace c then [] else [c]
    | d :: ds => c :: d :: ds

/-- `s.strip()`.
Python built-in; models no code in /repo (used by Filters.py 12-190, Compiler.py 137-184). -/
def strip (s : Str) : Str := rstrip (lstrip s)

/-- Put a non-whitespace character in front of the words of what follows.
Python built-in; models no code in /repo (used by Filters.py 12-190, Compiler.py 137-184). -/
def consWord (c : Char) (next : Option Char) (ws : List Str) : List Str :=
  match next, ws with
  | some d, w :: ws => if isSpace d then [c] :: w :: ws else (c :: w) :: ws
  | _, ws => [c] :: ws

/-- `s.split()`: the maximal runs of non-whitespace.
Python built-in; models no code in /repo (used by Filters.py 12-190, Compiler.py 137-184). -/
def pyWords : Str → List Str
  | [] => []
  | c :: cs => if isSpace c then pyWords cs else consWord c cs.head? (pyWords cs)

/-- One decimal digit.
Python built-in; models no code in /repo (used by Filters.py 12-190, Compiler.py 137-184). -/
def digit (n : Nat) : Char := Char.ofNat (48 + n)

/-- The decimal digits of `n`, with enough fuel.
Python built-in; models no code in /repo (used by Filters.py 12-190, Compiler.py 137-184). -/
def decimalAux : Nat → Nat → Str
  | 0, _ => []
  | f + 1, n => if n < 10 then [digit n] else decimalAux f (n / 10) ++ [digit (n % 10)]

/-- `str(n)` for a natural number.
Python built-in; models no code in /repo (used by Filters.py 12-190, Compiler.py 137-184). -/
def decimal (n : Nat) : Str := decimalAux (n + 1) n

/-- `int(s)` for a string of decimal digits.
Python built-in; models no code in /repo (used by Filters.py 12-190, Compiler.py 137-184). -/
def parseDecimal (s : Str) : Nat := s.foldl (fun a c => a * 10 + (c.toNat - 48)) 0

/-- `s[:n]` for any integer `n`.
Python built-in; models no code in /repo (used by Filters.py 12-190, Compiler.py 137-184). -/
def sliceTo (s : Str) (n : Int) : Str :=
  if 0 ≤ n then s.take n.toNat else s.take (s.length - (-n).toNat)

/-! ### Lemmas -/

theorem isSpace_blank : isSpace ' ' = true := by decide
theorem isSpace_newline : isSpace '\n' = true := by decide

attribute [irreducible] isSpace

theorem digit_toNat {n : Nat} (h : n < 10) : (digit n).toNat = 48 + n := by
  have : n = 0 ∨ n = 1 ∨ n = 2 ∨ n = 3 ∨ n = 4 ∨ n = 5 ∨ n = 6 ∨ n = 7 ∨ n = 8 ∨ n = 9 := by omega
  rcases this with rfl | rfl | rfl | rfl | rfl | rfl | rfl | rfl | rfl | rfl <;> decide

theorem decimalAux_fuel : ∀ (f g n : Nat), n < f → n < g → decimalAux f n = decimalAux g n := by
  intro f
  induction f with
  | zero => intro g n h; omega
  | succ f ih =>
    intro g n h1 h2
    cases g with
    | zero => omega
    | succ g =>
      simp only [decimalAux]
      split
      · rfl
      · rw [ih g (n / 10) (by omega) (by omega)]

theorem decimal_eq (n : Nat) :
    decimal n = if n < 10 then [digit n] else decimal (n / 10) ++ [digit (n % 10)] := by
  unfold decimal
  conv => lhs; rw [decimalAux]
  split
  · rfl
  · rw [decimalAux_fuel n (n / 10 + 1) (n / 10) (by omega) (by omega)]

/-- A character is one of '0'…'9'. -/
def isDigit (c : Char) : Bool := 48 ≤ c.toNat && c.toNat ≤ 57

theorem isDigit_digit {n : Nat} (h : n < 10) : isDigit (digit n) = true := by
  simp [isDigit, digit_toNat h]; omega

theorem decimal_digits (n : Nat) : ∀ c ∈ decimal n, isDigit c = true := by
  induction n using Nat.strongRecOn with
  | ind n ih =>
    rw [decimal_eq]
    split
    · next h => intro c hc; simp at hc; subst hc; exact isDigit_digit h
    · next h =>
      intro c hc
      rw [List.mem_append] at hc
      rcases hc with hc | hc
      · exact ih (n / 10) (by omega) c hc
      · simp at hc; subst hc; exact isDigit_digit (by omega)

theorem decimal_ne_nil (n : Nat) : decimal n ≠ [] := by
  rw [decimal_eq]; split <;> simp

theorem parseDecimal_append (a : Str) (c : Char) :
    parseDecimal (a ++ [c]) = parseDecimal a * 10 + (c.toNat - 48) := by
  simp [parseDecimal, List.foldl_append]

/-- `int(str(n)) == n`. -/
theorem parse_decimal (n : Nat) : parseDecimal (decimal n) = n := by
  induction n using Nat.strongRecOn with
  | ind n ih =>
    rw [decimal_eq]
    split
    · next h => simp [parseDecimal, digit_toNat h]
    · next h =>
      rw [parseDecimal_append, ih (n / 10) (by omega), digit_toNat (by omega)]
      omega

theorem decimal_inj {m n : Nat} (h : decimal m = decimal n) : m = n := by
  rw [← parse_decimal m, ← parse_decimal n, h]

/-! #### strip -/

theorem rstrip_spec (s : Str) : ∃ t, s = rstrip s ++ t ∧ (∀ c ∈ t, isSpace c = true) ∧
    (∀ c, (rstrip s).getLast? = some c → isSpace c = false) := by
  induction s with
  | nil => exact ⟨[], rfl, by simp, by simp [rstrip]⟩
  | cons c cs ih =>
    obtain ⟨t, h1, h2, h3⟩ := ih
    simp only [rstrip]
    cases hr : rstrip cs with
    | nil =>
      rw [hr] at h1
      simp only [List.nil_append] at h1
      by_cases hc : isSpace c = true
      · simp only [hc, if_true]
        refine ⟨c :: cs, rfl, ?_, by simp⟩
        intro d hd
        simp at hd
        rcases hd with rfl | hd
        · exact hc
        · exact h2 d (h1 ▸ hd)
      · simp only [hc]
        refine ⟨cs, rfl, fun d hd => h2 d (h1 ▸ hd), ?_⟩
        intro d hd; simp at hd; subst hd; simpa using hc
    | cons d ds =>
      rw [hr] at h1 h3
      refine ⟨t, by simp [← List.cons_append, ← h1], h2, ?_⟩
      intro e he
      exact h3 e (by simpa [List.getLast?_cons_cons] using he)

theorem rstrip_eq_self {s : Str} (h : ∀ c, s.getLast? = some c → isSpace c = false) : rstrip s = s := by
  induction s with
  | nil => rfl
  | cons c cs ih =>
    simp only [rstrip]
    cases cs with
    | nil =>
      have := h c (by simp)
      simp [rstrip, this]
    | cons d ds =>
      rw [ih (fun e he => h e (by simpa [List.getLast?_cons_cons] using he))]

theorem lstrip_spec (s : Str) : ∃ t, s = t ++ lstrip s ∧ (∀ c ∈ t, isSpace c = true) ∧
    (∀ c, (lstrip s).head? = some c → isSpace c = false) := by
  induction s with
  | nil => exact ⟨[], rfl, by simp, by simp [lstrip]⟩
  | cons c cs ih =>
    obtain ⟨t, h1, h2, h3⟩ := ih
    by_cases hc : isSpace c = true
    · refine ⟨c :: t, ?_, ?_, ?_⟩
      · simp only [lstrip, List.dropWhile_cons, hc, if_true] at *
        rw [List.cons_append, ← h1]
      · intro d hd; simp at hd; rcases hd with rfl | hd
        · exact hc
        · exact h2 d hd
      · simp only [lstrip, List.dropWhile_cons, hc, if_true]; exact h3
    · refine ⟨[], ?_, by simp, ?_⟩
      · simp [lstrip, List.dropWhile_cons, hc]
      · intro d hd
        simp [lstrip, List.dropWhile_cons, hc] at hd
        subst hd; simpa using hc

theorem lstrip_eq_self {s : Str} (h : ∀ c, s.head? = some c → isSpace c = false) : lstrip s = s := by
  cases s with
  | nil => rfl
  | cons c cs => simp [lstrip, List.dropWhile_cons, h c (by simp)]

/-- `strip` removes whitespace on the left and on the right, and all of it. -/
theorem strip_spec (s : Str) : ∃ a b, s = a ++ strip s ++ b ∧
    (∀ c ∈ a, isSpace c = true) ∧ (∀ c ∈ b, isSpace c = true) ∧
    (∀ c, (strip s).head? = some c → isSpace c = false) ∧
    (∀ c, (strip s).getLast? = some c → isSpace c = false) := by
  obtain ⟨a, h1, h2, h3⟩ := lstrip_spec s
  obtain ⟨b, h4, h5, h6⟩ := rstrip_spec (lstrip s)
  refine ⟨a, b, ?_, h2, h5, ?_, h6⟩
  · rw [List.append_assoc, strip, ← h4, ← h1]
  · intro c hc
    apply h3
    rw [h4]
    unfold strip at hc
    cases hr : rstrip (lstrip s) with
    | nil => rw [hr] at hc; simp at hc
    | cons x xs => rw [hr] at hc; simpa using hc

theorem strip_idem (s : Str) : strip (strip s) = strip s := by
  obtain ⟨a, b, _, _, _, h1, h2⟩ := strip_spec s
  conv => lhs; rw [strip]
  rw [lstrip_eq_self h1, rstrip_eq_self h2]

/-- The characters that are not whitespace.
Python built-in; models no code in /repo (used by Filters.py 12-190, Compiler.py 137-184). -/
def solid (s : Str) : Str := s.filter (fun c => !isSpace c)

theorem solid_of_space {s : Str} (h : ∀ c ∈ s, isSpace c = true) : solid s = [] := by
  unfold solid; rw [List.filter_eq_nil_iff]; intro c hc; simp [h c hc]

theorem solid_append (a b : Str) : solid (a ++ b) = solid a ++ solid b := by
  simp [solid]

theorem solid_strip (s : Str) : solid (strip s) = solid s := by
  obtain ⟨a, b, h, ha, hb, _⟩ := strip_spec s
  conv => rhs; rw [h]
  rw [solid_append, solid_append, solid_of_space ha, solid_of_space hb]; simp

theorem strip_mem {s : Str} {c : Char} (h : c ∈ strip s) : c ∈ s := by
  obtain ⟨a, b, h', _⟩ := strip_spec s
  rw [h']; simp [h]

/-! #### words -/

theorem pyWords_space {c : Char} (h : isSpace c = true) (cs : Str) : pyWords (c :: cs) = pyWords cs := by
  rw [pyWords]; simp [h]

theorem pyWords_solid {c : Char} (h : isSpace c = false) (cs : Str) :
    pyWords (c :: cs) = consWord c cs.head? (pyWords cs) := by
  rw [pyWords]; simp [h]

theorem pyWords_solid_nil {c : Char} (h : isSpace c = false) : pyWords [c] = [[c]] := by
  rw [pyWords_solid h]; rfl

/-- A solid character followed by whitespace is a word's end. -/
theorem pyWords_solid_space {c d : Char} (h : isSpace c = false) (hd : isSpace d = true) (cs : Str) :
    pyWords (c :: d :: cs) = [c] :: pyWords cs := by
  rw [pyWords_solid h, pyWords_space hd]
  cases hw : pyWords cs with
  | nil => simp [consWord]
  | cons w ws => simp [consWord, hd]

theorem pyWords_cons_solid {d : Char} (h : isSpace d = false) (cs : Str) :
    ∃ w ws, pyWords (d :: cs) = (d :: w) :: ws := by
  rw [pyWords_solid h]
  cases cs with
  | nil => exact ⟨[], [], rfl⟩
  | cons e es =>
    cases hw : pyWords (e :: es) with
    | nil => exact ⟨[], [], by simp [consWord]⟩
    | cons w ws =>
      by_cases he : isSpace e = true
      · exact ⟨[], w :: ws, by simp [consWord, he]⟩
      · exact ⟨w, ws, by simp [consWord, he]⟩

theorem pyWords_solid_solid {c d : Char} (h : isSpace c = false) (hd : isSpace d = false) (cs : Str) :
    ∃ w ws, pyWords (d :: cs) = (d :: w) :: ws ∧ pyWords (c :: d :: cs) = (c :: d :: w) :: ws := by
  obtain ⟨w, ws, hw⟩ := pyWords_cons_solid hd cs
  refine ⟨w, ws, hw, ?_⟩
  rw [pyWords_solid h, hw]
  simp [consWord, hd]

/-- Words are non-empty and free of whitespace. -/
theorem pyWords_words (s : Str) : ∀ w ∈ pyWords s, w ≠ [] ∧ ∀ c ∈ w, isSpace c = false := by
  induction s with
  | nil => simp [pyWords]
  | cons c cs ih =>
    by_cases hc : isSpace c = true
    · rw [pyWords_space hc]; exact ih
    · have hc : isSpace c = false := by simpa using hc
      cases cs with
      | nil => rw [pyWords_solid_nil hc]; simp [hc]
      | cons d ds =>
        by_cases hd : isSpace d = true
        · rw [pyWords_solid_space hc hd]
          rw [pyWords_space hd] at ih
          intro w hw
          simp at hw
          rcases hw with rfl | hw
          · simp [hc]
          · exact ih w hw
        · obtain ⟨w, ws, h1, h2⟩ := pyWords_solid_solid hc (by simpa using hd) ds
          rw [h2]
          rw [h1] at ih
          intro x hx
          simp at hx
          rcases hx with rfl | hx
          · have := ih (d :: w) (by simp)
            refine ⟨by simp, ?_⟩
            intro e he
            rw [List.mem_cons] at he
            rcases he with rfl | he
            · exact hc
            · exact this.2 e he
          · exact ih x (by simp [hx])

theorem solid_words (s : Str) : (pyWords s).flatten = solid s := by
  induction s with
  | nil => rfl
  | cons c cs ih =>
    by_cases hc : isSpace c = true
    · rw [pyWords_space hc, ih]; simp [solid, hc]
    · have hc : isSpace c = false := by simpa using hc
      cases cs with
      | nil => rw [pyWords_solid_nil hc]; simp [solid, hc]
      | cons d ds =>
        by_cases hd : isSpace d = true
        · rw [pyWords_solid_space hc hd]
          rw [pyWords_space hd] at ih
          simp [ih, solid, hc]
        · obtain ⟨w, ws, h1, h2⟩ := pyWords_solid_solid hc (by simpa using hd) ds
          rw [h2]
          rw [h1] at ih
          simp [solid, hc] at ih ⊢
          exact ih

/-- `w + ' ' + rest` has first word `w`. -/
theorem pyWords_word_space {w : Str} (hne : w ≠ []) (hw : ∀ c ∈ w, isSpace c = false) (rest : Str) :
    pyWords (w ++ ' ' :: rest) = w :: pyWords rest := by
  induction w with
  | nil => exact absurd rfl hne
  | cons c cs ih =>
    have hc := hw c (by simp)
    cases cs with
    | nil => simpa using pyWords_solid_space hc isSpace_blank rest
    | cons d ds =>
      have hd := hw d (by simp)
      have := ih (by simp) (fun e he => hw e (by simp at he ⊢; exact Or.inr he))
      obtain ⟨w, ws, h1, h2⟩ := pyWords_solid_solid hc hd (ds ++ ' ' :: rest)
      rw [List.cons_append, List.cons_append, h2]
      rw [List.cons_append, h1] at this
      cases this; rfl

theorem pyWords_word {w : Str} (hne : w ≠ []) (hw : ∀ c ∈ w, isSpace c = false) : pyWords w = [w] := by
  induction w with
  | nil => exact absurd rfl hne
  | cons c cs ih =>
    have hc := hw c (by simp)
    cases cs with
    | nil => exact pyWords_solid_nil hc
    | cons d ds =>
      have hd := hw d (by simp)
      have := ih (by simp) (fun e he => hw e (by simp at he ⊢; exact Or.inr he))
      obtain ⟨w, ws, h1, h2⟩ := pyWords_solid_solid hc hd ds
      rw [h2]; rw [h1] at this; cases this; rfl

theorem pyWords_join : ∀ (ws : List Str), (∀ w ∈ ws, w ≠ [] ∧ ∀ c ∈ w, isSpace c = false) →
    pyWords (joinStr [' '] ws) = ws
  | [], _ => rfl
  | [w], h => pyWords_word (h w (by simp)).1 (h w (by simp)).2
  | w :: v :: ws, h => by
    have hw := h w (by simp)
    have : w ++ [' '] ++ joinStr [' '] (v :: ws) = w ++ ' ' :: joinStr [' '] (v :: ws) := by simp
    rw [joinStr, this, pyWords_word_space hw.1 hw.2,
      pyWords_join (v :: ws) (fun x hx => h x (by simp at hx ⊢; exact Or.inr hx))]

/-! #### replace -/

theorem replaceStrAux_fuel (pat by_ : Str) (hp : pat ≠ []) : ∀ (n m : Nat) (s : Str),
    s.length ≤ n → s.length ≤ m → replaceStrAux pat by_ n s = replaceStrAux pat by_ m s := by
  intro n
  induction n with
  | zero =>
    intro m s h _
    have : s = [] := List.length_eq_zero_iff.1 (by omega)
    subst this
    cases m <;> rfl
  | succ n ih =>
    intro m s hn hm
    cases s with
    | nil => cases m <;> rfl
    | cons c cs =>
      cases m with
      | zero => simp at hm
      | succ m =>
        simp only [replaceStrAux]
        simp at hn hm
        cases hs : stripPrefix? pat (c :: cs) with
        | none => simp only []; rw [ih m cs hn hm]
        | some rest =>
          simp only
          rw [stripPrefix?_some] at hs
          have hl : (c :: cs).length = pat.length + rest.length := by rw [hs]; simp
          have hpl : pat.length ≠ 0 := by intro h; exact hp (List.length_eq_zero_iff.1 h)
          simp at hl
          rw [ih m rest (by omega) (by omega)]

theorem replaceStr_nil (pat by_ : Str) : replaceStr pat by_ [] = [] := rfl

theorem replaceStr_hit {pat by_ : Str} (hp : pat ≠ []) (rest : Str) :
    replaceStr pat by_ (pat ++ rest) = by_ ++ replaceStr pat by_ rest := by
  unfold replaceStr
  cases pat with
  | nil => exact absurd rfl hp
  | cons p ps =>
    simp only [List.cons_append, List.length_cons, replaceStrAux]
    rw [stripPrefix?_some.2 (rfl : p :: (ps ++ rest) = (p :: ps) ++ rest)]
    simp only
    rw [replaceStrAux_fuel _ _ (by simp) _ rest.length rest (by simp) (Nat.le_refl _)]

theorem replaceStr_miss {pat by_ : Str} {c : Char} {cs : Str} (h : stripPrefix? pat (c :: cs) = none) :
    replaceStr pat by_ (c :: cs) = c :: replaceStr pat by_ cs := by
  unfold replaceStr
  simp only [List.length_cons, replaceStrAux, h]

/-- A stretch in which the pattern starts nowhere is copied. -/
theorem replaceStr_skip {pat by_ : Str} : ∀ (tok rest : Str),
    (∀ a b, tok = a ++ b → b ≠ [] → stripPrefix? pat (b ++ rest) = none) →
    replaceStr pat by_ (tok ++ rest) = tok ++ replaceStr pat by_ rest := by
  intro tok
  induction tok with
  | nil => intro rest _; rfl
  | cons c cs ih =>
    intro rest h
    rw [List.cons_append, replaceStr_miss (by simpa using h [] (c :: cs) rfl (by simp)),
      ih rest (fun a b hab hb => h (c :: a) b (by simp [hab]) hb)]
    rfl

theorem stripPrefix?_head {p c : Char} {ps cs : Str} (h : p ≠ c) :
    stripPrefix? (p :: ps) (c :: cs) = none := by simp [stripPrefix?, h]

end Cheetah
