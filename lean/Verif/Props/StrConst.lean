import Verif.StrConst
/-
Property C24: the Python literal written for a piece of template text evaluates to that text.
-/
namespace Cheetah.StrConst

/-! ### Hexadecimal digits -/

theorem hexVal_hexDigit {n : Nat} (h : n < 16) : hexVal (hexDigit n) = some n := by
  revert n; decide

theorem readHex_append : ∀ (w v : Nat) (a : Nat) (u : Str) (rest : Str),
    u.length = w → readHex w a (u ++ rest) = (readHex w a u).map fun (n, _) => (n, rest)
  | 0, v, a, u, rest, h => by
    have : u = [] := List.eq_nil_of_length_eq_zero h
    simp [this, readHex]
  | w + 1, v, a, [], rest, h => by simp at h
  | w + 1, v, a, c :: u, rest, h => by
    simp only [List.cons_append, readHex]
    cases hexVal c with
    | none => rfl
    | some x => exact readHex_append w v _ u rest (by simpa using h)

theorem hex_length : ∀ (w n : Nat), (hex w n).length = w
  | 0, _ => rfl
  | w + 1, n => by simp [hex, hex_length w]

theorem readHex_snoc : ∀ (w a : Nat) (u : Str) (c : Char), u.length = w →
    readHex (w + 1) a (u ++ [c]) =
      match readHex w a u, hexVal c with
      | some (n, _), some v => some (n * 16 + v, [])
      | _, _ => none
  | 0, a, u, c, h => by
    have : u = [] := List.eq_nil_of_length_eq_zero h
    subst this
    simp only [List.nil_append, readHex]
    cases hexVal c <;> rfl
  | w + 1, a, [], c, h => by simp at h
  | w + 1, a, d :: u, c, h => by
    rw [List.cons_append, readHex, readHex]
    cases hexVal d with
    | none => rfl
    | some x => exact readHex_snoc w _ u c (by simpa using h)

theorem readHex_hex : ∀ (w n : Nat), n < 16 ^ w → readHex w 0 (hex w n) = some (n, [])
  | 0, n, h => by
    have : n = 0 := by simpa using h
    simp [hex, readHex, this]
  | w + 1, n, h => by
    rw [hex, readHex_snoc w 0 _ _ (hex_length w _), hexVal_hexDigit (Nat.mod_lt _ (by decide)),
      readHex_hex w (n / 16) (by rw [Nat.div_lt_iff_lt_mul (by decide)]; rwa [Nat.pow_succ] at h)]
    simp only [Option.some.injEq, Prod.mk.injEq, and_true]
    omega

theorem hexDigit_ne {n : Nat} (h : n < 16) : hexDigit n ≠ '\\' ∧ hexDigit n ≠ '\'' ∧ hexDigit n ≠ '"' := by
  revert n; decide

theorem hex_no_backslash : ∀ (w n : Nat), ∀ c ∈ hex w n, c ≠ '\\'
  | 0, _, c, h => by simp [hex] at h
  | w + 1, n, c, h => by
    simp only [hex, List.mem_append, List.mem_singleton] at h
    rcases h with h | h
    · exact hex_no_backslash w _ c h
    · rw [h]; exact (hexDigit_ne (Nat.mod_lt _ (by decide))).1

theorem codePoint_char (c : Char) (rest : Str) : codePoint c.toNat rest = .char [c] rest := by
  have h : c.toNat < 0xD800 ∨ (0xDFFF < c.toNat ∧ c.toNat < 0x110000) := c.valid
  rw [codePoint, if_pos h, Char.ofNat_toNat]

theorem hexEsc_char (w : Nat) (c : Char) (rest : Str) (h : c.toNat < 16 ^ w) :
    hexEsc w (hex w c.toNat ++ rest) = .char [c] rest := by
  rw [hexEsc, readHex_append w 0 0 _ rest (hex_length w _), readHex_hex w _ h]
  exact codePoint_char c rest

/-! ### The text after the substitution -/

/-- The substitution turns each character's escape into this: a raw newline for the
newline, the `repr` of the character otherwise. -/
def outChar (p : Char → Bool) (q c : Char) : Str := if c = '\n' then ['\n'] else reprChar p q c

/-- An escape other than that of the backslash and the newline: a backslash, a character that
is none of backslash, `n`, `0`, and more characters without a backslash. -/
theorem reprChar_shape (p : Char → Bool) (q c : Char) (hq : q = '\'' ∨ q = '"') (hc : c ≠ '\\') (hn : c ≠ '\n') :
    (∃ d w, reprChar p q c = '\\' :: d :: w ∧ d ≠ '\\' ∧ d ≠ 'n' ∧ d ≠ '0' ∧ (∀ x ∈ w, x ≠ '\\')) ∨
    reprChar p q c = [c] := by
  unfold reprChar
  by_cases h1 : c = q ∨ c = '\\'
  · left
    rw [if_pos h1]
    have h1' : c = q := h1.resolve_right hc
    refine ⟨c, [], rfl, hc, ?_, ?_, by simp⟩ <;> rcases hq with rfl | rfl <;> rw [h1'] <;> decide
  rw [if_neg h1]
  by_cases h2 : c = '\t'
  · left; rw [if_pos h2]; exact ⟨'t', [], rfl, by decide, by decide, by decide, by simp⟩
  rw [if_neg h2, if_neg hn]
  by_cases h3 : c = '\r'
  · left; rw [if_pos h3]; exact ⟨'r', [], rfl, by decide, by decide, by decide, by simp⟩
  rw [if_neg h3]
  by_cases h4 : p c
  · right; rw [if_pos h4]
  rw [if_neg h4]
  left
  by_cases h5 : c.toNat < 256
  · rw [if_pos h5]; exact ⟨'x', _, rfl, by decide, by decide, by decide, hex_no_backslash _ _⟩
  rw [if_neg h5]
  by_cases h6 : c.toNat < 65536
  · rw [if_pos h6]; exact ⟨'u', _, rfl, by decide, by decide, by decide, hex_no_backslash _ _⟩
  rw [if_neg h6]
  exact ⟨'U', _, rfl, by decide, by decide, by decide, hex_no_backslash _ _⟩

theorem reprChar_backslash (p : Char → Bool) (q : Char) : reprChar p q '\\' = ['\\', '\\'] := by
  simp [reprChar]

theorem reprChar_newline (p : Char → Bool) (q : Char) (hq : q = '\'' ∨ q = '"') :
    reprChar p q '\n' = ['\\', 'n'] := by
  unfold reprChar
  rw [if_neg (by rcases hq with rfl | rfl <;> decide), if_neg (by decide), if_pos rfl]

/-! ### The substitution -/

theorem matchEsc_length : ∀ (s : Str) (g r : Str), matchEsc s = some (g, r) → r.length < s.length := by
  intro s
  induction s using matchEsc.induct with
  | case1 s ih =>
    intro g r h
    simp only [matchEsc, Option.map_eq_some_iff] at h
    obtain ⟨⟨g', r'⟩, h1, h2⟩ := h
    have := ih g' r' h1
    simp only [Prod.mk.injEq] at h2
    rw [← h2.2]
    simp only [List.length_cons]
    omega
  | case2 s => intro g r h; simp [matchEsc] at h; rw [← h.2]; simp; omega
  | case3 s => intro g r h; simp [matchEsc] at h; rw [← h.2]; simp; omega
  | case4 s h1 h2 h3 => intro g r h; rw [matchEsc] at h; cases h; all_goals assumption

theorem sub_fuel : ∀ (n m : Nat) (b : Bool) (s : Str), s.length ≤ n → s.length ≤ m →
    subNewlines n b s = subNewlines m b s
  | 0, 0, _, _, _, _ => rfl
  | 0, m + 1, b, s, h, _ => by
    have : s = [] := List.eq_nil_of_length_eq_zero (by omega)
    subst this; simp [subNewlines]
  | n + 1, 0, b, s, _, h => by
    have : s = [] := List.eq_nil_of_length_eq_zero (by omega)
    subst this; simp [subNewlines]
  | n + 1, m + 1, b, [], _, _ => by simp [subNewlines]
  | n + 1, m + 1, true, c :: s, h1, h2 => by
    simp only [List.length_cons] at h1 h2
    simp only [subNewlines]
    rw [sub_fuel n m _ s (by omega) (by omega)]
  | n + 1, m + 1, false, c :: s, h1, h2 => by
    simp only [List.length_cons] at h1 h2
    simp only [subNewlines]
    cases hm : matchEsc (c :: s) with
    | none => simp only []; rw [sub_fuel n m _ s (by omega) (by omega)]
    | some gr =>
      obtain ⟨g, r⟩ := gr
      have := matchEsc_length _ _ _ hm
      simp only [List.length_cons] at this
      simp only []
      rw [sub_fuel n m _ r (by omega) (by omega)]

/-- The substitution with enough fuel. -/
def subAll (b : Bool) (s : Str) : Str := subNewlines s.length b s

theorem subAll_true (c : Char) (s : Str) : subAll true (c :: s) = c :: subAll (c == '\\') s := by
  simp [subAll, subNewlines]

theorem subAll_none {c : Char} {s : Str} (h : matchEsc (c :: s) = none) :
    subAll false (c :: s) = c :: subAll (c == '\\') s := by
  simp [subAll, subNewlines, h]

theorem subAll_some {c : Char} {s g r : Str} (h : matchEsc (c :: s) = some (g, r)) :
    subAll false (c :: s) = g ++ '\n' :: subAll false r := by
  have := matchEsc_length _ _ _ h
  simp only [subAll, List.length_cons, subNewlines, h]
  rw [sub_fuel s.length r.length false r (by simp only [List.length_cons] at this; omega) (Nat.le_refl _)]

theorem matchEsc_plain {c : Char} (h : c ≠ '\\') (s : Str) : matchEsc (c :: s) = none := by
  rw [matchEsc]
  all_goals (intro s' hh; injection hh with hh _; exact h hh)

theorem subAll_plain {c : Char} (h : c ≠ '\\') (b : Bool) (s : Str) : subAll b (c :: s) = c :: subAll false s := by
  have hb : (c == '\\') = false := by simpa using h
  cases b with
  | true => rw [subAll_true, hb]
  | false => rw [subAll_none (matchEsc_plain h s), hb]

theorem subAll_noback : ∀ (w r : Str), (∀ x ∈ w, x ≠ '\\') → subAll false (w ++ r) = w ++ subAll false r
  | [], _, _ => rfl
  | c :: w, r, h => by
    rw [List.cons_append, subAll_plain (h c (by simp)), subAll_noback w r (fun x hx => h x (by simp [hx]))]
    rfl

theorem subAll_run {c : Char} (h : c ≠ '\\') (r : Str) : ∀ m : Nat,
    subAll true (List.replicate m '\\' ++ c :: r) = List.replicate m '\\' ++ c :: subAll false r
  | 0 => by simpa using subAll_plain h true r
  | m + 1 => by
    rw [List.replicate_succ, List.cons_append, subAll_true]
    show '\\' :: subAll true _ = _
    rw [subAll_run h r m]; rfl

theorem subAll_run_end : ∀ m : Nat, subAll true (List.replicate m '\\') = List.replicate m '\\'
  | 0 => rfl
  | m + 1 => by
    rw [List.replicate_succ, subAll_true]
    show '\\' :: subAll true _ = _
    rw [subAll_run_end m]

theorem matchEsc_pairs (t : Str) : ∀ k : Nat,
    matchEsc (List.replicate (2 * k) '\\' ++ t) = (matchEsc t).map fun (g, r) => (List.replicate (2 * k) '\\' ++ g, r)
  | 0 => by simp
  | k + 1 => by
    have : 2 * (k + 1) = 2 * k + 1 + 1 := by omega
    rw [this, List.replicate_succ, List.replicate_succ]
    simp only [List.cons_append, matchEsc]
    rw [matchEsc_pairs t k]
    cases matchEsc t <;> rfl

theorem flat_backslashes (p : Char → Bool) (q : Char) : ∀ k : Nat,
    (List.replicate k '\\').flatMap (reprChar p q) = List.replicate (2 * k) '\\'
  | 0 => rfl
  | k + 1 => by
    have : 2 * (k + 1) = 2 * k + 1 + 1 := by omega
    rw [List.replicate_succ, List.flatMap_cons, flat_backslashes p q k, reprChar_backslash, this,
      List.replicate_succ, List.replicate_succ]
    rfl

theorem outflat_backslashes (p : Char → Bool) (q : Char) (k : Nat) :
    (List.replicate k '\\').flatMap (outChar p q) = List.replicate (2 * k) '\\' := by
  rw [← flat_backslashes p q k]
  induction k with
  | zero => rfl
  | succ k ih => rw [List.replicate_succ, List.flatMap_cons, List.flatMap_cons, ih]; rfl

/-- Split off the leading backslashes. -/
theorem leading (s : Str) : ∃ k t, s = List.replicate k '\\' ++ t ∧ ∀ c t', t = c :: t' → c ≠ '\\' := by
  induction s with
  | nil => exact ⟨0, [], rfl, by simp⟩
  | cons c s ih =>
    by_cases h : c = '\\'
    · obtain ⟨k, t, rfl, ht⟩ := ih
      exact ⟨k + 1, t, by rw [h, List.replicate_succ]; rfl, ht⟩
    · exact ⟨0, c :: s, rfl, by rintro d t' hd; injection hd with hd _; exact hd ▸ h⟩

theorem rep_swap (a : Char) (u : Str) : ∀ n : Nat, List.replicate n a ++ a :: u = a :: (List.replicate n a ++ u)
  | 0 => rfl
  | n + 1 => by rw [List.replicate_succ, List.cons_append, rep_swap a u n]; rfl

theorem matchEsc_bad {d : Char} (h1 : d ≠ '\\') (h2 : d ≠ 'n') (h3 : d ≠ '0') (s : Str) :
    matchEsc ('\\' :: d :: s) = none := by
  rw [matchEsc]
  · rintro s' h; injection h with _ h; injection h with h _; exact h1 h
  · rintro s' h; injection h with _ h; injection h with h _; exact h2 h
  · rintro s' h; injection h with _ h; injection h with h _; exact h3 h

/-- The substitution replaces exactly the escapes of newlines. -/
theorem subAll_flat (p : Char → Bool) (q : Char) (hq : q = '\'' ∨ q = '"') (s : Str) :
    subAll false (s.flatMap (reprChar p q)) = s.flatMap (outChar p q) := by
  obtain ⟨k, t, hs, ht⟩ := leading s
  rw [hs, List.flatMap_append, List.flatMap_append, flat_backslashes, outflat_backslashes]
  match t, hs, ht with
  | [], _, _ =>
    simp only [List.flatMap_nil, List.append_nil]
    have hm : matchEsc (List.replicate (2 * k) '\\') = none := by
      have := matchEsc_pairs [] k
      simpa [matchEsc] using this
    cases k with
    | zero => rfl
    | succ k =>
      have h2 : 2 * (k + 1) = 2 * k + 1 + 1 := by omega
      rw [h2, List.replicate_succ] at hm ⊢
      rw [subAll_none hm]
      show '\\' :: subAll true _ = _
      rw [subAll_run_end]
  | c :: t', hs, ht =>
    have hlen : t'.length < s.length := by rw [hs]; simp; omega
    have ih := subAll_flat p q hq t'
    have hc : c ≠ '\\' := ht c t' rfl
    rw [List.flatMap_cons, List.flatMap_cons]
    by_cases hn : c = '\n'
    · subst hn
      rw [reprChar_newline p q hq]
      have hm := matchEsc_pairs (['\\', 'n'] ++ t'.flatMap (reprChar p q)) k
      simp only [List.cons_append, List.nil_append, matchEsc, Option.map_some, List.append_nil] at hm
      have hne : ∃ d u, List.replicate (2 * k) '\\' ++ ('\\' :: 'n' :: t'.flatMap (reprChar p q)) = d :: u := by
        cases k with
        | zero => exact ⟨_, _, rfl⟩
        | succ k => rw [show 2 * (k + 1) = 2 * k + 1 + 1 by omega, List.replicate_succ]; exact ⟨_, _, rfl⟩
      obtain ⟨d, u, hdu⟩ := hne
      simp only [List.cons_append, List.nil_append]
      rw [hdu] at hm ⊢
      rw [subAll_some hm, ih]
      simp [outChar]
    · have ho : outChar p q c = reprChar p q c := by simp [outChar, hn]
      rw [ho]
      rcases reprChar_shape p q c hq hc hn with ⟨d, w, he, hd1, hd2, hd3, hw⟩ | he
      · rw [he]
        have hm := matchEsc_pairs (('\\' :: d :: w) ++ t'.flatMap (reprChar p q)) k
        rw [List.cons_append, List.cons_append, matchEsc_bad hd1 hd2 hd3] at hm
        have hsw : List.replicate (2 * k) '\\' ++ '\\' :: (d :: (w ++ t'.flatMap (reprChar p q)))
            = '\\' :: (List.replicate (2 * k) '\\' ++ d :: (w ++ t'.flatMap (reprChar p q))) := by
          exact rep_swap _ _ _
        rw [List.cons_append, List.cons_append, List.cons_append, List.cons_append]
        rw [hsw] at hm ⊢
        rw [subAll_none hm]
        show '\\' :: subAll true _ = _
        rw [subAll_run hd1, subAll_noback _ _ hw, ih, ← rep_swap]
      · rw [he]
        have hm := matchEsc_pairs ([c] ++ t'.flatMap (reprChar p q)) k
        rw [List.cons_append, List.nil_append, matchEsc_plain hc] at hm
        rw [List.cons_append, List.nil_append, List.cons_append, List.nil_append]
        cases k with
        | zero => simp only [Nat.mul_zero, List.replicate_zero, List.nil_append]; rw [subAll_plain hc, ih]
        | succ k =>
          rw [show 2 * (k + 1) = 2 * k + 1 + 1 by omega, List.replicate_succ, List.cons_append] at hm ⊢
          rw [subAll_none hm]
          show '\\' :: subAll true _ = _
          rw [subAll_run hc, ih]
          rfl
termination_by s.length

/-! ### The tokenizer -/

theorem lexStep_outChar (p : Char → Bool) (hp : Printable p) (q : Char) (hq : q = '\'' ∨ q = '"') (c : Char) (rest : Str) :
    lexStep q (outChar p q c ++ rest) = .char [c] rest := by
  have hqb : q ≠ '\\' := by rcases hq with rfl | rfl <;> decide
  have hesc : ∀ u, lexStep q ('\\' :: u) = escape u := by
    intro u; rw [lexStep, if_neg (by intro h; exact hqb h.1.symm), if_pos rfl]
  unfold outChar
  by_cases hn : c = '\n'
  · rw [if_pos hn, hn]
    simp only [List.cons_append, List.nil_append, lexStep]
    rw [if_neg (by intro h; rcases hq with rfl | rfl <;> exact absurd h.1 (by decide)), if_neg (by decide), if_neg (by decide),
      if_neg (by decide)]
  rw [if_neg hn]
  unfold reprChar
  by_cases h1 : c = q ∨ c = '\\'
  · rw [if_pos h1]
    simp only [List.cons_append, List.nil_append]
    have h3 : c = '\\' ∨ c = '\'' ∨ c = '"' := by
      rcases h1 with h | h
      · rcases hq with h' | h' <;> simp [h, h']
      · exact Or.inl h
    rw [hesc, escape, if_neg hn, if_neg (by rintro rfl; revert h3; decide), if_pos h3]
  rw [if_neg h1]
  by_cases h2 : c = '\t'
  · rw [if_pos h2, h2]; exact hesc _
  rw [if_neg h2, if_neg hn]
  by_cases h3 : c = '\r'
  · rw [if_pos h3, h3]; exact hesc _
  rw [if_neg h3]
  by_cases h4 : p c
  · rw [if_pos h4]
    simp only [List.cons_append, List.nil_append, lexStep]
    rw [if_neg (fun h => h1 (Or.inl h.1)), if_neg (fun h => h1 (Or.inr h)), if_neg h3,
      if_neg (fun h => by rw [hp.control c (Or.inl (by omega))] at h4; exact absurd h4 (by decide))]
  rw [if_neg h4]
  by_cases h5 : c.toNat < 256
  · rw [if_pos h5]; exact (hesc _).trans (hexEsc_char 2 c rest (by simpa using h5))
  rw [if_neg h5]
  by_cases h6 : c.toNat < 65536
  · rw [if_pos h6]; exact (hesc _).trans (hexEsc_char 4 c rest (by simpa using h6))
  rw [if_neg h6]
  refine (hesc _).trans (hexEsc_char 8 c rest ?_)
  have h : c.toNat < 0xD800 ∨ (0xDFFF < c.toNat ∧ c.toNat < 0x110000) := c.valid
  omega

theorem lexBody_flat (p : Char → Bool) (hp : Printable p) (q : Char) (hq : q = '\'' ∨ q = '"') (rest : Str) :
    ∀ (s : Str) (n : Nat), s.length < n →
      lexBody q n (s.flatMap (outChar p q) ++ (q :: q :: q :: rest)) = some (s, rest)
  | [], n + 1, _ => by simp [lexBody, lexStep, startsWith, stripPrefix?]
  | c :: s, n + 1, h => by
    rw [List.flatMap_cons, List.append_assoc, lexBody, lexStep_outChar p hp q hq]
    simp only [lexBody_flat p hp q hq rest s n (by simpa using h)]
    rfl

theorem outChar_length (p : Char → Bool) (q c : Char) : 1 ≤ (outChar p q c).length := by
  unfold outChar reprChar
  repeat (split; · simp)
  simp

theorem flat_length (p : Char → Bool) (q : Char) : ∀ s : Str, s.length ≤ (s.flatMap (outChar p q)).length
  | [] => by simp
  | c :: s => by
    have := outChar_length p q c
    have := flat_length p q s
    simp only [List.flatMap_cons, List.length_append, List.length_cons]
    omega

theorem reprQuote_cases (s : Str) : reprQuote s = '\'' ∨ reprQuote s = '"' := by
  unfold reprQuote; split <;> simp

/-- The literal the compiler writes, in closed form. -/
theorem literal_eq (p : Char → Bool) (s : Str) :
    literal p s = [reprQuote s, reprQuote s, reprQuote s] ++ s.flatMap (outChar p (reprQuote s)) ++
      [reprQuote s, reprQuote s, reprQuote s] := by
  have hin : ((pyRepr p s).drop 1).dropLast = s.flatMap (reprChar p (reprQuote s)) := by
    simp [pyRepr]
  have hsub : ∀ u : Str, subNewlines (u.length + 1) false u = subAll false u := fun u =>
    sub_fuel _ _ _ _ (by omega) (by omega)
  simp only [literal, hin, hsub, subAll_flat p _ (reprQuote_cases s)]
  rcases reprQuote_cases s with h | h
  · rw [h]; simp [pyRepr, h]
  · rw [h]; simp [pyRepr, h]

/-- C24: reading the literal that the compiler writes for a piece of template text gives back
exactly that text, and the literal ends where the compiler ends it, whatever source text
follows. -/
theorem C24_literal_evaluates_to_text (p : Char → Bool) (hp : Printable p) (s rest : Str) :
    lexTriple (literal p s ++ rest) = some (s, rest) := by
  have hq := reprQuote_cases s
  rw [literal_eq]
  simp only [List.cons_append, List.nil_append, List.append_assoc, lexTriple]
  rw [if_pos (by simpa using hq)]
  refine lexBody_flat p hp _ hq rest s _ ?_
  have := flat_length p (reprQuote s) s
  simp only [List.length_append]
  omega

/-- ASCII's printable characters, the rest counted as unprintable. -/
def asciiPrintable (c : Char) : Bool := 32 ≤ c.toNat && c.toNat < 127

theorem asciiPrintable_ok : Printable asciiPrintable :=
  ⟨fun c h1 h2 => by simp [asciiPrintable, h1, h2], fun c h => by simp [asciiPrintable]; omega⟩

/-- Both quotes, backslashes before a newline, the text `\n`, and a control character. -/
example : literal asciiPrintable ['a', '\'', '"', '\\', '\n', '\\', 'n', '\x01']
      = c!"'''a\\'\"\\\\\n\\\\n\\x01'''" ∧
    lexTriple (literal asciiPrintable ['a', '\'', '"', '\\', '\n', '\\', 'n', '\x01'] ++ c!")")
      = some (['a', '\'', '"', '\\', '\n', '\\', 'n', '\x01'], c!")") := by
  decide

end Cheetah.StrConst
