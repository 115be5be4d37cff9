import Verif.Interval
import Mathlib.Algebra.Order.Field.Rat
import Mathlib.Algebra.Order.Ring.Rat
import Mathlib.Tactic.Linarith
import Mathlib.Tactic.NormNum
import Mathlib.Tactic.Ring
import Mathlib.Tactic.FieldSimp
/-
C32: cache interval strings.
-/
namespace Cheetah.Interval

/-! ### Specification -/

/-- The value of a digit string, most significant digit first. -/
def digitsValue (ds : Str) : Nat := ds.foldl (fun a c => 10 * a + (c.toNat - '0'.toNat)) 0

/-- `t` is a decimal numeral, `12` or `12.5`, with the value `x`. -/
inductive Numeral : Str → Rat → Prop where
  | whole (ds : Str) : ds ≠ [] → (∀ c ∈ ds, c ∈ c!"0123456789") → Numeral ds (digitsValue ds : Nat)
  | point (ds fs : Str) : ds ≠ [] → (∀ c ∈ ds, c ∈ c!"0123456789") → (∀ c ∈ fs, c ∈ c!"0123456789") →
      Numeral (ds ++ '.' :: fs) ((digitsValue ds : Nat) + (digitsValue fs : Nat) / (10 : Rat) ^ fs.length)

/-- A power of ten behind a numeral, `e3`, `E+3` or `e-3`, with its value. -/
inductive Power : Str → Rat → Prop where
  | plain (c : Char) (ds : Str) : c ∈ c!"eE" → ds ≠ [] → (∀ d ∈ ds, d ∈ c!"0123456789") → Power (c :: ds) ((10 : Rat) ^ digitsValue ds)
  | plus (c : Char) (ds : Str) : c ∈ c!"eE" → ds ≠ [] → (∀ d ∈ ds, d ∈ c!"0123456789") → Power (c :: '+' :: ds) ((10 : Rat) ^ digitsValue ds)
  | minus (c : Char) (ds : Str) : c ∈ c!"eE" → ds ≠ [] → (∀ d ∈ ds, d ∈ c!"0123456789") → Power (c :: '-' :: ds) (1 / (10 : Rat) ^ digitsValue ds)

/-- The number of seconds each unit letter stands for. -/
inductive Unit : Str → Rat → Prop where
  | seconds : Unit c!"s" 1
  | minutes : Unit c!"m" 60
  | hours : Unit c!"h" 3600
  | days : Unit c!"d" 86400
  | weeks : Unit c!"w" 604800
  | default : Unit [] 60

/-! ### Lemmas -/

theorem isDigit_of_mem {c : Char} (h : c ∈ c!"0123456789") : isDigit c = true := by
  simp only [List.mem_cons, List.not_mem_nil, or_false] at h
  rcases h with rfl | rfl | rfl | rfl | rfl | rfl | rfl | rfl | rfl | rfl <;> decide

theorem digit_mem {c : Char} (h : isDigit c = true) : c ∈ c!"0123456789" := by
  unfold isDigit at h
  have : ∀ n : Nat, n < 10 → Char.ofNat (48 + n) ∈ c!"0123456789" := by decide
  simp at h
  have h2 := this (c.toNat - 48) (by omega)
  rw [show 48 + (c.toNat - 48) = c.toNat by omega, Char.ofNat_toNat] at h2
  exact h2

theorem digit_not_space {c : Char} (h : isDigit c = true) : isSpace c = false := by
  unfold isDigit at h
  unfold isSpace
  simp at h ⊢
  omega

theorem parseDecimal_eq (ds : Str) : parseDecimal ds = digitsValue ds := by
  have : ∀ a b, a = b → ds.foldl (fun a c => a * 10 + (c.toNat - 48)) a = ds.foldl (fun a c => 10 * a + (c.toNat - '0'.toNat)) b := by
    induction ds with
    | nil => intro a b h; exact h
    | cons c ds ih =>
      intro a b h
      simp only [List.foldl_cons]
      apply ih
      subst h
      have : '0'.toNat = 48 := rfl
      omega
  exact this 0 0 rfl

theorem digitsValue_append (a b : Str) : digitsValue (a ++ b) = digitsValue a * 10 ^ b.length + digitsValue b := by
  have key : ∀ (b : Str) (x : Nat), b.foldl (fun a c => 10 * a + (c.toNat - '0'.toNat)) x =
      x * 10 ^ b.length + b.foldl (fun a c => 10 * a + (c.toNat - '0'.toNat)) 0 := by
    intro b
    induction b with
    | nil => intro x; simp
    | cons c b ih =>
      intro x
      simp only [List.foldl_cons, List.length_cons]
      rw [ih (10 * x + _), ih (10 * 0 + _)]
      ring
  simp only [digitsValue, List.foldl_append]
  exact key b _

theorem takeWhile_stop {p : Char → Bool} {a t : Str} (ha : ∀ c ∈ a, p c = true) (ht : ∀ c, t.head? = some c → p c = false) :
    (a ++ t).takeWhile p = a ∧ (a ++ t).dropWhile p = t := by
  induction a with
  | nil =>
    cases t with
    | nil => simp
    | cons c t => simp [ht c rfl]
  | cons c a ih =>
    have := ih fun x hx => ha x (by simp [hx])
    simp [ha c (by simp), this]

theorem strip_id {s : Str} (h : ∀ c ∈ s, isSpace c = false) : strip s = s := by
  unfold strip
  rw [lstrip_eq_self fun c hc => h c (List.mem_of_mem_head? hc)]
  exact rstrip_eq_self fun c hc => h c (List.mem_of_mem_getLast? hc)

theorem signed_id {s : Str} (h : ∀ c, s.head? = some c → isDigit c = true) : signed s = (1, s) := by
  unfold signed
  split
  · exact absurd (h '-' rfl) (by decide)
  · exact absurd (h '+' rfl) (by decide)
  · rfl

theorem numeral_chars {t : Str} {x : Rat} (h : Numeral t x) : t ≠ [] ∧ ∀ c ∈ t, isDigit c = true ∨ c = '.' := by
  cases h with
  | whole _ h1 h2 => exact ⟨h1, fun c hc => .inl (isDigit_of_mem (h2 c hc))⟩
  | point ds fs h1 h2 h3 =>
    refine ⟨by simp, fun c hc => ?_⟩
    simp only [List.mem_append, List.mem_cons] at hc
    rcases hc with h | h | h
    · exact .inl (isDigit_of_mem (h2 c h))
    · exact .inr h
    · exact .inl (isDigit_of_mem (h3 c h))

theorem tenTo_sub (e : Int) (k : Nat) : tenTo (e - k) = tenTo e / (10 : Rat) ^ k := by
  have h : ∀ n : Int, tenTo n = (10 : Rat) ^ n := by
    intro n
    unfold tenTo
    split
    · rename_i h
      obtain ⟨m, rfl⟩ := Int.eq_ofNat_of_zero_le h
      simp
    · rename_i h
      obtain ⟨m, hm⟩ := Int.eq_ofNat_of_zero_le (show 0 ≤ -n by omega)
      obtain rfl : n = -(m : Int) := by omega
      simp
  rw [h, h, zpow_sub₀ (by norm_num), zpow_natCast]

theorem parseFloat_then {t r : Str} {x : Rat} (h : Numeral t x) (hr : ∀ c ∈ r, isSpace c = false) (hh : ∀ c, r.head? = some c → isDigit c = false ∧ c ≠ '.') :
    parseFloat (t ++ r) = (exponent r).map fun e => x * tenTo e := by
  have hs : strip (t ++ r) = t ++ r := strip_id fun c hc => by
    rcases List.mem_append.1 hc with hc | hc
    · rcases (numeral_chars h).2 c hc with h | rfl
      · exact digit_not_space h
      · decide +kernel
    · exact hr c hc
  cases h with
  | whole _ h1 h2 =>
    have hd : ∀ c ∈ t, isDigit c = true := fun c hc => isDigit_of_mem (h2 c hc)
    obtain ⟨e1, e2⟩ := takeWhile_stop (p := isDigit) (a := t) (t := r) hd fun c hc => (hh c hc).1
    have hf : fraction r = ([], r) := by
      unfold fraction
      split
      · exact absurd rfl (hh '.' rfl).2
      · rfl
    have hsg : signed (t ++ r) = (1, t ++ r) := signed_id fun c hc => by
      cases t with
      | nil => exact absurd rfl h1
      | cons d ds => simp at hc; subst hc; exact hd _ (by simp)
    simp only [parseFloat, hs, hsg, e1, e2, hf]
    rw [if_neg (by simp [h1])]
    simp [parseDecimal_eq]
  | point ds fs h1 h2 h3 =>
    have hd : ∀ c ∈ ds, isDigit c = true := fun c hc => isDigit_of_mem (h2 c hc)
    have hf : ∀ c ∈ fs, isDigit c = true := fun c hc => isDigit_of_mem (h3 c hc)
    obtain ⟨e1, e2⟩ := takeWhile_stop (p := isDigit) (a := ds) (t := '.' :: (fs ++ r)) hd (by intro c hc; simp at hc; subst hc; decide)
    obtain ⟨e3, e4⟩ := takeWhile_stop (p := isDigit) (a := fs) (t := r) hf fun c hc => (hh c hc).1
    have hsg : signed (ds ++ '.' :: (fs ++ r)) = (1, ds ++ '.' :: (fs ++ r)) := signed_id fun c hc => by
      cases ds with
      | nil => exact absurd rfl h1
      | cons d ds => simp at hc; subst hc; exact hd _ (by simp)
    rw [List.append_assoc, List.cons_append] at hs ⊢
    simp only [parseFloat, hs, hsg, e1, e2, fraction, e3, e4]
    rw [if_neg (by simp [h1])]
    congr 1
    funext e
    rw [tenTo_sub, parseDecimal_eq, digitsValue_append]
    push_cast
    field_simp

theorem parseFloat_numeral {t : Str} {x : Rat} (h : Numeral t x) : parseFloat t = some x := by
  have := parseFloat_then (r := []) h (by simp) (by simp)
  simpa [exponent, tenTo] using this

theorem exponent_power {w : Str} {y : Rat} (h : Power w y) : (∃ e, exponent w = some e ∧ tenTo e = y) ∧ (∀ c ∈ w, isSpace c = false) ∧
    (∀ c, w.head? = some c → isDigit c = false ∧ c ≠ '.') ∧ ∃ c, w.getLast? = some c ∧ isDigit c = true := by
  have last : ∀ {u ds : Str}, ds ≠ [] → (∀ d ∈ ds, d ∈ c!"0123456789") → ∃ c, (u ++ ds).getLast? = some c ∧ isDigit c = true := by
    intro u ds h1 h2
    rw [List.getLast?_append]
    cases h : ds.getLast? with
    | none => simp at h; exact absurd h h1
    | some c => exact ⟨c, rfl, isDigit_of_mem (h2 c (List.mem_of_mem_getLast? h))⟩
  have sp : ∀ {c : Char}, c ∈ c!"eE" → isSpace c = false ∧ isDigit c = false ∧ c ≠ '.' ∧ (c = 'e' ∨ c = 'E') := by
    intro c hc
    simp only [List.mem_cons, List.not_mem_nil, or_false] at hc
    rcases hc with rfl | rfl <;> decide +kernel
  have dsp : ∀ {ds : Str}, (∀ d ∈ ds, d ∈ c!"0123456789") → ∀ c ∈ ds, isSpace c = false := fun h c hc => digit_not_space (isDigit_of_mem (h c hc))
  have all : ∀ {ds : Str}, (∀ d ∈ ds, d ∈ c!"0123456789") → ds.all isDigit = true := fun h => List.all_eq_true.2 fun c hc => isDigit_of_mem (h c hc)
  cases h with
  | plain c ds hc h1 h2 =>
    obtain ⟨s1, s2, s3, s4⟩ := sp hc
    refine ⟨⟨digitsValue ds, ?_, ?_⟩, ?_, ?_, by simpa using last (u := [c]) h1 h2⟩
    · have hsg : signed ds = (1, ds) := signed_id fun c hc => isDigit_of_mem (h2 c (List.mem_of_mem_head? hc))
      simp only [exponent, s4, if_true, hsg, ne_eq, h1, not_false_eq_true, true_and, all h2, parseDecimal_eq]
      simp
    · simp [tenTo]
    · intro d hd
      rcases List.mem_cons.1 hd with rfl | hd
      · exact s1
      · exact dsp h2 d hd
    · intro d hd; simp at hd; subst hd; exact ⟨s2, s3⟩
  | plus c ds hc h1 h2 =>
    obtain ⟨s1, s2, s3, s4⟩ := sp hc
    refine ⟨⟨digitsValue ds, ?_, ?_⟩, ?_, ?_, by simpa using last (u := [c, '+']) h1 h2⟩
    · simp only [exponent, s4, if_true, signed, ne_eq, h1, not_false_eq_true, true_and, all h2, parseDecimal_eq]
      simp
    · simp [tenTo]
    · intro d hd
      rcases List.mem_cons.1 hd with rfl | hd
      · exact s1
      · rcases List.mem_cons.1 hd with rfl | hd
        · decide +kernel
        · exact dsp h2 d hd
    · intro d hd; simp at hd; subst hd; exact ⟨s2, s3⟩
  | minus c ds hc h1 h2 =>
    obtain ⟨s1, s2, s3, s4⟩ := sp hc
    refine ⟨⟨-digitsValue ds, ?_, ?_⟩, ?_, ?_, by simpa using last (u := [c, '-']) h1 h2⟩
    · simp only [exponent, s4, if_true, signed, ne_eq, h1, not_false_eq_true, true_and, all h2, parseDecimal_eq]
      simp
    · have := tenTo_sub 0 (digitsValue ds)
      rw [zero_sub] at this
      rw [this]
      simp [tenTo]
    · intro d hd
      rcases List.mem_cons.1 hd with rfl | hd
      · exact s1
      · rcases List.mem_cons.1 hd with rfl | hd
        · decide +kernel
        · exact dsp h2 d hd
    · intro d hd; simp at hd; subst hd; exact ⟨s2, s3⟩

theorem scaled_numeral {t : Str} {x : Rat} (h : Numeral t x) (n : Rat) : scaled t n = .ok (x * n) := by
  simp [scaled, parseFloat_numeral h]

/-- **C32.** An interval means its number times the unit: seconds, minutes, hours, days or weeks,
and minutes when there is no unit letter. -/
theorem C32_units {t u : Str} {x n : Rat} (ht : Numeral t x) (hu : Unit u n) :
    genTimeInterval (t ++ u) = .ok (x * n) := by
  cases hu with
  | seconds => simp [genTimeInterval, scaled_numeral ht]
  | minutes => simp [genTimeInterval, scaled_numeral ht]
  | hours => simp [genTimeInterval, scaled_numeral ht]; norm_num
  | days => simp [genTimeInterval, scaled_numeral ht]; norm_num
  | weeks => simp [genTimeInterval, scaled_numeral ht]; norm_num
  | default =>
    obtain ⟨hne, hch⟩ := numeral_chars ht
    obtain ⟨c, hc⟩ : ∃ c, t.getLast? = some c := by
      cases h : t.getLast? with
      | none => simp at h; exact absurd h hne
      | some c => exact ⟨c, rfl⟩
    have hcc : isDigit c = true ∨ c = '.' := hch c (List.mem_of_mem_getLast? hc)
    have : c ≠ 's' ∧ c ≠ 'm' ∧ c ≠ 'h' ∧ c ≠ 'd' ∧ c ≠ 'w' := by
      refine ⟨?_, ?_, ?_, ?_, ?_⟩ <;> rintro rfl <;> revert hcc <;> decide
    simp only [List.append_nil, genTimeInterval, hc, this, if_false]
    exact scaled_numeral ht 60

/-- **C32, powers of ten**: so does one with an exponent, `1.5e3s`. -/
theorem C32_scientific {t w u : Str} {x y n : Rat} (ht : Numeral t x) (hw : Power w y) (hu : Unit u n) :
    genTimeInterval (t ++ w ++ u) = .ok (x * y * n) := by
  obtain ⟨⟨e, h1, h2⟩, h3, h4, c, h5, h6⟩ := exponent_power hw
  have hs : ∀ n, scaled (t ++ w) n = .ok (x * y * n) := by
    intro n
    simp [scaled, parseFloat_then ht h3 h4, h1, h2]
  have hne : w ≠ [] := by rintro rfl; simp at h5
  cases hu with
  | seconds => rw [genTimeInterval]; simp [-List.append_assoc, hs]
  | minutes => rw [genTimeInterval]; simp [-List.append_assoc, hs]
  | hours => rw [genTimeInterval]; simp [-List.append_assoc, hs]; norm_num
  | days => rw [genTimeInterval]; simp [-List.append_assoc, hs]; norm_num
  | weeks => rw [genTimeInterval]; simp [-List.append_assoc, hs]; norm_num
  | default =>
    have : c ≠ 's' ∧ c ≠ 'm' ∧ c ≠ 'h' ∧ c ≠ 'd' ∧ c ≠ 'w' := by
      refine ⟨?_, ?_, ?_, ?_, ?_⟩ <;> rintro rfl <;> revert h6 <;> decide
    have hl : (t ++ w).getLast? = some c := by rw [List.getLast?_append, h5]; rfl
    simp only [List.append_nil, genTimeInterval, hl, this, if_false]
    exact hs 60

example : Power c!"e-3" (1 / 10 ^ 3) := by
  have := Power.minus 'e' c!"3" (by decide) (by decide) (by decide)
  simpa [digitsValue] using this

/-- **C32, order**: with the same unit, a longer interval has a larger value. -/
theorem C32_monotone {t t' u : Str} {x x' n : Rat} (ht : Numeral t x) (ht' : Numeral t' x') (hu : Unit u n) :
    ∃ a b, genTimeInterval (t ++ u) = .ok a ∧ genTimeInterval (t' ++ u) = .ok b ∧ (a < b ↔ x < x') := by
  refine ⟨_, _, C32_units ht hu, C32_units ht' hu, ?_⟩
  have hn : 0 < n := by cases hu <;> norm_num
  exact mul_lt_mul_iff_left₀ hn

/-- **C32, other texts**: the empty text and a unit letter alone are errors. -/
theorem C32_errors {u : Str} {n : Rat} (hu : Unit u n) : ∃ e, genTimeInterval u = .error e := by
  cases hu <;> exact ⟨_, rfl⟩

/-- **C32, in a placeholder**: `$*15m*name` refreshes after exactly that interval, and nothing of
what follows the token is taken. -/
theorem C32_cache_token {t u : Str} {x n : Rat} (ht : Numeral t x) (hu : Unit u n) (rest : Str) :
    (readToken (c!"*" ++ t ++ u ++ c!"*" ++ rest)).2 = rest ∧
    genCacheInfo (readToken (c!"*" ++ t ++ u ++ c!"*" ++ rest)).1 = .ok (.refresh (x * n)) := by
  obtain ⟨hne, hch⟩ := numeral_chars ht
  have hp : ∀ c ∈ t, (isDigit c || c == '.') = true := fun c hc => by
    rcases hch c hc with h | h <;> simp [h]
  have key : matchRefresh (c!"*" ++ t ++ u ++ c!"*" ++ rest) = some (t ++ u, rest) := by
    have st : ∀ c, (u ++ '*' :: rest).head? = some c → (isDigit c || c == '.') = false := by
      intro c hc
      cases hu <;> simp at hc <;> subst hc <;> decide
    obtain ⟨e1, e2⟩ := takeWhile_stop hp st
    have e : c!"*" ++ t ++ u ++ c!"*" ++ rest = '*' :: (t ++ (u ++ '*' :: rest)) := by simp
    rw [e]
    simp only [matchRefresh, e1, e2]
    cases hu <;> simp [unitLetter, hne]
  simp only [readToken, key, genCacheInfo, C32_units ht hu]
  exact ⟨trivial, rfl⟩

/-- **C32, in a placeholder**: `$*name` (a star that no number follows) is cached for good, and nothing but the star is taken. -/
theorem C32_static_token (rest : Str) (h : ∀ c, rest.head? = some c → c ∉ c!"0123456789.") :
    readToken (c!"*" ++ rest) = (.static, rest) ∧ genCacheInfo .static = .ok .static := by
  have hp : ∀ c, rest.head? = some c → (isDigit c || c == '.') = false := by
    intro c hc
    have h1 := h c hc
    simp only [Bool.or_eq_false_iff, beq_eq_false_iff_ne]
    refine ⟨?_, fun e => h1 (by subst e; decide)⟩
    cases hd : isDigit c with
    | false => rfl
    | true => exact absurd (digit_mem hd) fun h2 => h1 (by simp only [List.mem_cons] at h2 ⊢; tauto)
  obtain ⟨e1, -⟩ := takeWhile_stop (a := []) (t := rest) (p := fun c => isDigit c || c == '.') (by simp) hp
  have key : matchRefresh (c!"*" ++ rest) = none := by
    simp only [List.nil_append] at e1
    simp only [List.cons_append, List.nil_append, matchRefresh, e1]
    split <;> rfl
  simp only [readToken, key]
  exact ⟨rfl, rfl⟩

/-- **C32, in a placeholder**: without a star there is no caching and nothing is taken. -/
theorem C32_no_token (rest : Str) (h : rest.head? ≠ some '*') : readToken rest = (.none, rest) ∧ genCacheInfo .none = .ok .empty := by
  have key : matchRefresh rest = none := by
    unfold matchRefresh
    split
    · exact absurd rfl h
    · rfl
  refine ⟨?_, rfl⟩
  unfold readToken
  simp only [key]
  split
  · exact absurd rfl h
  · rfl

example : (c!"name" : Str).head? ≠ some '*' ∧ ∀ c, (c!"*name" : Str).head? = some c → c ∉ c!"0123456789." := by
  refine ⟨by decide, fun c hc => ?_⟩
  cases hc
  decide

/-- **C32, in `#cache`**: `timer='...'` sets the interval, quotes or not, whatever other
arguments there are, if no later argument sets it again. -/
theorem C32_cache_directive {t u : Str} {x n : Rat} (ht : Numeral t x) (hu : Unit u n) (q : Char)
    (hq : q = '"' ∨ q = '\'') (before after : List (Str × Str)) (d : Str → Option Val)
    (hb : ∀ a ∈ after, a.1 ≠ c!"timer" ∧ a.1 ≠ c!"interval")
    (h : fromArgList (before ++ (c!"timer", [q] ++ (t ++ u) ++ [q]) :: after) = .ok d) :
    d c!"interval" = some (.num (x * n)) := by
  have keep : ∀ (after : List (Str × Str)) (d d' : Str → Option Val),
      (∀ a ∈ after, a.1 ≠ c!"timer" ∧ a.1 ≠ c!"interval") →
      after.foldlM (fun d a => addArg d a.1 a.2) d = .ok d' → d' c!"interval" = d c!"interval" := by
    intro after
    induction after with
    | nil => intro d d' _ h; simp [pure, Except.pure] at h; rw [h]
    | cons a after ih =>
      intro d d' hb h
      obtain ⟨h1, h2⟩ := hb a (by simp)
      simp only [List.foldlM_cons] at h
      cases hu : unquote a.2 with
      | error e => simp [addArg, hu, bind, Except.bind] at h
      | ok v =>
        simp only [addArg, hu, bind, Except.bind, h1, if_false, pure, Except.pure] at h
        rw [ih _ _ (fun b hb' => hb b (by simp [hb'])) h]
        simp [put, Ne.symm h2]
  unfold fromArgList at h
  rw [List.foldlM_append] at h
  cases hd0 : List.foldlM (fun d a => addArg d a.1 a.2) (put (fun _ => Option.none) c!"type" .refreshCache) before with
  | error e => rw [hd0] at h; simp [bind, Except.bind] at h
  | ok d0 =>
    rw [hd0] at h
    have hun : unquote ([q] ++ (t ++ u) ++ [q]) = .ok (t ++ u) := by
      simp only [List.cons_append, List.nil_append, unquote]
      rw [if_pos hq]
      simp [← List.append_assoc]
    simp only [List.foldlM_cons, bind, Except.bind, addArg, hun, if_true, C32_units ht hu, pure, Except.pure] at h
    have := keep _ _ _ hb h
    rw [this]; simp [put]

/-- **C32, the expiry** - the full claim is that a cached text expires its interval after it was
computed. Proved: for every interval but zero. -/
theorem C32_expiry_partial {x : Rat} (h : x ≠ 0) : expiry (some x) = some x := by simp [expiry, h]

/-- An interval of zero is taken as no interval: the text is cached for ever instead of not at all. -/
theorem C32_zero_interval_counterexample :
    (readToken c!"*0s*x").1 = .refresh c!"0s" ∧ genTimeInterval c!"0s" = .ok 0 ∧ expiry (some 0) = none := by
  refine ⟨by decide +kernel, ?_, by simp [expiry]⟩
  have := C32_units (Numeral.whole c!"0" (by decide) (by decide)) Unit.seconds
  simpa [digitsValue] using this

/-- A number with two points is accepted in a cache token and fails in the compiler. -/
theorem C32_two_points_counterexample :
    (readToken c!"*1.2.3*x").1 = .refresh c!"1.2.3" ∧ genTimeInterval c!"1.2.3" = .error .valueError := by
  decide +kernel

example : Numeral c!"2.5" (2 + 5 / 10) ∧ Unit c!"h" 3600 := by
  refine ⟨?_, .hours⟩
  have := Numeral.point c!"2" c!"5" (by decide) (by decide) (by decide)
  simpa [digitsValue] using this
example : Numeral c!"30" 30 := by
  have := Numeral.whole c!"30" (by decide) (by decide)
  simpa [digitsValue] using this

end Cheetah.Interval
