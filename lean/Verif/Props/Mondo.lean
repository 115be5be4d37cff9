import Verif.Mondo
/-
C55: Roman numerals.  C56: paging a report.  C62: the statistics of a record.
-/
namespace Cheetah.Mondo

/-! ### Specification of numerals -/

/-- The value of a Roman digit. -/
def digitValue : Char → Nat
  | 'I' => 1 | 'V' => 5 | 'X' => 10 | 'L' => 50 | 'C' => 100 | 'D' => 500 | 'M' => 1000
  | _ => 0

/-- The value of a numeral: a digit before a larger one counts negatively. -/
def numeralValue : Str → Int
  | [] => 0
  | [c] => digitValue c
  | c :: d :: s =>
    (if digitValue c < digitValue d then -(digitValue c : Int) else digitValue c) + numeralValue (d :: s)

/-- The customary numeral of a decimal digit, from the letters for one, five and ten. -/
def digitNumeral (one five ten : Char) : Nat → Str
  | 0 => []
  | 1 => [one]
  | 2 => [one, one]
  | 3 => [one, one, one]
  | 4 => [one, five]
  | 5 => [five]
  | 6 => [five, one]
  | 7 => [five, one, one]
  | 8 => [five, one, one, one]
  | 9 => [one, ten]
  | _ => []

/-- The customary numeral below 1000. -/
def numeralBelow1000 (n : Nat) : Str :=
  digitNumeral 'C' 'D' 'M' (n / 100) ++ digitNumeral 'X' 'L' 'C' (n / 10 % 10) ++ digitNumeral 'I' 'V' 'X' (n % 10)

/-! ### C55 -/

theorem strokes_eq (step : Nat) (c : Char) (hs : 0 < step) : ∀ (fuel n : Nat) (roman : Str), n ≤ fuel →
    strokes step c fuel n roman = (roman ++ List.replicate (n / step) c, n % step)
  | 0, n, roman, h => by
    have : n = 0 := by omega
    subst this
    simp [strokes]
  | fuel + 1, n, roman, h => by
    rw [strokes]
    by_cases hn : n ≥ step
    · rw [if_pos hn, strokes_eq step c hs fuel (n - step) _ (by omega)]
      have e1 : n / step = (n - step) / step + 1 := by
        rw [Nat.div_eq_sub_div hs hn]
      have e2 : (n - step) % step = n % step := (Nat.mod_eq_sub_mod hn).symm
      rw [e1, e2, List.replicate_succ]
      simp
    · rw [if_neg hn, Nat.div_eq_of_lt (by omega), Nat.mod_eq_of_lt (by omega)]
      simp

theorem strokeLoop_eq (step : Nat) (c : Char) (hs : 0 < step) (s : Str) (n : Nat) :
    strokeLoop step c (s, n) = (s ++ List.replicate (n / step) c, n % step) :=
  strokes_eq step c hs n n s (Nat.le_refl n)

theorem additive_eq (n : Nat) : additive n = List.replicate (n / 1000) 'M' ++ additive (n % 1000) := by
  simp only [additive, strokeLoop_eq, Nat.lt_irrefl, Nat.reduceLT, List.nil_append]
  have : n % 1000 / 1000 = 0 := Nat.div_eq_of_lt (Nat.mod_lt _ (by decide))
  simp [this, Nat.mod_mod]

theorem replaceStr_skip (pat by_ : Str) (p : Char) (hp : p ≠ 'M') (hpat : pat.head? = some p) :
    ∀ (k : Nat) (s : Str), replaceStr pat by_ (List.replicate k 'M' ++ s) = List.replicate k 'M' ++ replaceStr pat by_ s
  | 0, s => by simp
  | k + 1, s => by
    have ih := replaceStr_skip pat by_ p hp hpat k s
    cases pat with
    | nil => simp at hpat
    | cons q ps =>
      simp only [List.head?_cons, Option.some.injEq] at hpat
      subst hpat
      simp only [replaceStr, List.replicate_succ, List.cons_append, List.length_cons, replaceStrAux, stripPrefix?,
        if_neg hp] at ih ⊢
      rw [ih]

theorem replacements_skip : ∀ (rs : List (Str × Str)), (∀ r ∈ rs, ∃ p, p ≠ 'M' ∧ r.1.head? = some p) → ∀ (k : Nat) (s : Str),
    rs.foldl (fun s r => replaceStr r.1 r.2 s) (List.replicate k 'M' ++ s) =
      List.replicate k 'M' ++ rs.foldl (fun s r => replaceStr r.1 r.2 s) s
  | [], _, k, s => rfl
  | r :: rs, h, k, s => by
    obtain ⟨p, hp, hr⟩ := h r (by simp)
    simp only [List.foldl_cons]
    rw [replaceStr_skip r.1 r.2 p hp hr, replacements_skip rs (fun r hr => h r (by simp [hr]))]

/-- Every residue modulo 1000 (the whole domain of the part after the `M`s). -/
theorem small_numerals : ∀ m < 1000,
    replacements.foldl (fun s r => replaceStr r.1 r.2 s) (additive m) = numeralBelow1000 m ∧
    numeralValue (numeralBelow1000 m) = m := by decide +kernel

theorem value_M (s : Str) : ∀ k, numeralValue (List.replicate k 'M' ++ s) = 1000 * k + numeralValue s
  | 0 => by simp
  | k + 1 => by
    have ih := value_M s k
    have hM : digitValue 'M' = 1000 := rfl
    have hle : ∀ c, digitValue c ≤ 1000 := by
      intro c; unfold digitValue; split <;> omega
    have hcons : ∀ t : Str, numeralValue ('M' :: t) = 1000 + numeralValue t := by
      intro t
      cases t with
      | nil => simp [numeralValue, hM]
      | cons d t =>
        rw [numeralValue, hM, if_neg (by have := hle d; omega)]
        rfl
    rw [List.replicate_succ, List.cons_append, hcons, ih]
    push_cast
    omega

/-- C55: for every positive `n` the result is one `M` per thousand followed by the customary
numerals of the hundreds, tens and ones, and its value is `n`; otherwise an error is raised. -/
theorem C55_roman (n : Int) :
    (n ≥ 1 → Roman n = .ok (List.replicate (n.toNat / 1000) 'M' ++ numeralBelow1000 (n.toNat % 1000))) ∧
    (n < 1 → Roman n = .error .typeError) := by
  refine ⟨fun h => ?_, fun h => by rw [Roman, if_pos h]⟩
  rw [Roman, if_neg (by omega), additive_eq, replacements_skip]
  · rw [(small_numerals _ (Nat.mod_lt _ (by decide))).1]
  · intro r hr
    simp only [replacements, List.mem_cons, List.not_mem_nil, or_false] at hr
    rcases hr with rfl | rfl | rfl | rfl | rfl | rfl
    all_goals exact ⟨_, by decide, rfl⟩

/-- C55: the value of the numeral is the number. -/
theorem C55_value (n : Int) (h : n ≥ 1) : ∃ s, Roman n = .ok s ∧ numeralValue s = n := by
  refine ⟨_, (C55_roman n).1 h, ?_⟩
  rw [value_M, (small_numerals _ (Nat.mod_lt _ (by decide))).2]
  omega

example : Roman 1994 = .ok c!"MCMXCIV" ∧ numeralValue c!"MCMXCIV" = 1994 := by decide +kernel

/-- C55: different numbers get different numerals. -/
theorem C55_injective (m n : Int) (hm : m ≥ 1) (hn : n ≥ 1) (h : Roman m = Roman n) : m = n := by
  obtain ⟨s, hs, vs⟩ := C55_value m hm
  obtain ⟨t, ht, vt⟩ := C55_value n hn
  rw [hs, ht] at h
  injection h with h
  rw [← vs, ← vt, h]

/-! ### C56 -/

variable {α : Type}

theorem pyGet_nat (l : List α) (i : Nat) : pyGet l i = match l[i]? with
    | some a => .ok a
    | none => .error .indexError := by
  unfold pyGet
  rw [if_neg (by omega : ¬ (i : Int) < 0)]
  rw [if_neg (by omega : ¬ (i : Int) < 0)]
  simp
  rfl

theorem mkStats_nat (l : List α) (i : Nat) (a : α) (h : l[i]? = some a) :
    mkStats l i = .ok ⟨l, i, i + 1, a⟩ := by
  simp [mkStats, pyGet_nat, h]

theorem pageLoop_ok (l slice : List α) (s : Nat) (hsl : ∀ i, i < slice.length → slice[i]? = l[s + i]?) :
    ∀ (n rel : Nat), rel + n = slice.length → ∃ r, pageLoop l slice (s : Int) n rel = .ok r ∧ r.length = n ∧
      ∀ i x, r[i]? = some x → l[s + rel + i]? = some x.1 ∧
        x.2.1 = ⟨l, (s + rel + i : Nat), (s + rel + i + 1 : Nat), x.1⟩ ∧
        x.2.2 = ⟨slice, (rel + i : Nat), (rel + i + 1 : Nat), x.1⟩
  | 0, rel, h => ⟨[], rfl, rfl, by simp⟩
  | n + 1, rel, h => by
    obtain ⟨rest, e, hlen, hrest⟩ := pageLoop_ok l slice s hsl n (rel + 1) (by omega)
    have hlt : rel < slice.length := by omega
    have h1 : slice[rel]? = some slice[rel] := List.getElem?_eq_getElem hlt
    have h2 : l[s + rel]? = some slice[rel] := by rw [← hsl rel hlt, h1]
    refine ⟨(slice[rel], ⟨l, (s + rel : Nat), (s + rel + 1 : Nat), slice[rel]⟩, ⟨slice, (rel : Nat), (rel + 1 : Nat), slice[rel]⟩) :: rest, ?_, by simp [hlen], ?_⟩
    · have e1 : (s : Int) + (rel : Int) = ((s + rel : Nat) : Int) := by omega
      rw [pageLoop, pyGet_nat, h1]
      simp only [e1, mkStats_nat l (s + rel) _ h2, mkStats_nat slice rel _ h1, e]
      rfl
    · intro i x hx
      cases i with
      | zero =>
        simp only [List.getElem?_cons_zero, Option.some.injEq] at hx
        subst hx
        exact ⟨h2, rfl, rfl⟩
      | succ i =>
        rw [List.getElem?_cons_succ] at hx
        obtain ⟨a, b, c⟩ := hrest i x hx
        have e1 : s + (rel + 1) + i = s + rel + (i + 1) := by omega
        have e2 : rel + 1 + i = rel + (i + 1) := by omega
        rw [e1] at a b
        rw [e2] at c
        exact ⟨a, b, c⟩

theorem pyGet_error {l : List α} {i : Int} {e : Err} (h : pyGet l i = .error e) : e = .indexError := by
  unfold pyGet at h
  dsimp only at h
  generalize (if i < 0 then i + (l.length : Int) else i) = j at h
  split at h
  · injection h with h; exact h.symm
  · split at h
    · cases h
    · injection h with h; exact h.symm

theorem mkStats_error {l : List α} {i : Int} {e : Err} (h : mkStats l i = .error e) : e = .indexError := by
  unfold mkStats at h
  split at h
  · cases h
  · rename_i e' he; injection h with h; rw [← h]; exact pyGet_error he

theorem pageLoop_error (l slice : List α) (s : Int) : ∀ (n rel : Nat), rel ≤ slice.length → slice.length < rel + n →
    pageLoop l slice s n rel = .error .indexError
  | 0, rel, h, h' => by omega
  | n + 1, rel, h, h' => by
    rw [pageLoop]
    cases h1 : pyGet slice rel with
    | error e => simp only [pyGet_error h1]
    | ok r =>
      have hlt : rel < slice.length := by
        rw [pyGet_nat] at h1
        split at h1
        · rename_i a ha; exact (List.getElem?_eq_some_iff.mp ha).1
        · cases h1
      dsimp only
      cases h2 : mkStats l (s + rel) with
      | error e => simp only [mkStats_error h2]
      | ok a =>
        dsimp only
        cases h3 : mkStats slice rel with
        | error e => simp only [mkStats_error h3]
        | ok b =>
          dsimp only
          rw [pageLoop_error l slice s n (rel + 1) (by omega) (by omega)]

theorem slice_eq (l : List α) (s n : Nat) :
    sliceFrom l s (min ((s : Int) + n) l.length) = (l.drop s).take n := by
  unfold sliceFrom
  dsimp only
  rw [if_neg (by omega : ¬ min ((s : Int) + n) l.length < 0)]
  by_cases h : s + n ≤ l.length
  · have : (min ((s : Int) + n) l.length - s).toNat = n := by omega
    rw [this]; rfl
  · by_cases h2 : s ≤ l.length
    · have : (min ((s : Int) + n) l.length - s).toNat = l.length - s := by omega
      rw [this]
      have h3 : (l.drop s).length = l.length - s := List.length_drop
      have e : ((s : Int)).toNat = s := by omega
      rw [e, ← h3, List.take_length, List.take_of_length_le (by omega)]
    · have h3 : l.drop s = [] := List.drop_eq_nil_of_le (by omega)
      have e : ((s : Int)).toNat = s := by omega
      rw [e, h3]; simp

/-- C56: when `size` records exist from `start` on (a negative `start` counts as 0), the
page lists exactly these, in order, each with its statistics within the whole list and
within the page. -/
theorem C56_page (l : List α) (size : Nat) (start : Int) (h : (max 0 start).toNat + size ≤ l.length) :
    ∃ r : List (α × RecordStats α × RecordStats α), page l size start = .ok r ∧ r.map (·.1) = (l.drop (max 0 start).toNat).take size ∧
      ∀ (i : Nat) (x : α × RecordStats α × RecordStats α), r[i]? = some x →
        x.2.1 = ⟨l, (max 0 start).toNat + i, (max 0 start).toNat + i + 1, x.1⟩ ∧
        x.2.2 = ⟨(l.drop (max 0 start).toNat).take size, i, i + 1, x.1⟩ := by
  generalize hs : (max 0 start).toNat = s at h ⊢
  have hs' : max 0 start = (s : Int) := by omega
  have hlen : ((l.drop s).take size).length = size := by
    rw [List.length_take, List.length_drop]; omega
  obtain ⟨r, e, hr, hx⟩ := pageLoop_ok l ((l.drop s).take size) s (by
    intro i hi
    rw [List.getElem?_take, if_pos (by omega), List.getElem?_drop]) size 0 (by omega)
  refine ⟨r, ?_, ?_, ?_⟩
  · simp only [page, hs', slice_eq]
    exact e
  · apply List.ext_getElem?
    intro i
    rw [List.getElem?_map, List.getElem?_take, List.getElem?_drop]
    by_cases hi : i < size
    · rw [if_pos hi]
      have : i < r.length := by omega
      rw [List.getElem?_eq_getElem this, Option.map_some]
      have := (hx i _ (List.getElem?_eq_getElem this)).1
      simpa using this.symm
    · rw [if_neg hi, List.getElem?_eq_none_iff.mpr (by omega), Option.map_none]
  · intro i x hix
    obtain ⟨_, b, c⟩ := hx i x hix
    refine ⟨?_, ?_⟩
    · rw [b]; simp
    · rw [c]; simp

example : page [10, 20, 30, 40] 2 1 = .ok [(20, ⟨[10, 20, 30, 40], 1, 2, 20⟩, ⟨[20, 30], 0, 1, 20⟩),
    (30, ⟨[10, 20, 30, 40], 2, 3, 30⟩, ⟨[20, 30], 1, 2, 30⟩)] := by decide

/-- C56: when fewer records are left, an IndexError is raised, and nothing is returned. -/
theorem C56_page_too_long (l : List α) (size : Nat) (start : Int) (h0 : 0 < size)
    (h : l.length < (max 0 start).toNat + size) : page l size start = .error .indexError := by
  generalize hs : (max 0 start).toNat = s at h
  have hs' : max 0 start = (s : Int) := by omega
  simp only [page, hs', slice_eq]
  refine pageLoop_error l _ s size 0 (by omega) ?_
  rw [List.length_take, List.length_drop]; omega

example : page [10, 20, 30] 2 2 = .error .indexError := by decide

/-- C56: a size of zero or less gives the empty page, and non-zero overlap or orphan is
refused. -/
theorem C56_page_other (l : List α) (size start overlap orphan : Int) :
    (size ≤ 0 → page l size start = .ok []) ∧
    (overlap ≠ 0 ∨ orphan ≠ 0 → page l size start overlap orphan = .error .notImplemented) := by
  constructor
  · intro h
    have : size.toNat = 0 := by omega
    simp [page, this, pageLoop]
  · rintro h
    unfold page
    by_cases h1 : overlap ≠ 0
    · rw [if_pos h1]
    · rw [if_neg h1, if_pos (by rcases h with h | h; exact absurd h h1; exact h)]

/-- C56: the pages of a dividing size cover the list, every record once and in order. -/
theorem C56_pages_cover (l : List α) (size k : Nat) (h : l.length = k * size) :
    ∃ pages : List (List (α × RecordStats α × RecordStats α)), pages.length = k ∧
      (∀ i p, pages[i]? = some p → page l size ((i * size : Nat) : Int) = .ok p) ∧
      (pages.map (·.map (·.1))).flatten = l := by
  have main : ∀ j, j ≤ k → ∃ pages : List (List (α × RecordStats α × RecordStats α)), pages.length = j ∧
      (∀ i p, pages[i]? = some p → page l size ((i * size : Nat) : Int) = .ok p) ∧
      (pages.map (·.map (·.1))).flatten = l.take (j * size) := by
    intro j
    induction j with
    | zero => intro _; exact ⟨[], rfl, by simp, by simp⟩
    | succ j ih =>
      intro hj
      obtain ⟨ps, h1, h2, h3⟩ := ih (by omega)
      have hle : j * size + size ≤ l.length := by
        have := Nat.mul_le_mul_right size hj
        rw [Nat.succ_mul] at this
        omega
      have e : (max (0 : Int) ((j * size : Nat) : Int)).toNat = j * size := by omega
      obtain ⟨r, a, b, _⟩ := C56_page l size ((j * size : Nat) : Int) (by rw [e]; exact hle)
      refine ⟨ps ++ [r], by simp [h1], ?_, ?_⟩
      · intro i p hp
        by_cases hi : i < ps.length
        · rw [List.getElem?_append_left hi] at hp; exact h2 i p hp
        · rw [List.getElem?_append_right (by omega)] at hp
          have : i - ps.length = 0 := by
            have := (List.getElem?_eq_some_iff.mp hp).1
            simp at this
            omega
          rw [this] at hp
          have hij : i = j := by omega
          simp at hp
          rw [hij, ← hp]; exact a
      · rw [e] at b
        simp only [List.map_append, List.flatten_append, h3, List.map_cons, List.map_nil, b]
        rw [Nat.succ_mul, List.take_add]
        simp
  obtain ⟨ps, h1, h2, h3⟩ := main k (Nat.le_refl k)
  exact ⟨ps, h1, h2, by rw [h3, ← h, List.take_length]⟩

/-- C56: `all()` is one page with every record. -/
theorem C56_all (l : List α) : ∃ r, all l = .ok r ∧ r.map (·.1) = l := by
  obtain ⟨r, a, b, _⟩ := C56_page l l.length 0 (by simp)
  exact ⟨r, a, by simpa using b⟩

/-! ### C62 -/

/-- C62: what the statistics object of record number `i` (from 0) says: position, first,
last, parity. -/
theorem C62_position (l : List α) (i : Nat) (a : α) (h : l[i]? = some a) :
    ∃ r, mkStats l i = .ok r ∧ r.item = a ∧ r.number = i + 1 ∧ r.length = l.length ∧
      (r.first = true ↔ i = 0) ∧ (r.last = true ↔ i + 1 = l.length) ∧
      (r.even = true ↔ (i + 1) % 2 = 0) ∧ (r.odd = true ↔ (i + 1) % 2 = 1) ∧
      (r.even_i = true ↔ i % 2 = 0) ∧ (r.odd_i = true ↔ i % 2 = 1) := by
  have hi := (List.getElem?_eq_some_iff.mp h).1
  refine ⟨_, mkStats_nat l i a h, rfl, rfl, rfl, ?_⟩
  simp only [RecordStats.first, RecordStats.last, RecordStats.even, RecordStats.odd, RecordStats.even_i,
    RecordStats.odd_i, decide_eq_true_eq, Bool.not_eq_true', decide_eq_false_iff_not]
  omega

/-- C62: the letter of one of the first 26 records is the letter of the alphabet with that
position. -/
theorem C62_letter (l : List α) (i : Nat) (a : α) (h : l[i]? = some a) (hi : i < 26) :
    ∃ r, mkStats l i = .ok r ∧ some r.Letter = "ABCDEFGHIJKLMNOPQRSTUVWXYZ".toList[i]? := by
  refine ⟨_, mkStats_nat l i a h, ?_⟩
  have key : ∀ j : Fin 26, some (Char.ofNat ('A'.toNat + j.val)) =
      "ABCDEFGHIJKLMNOPQRSTUVWXYZ".toList[j.val]? := by decide
  simpa [RecordStats.Letter] using key ⟨i, hi⟩

example : ∃ r, mkStats [10, 20, 30] 2 = .ok r ∧ r.Letter = 'C' := ⟨_, rfl, by decide⟩

/-- C62: `lastValue` tells the records after which the value changes, including the last. -/
theorem C62_lastValue {κ : Type} [DecidableEq κ] (l : List α) (key : α → κ) (i : Nat) (a : α) (h : l[i]? = some a) :
    ∃ r, mkStats l i = .ok r ∧
      r.lastValue key = .ok (decide (∀ b, l[i + 1]? = some b → key a ≠ key b)) := by
  refine ⟨_, mkStats_nat l i a h, ?_⟩
  simp only [RecordStats.lastValue, RecordStats.firstOrLastValue, pyGet_nat, h]
  have e : (i : Int) + 1 = ((i + 1 : Nat) : Int) := by omega
  rw [e, pyGet_nat]
  cases hn : l[i + 1]? with
  | none => simp
  | some b => simp

/-- C62: `firstValue` tells the records before which the value changes, for every record but
the first. Missing: the first record, see `C62_firstValue_counterexample`. -/
theorem C62_firstValue_partial {κ : Type} [DecidableEq κ] (l : List α) (key : α → κ) (i : Nat) (a b : α)
    (h : l[i + 1]? = some b) (h' : l[i]? = some a) :
    ∃ r, mkStats l ((i + 1 : Nat) : Int) = .ok r ∧ r.firstValue key = .ok (decide (key b ≠ key a)) := by
  refine ⟨_, mkStats_nat l (i + 1) b h, ?_⟩
  have e : ((i + 1 : Nat) : Int) - 1 = (i : Int) := by omega
  simp only [RecordStats.firstValue, RecordStats.firstOrLastValue, e, pyGet_nat, h, h']

/-- C62: the first record is compared with the last one, so `firstValue` is right for it
exactly if the two differ. -/
theorem C62_firstValue_of_first {κ : Type} [DecidableEq κ] (l : List α) (key : α → κ) (a z : α)
    (h : l.head? = some a) (hz : l.getLast? = some z) :
    ∃ r, mkStats l 0 = .ok r ∧ r.firstValue key = .ok (decide (key a ≠ key z)) := by
  have h0 : l[0]? = some a := by rw [← List.head?_eq_getElem?]; exact h
  have hne : l.length ≠ 0 := by
    have := (List.getElem?_eq_some_iff.mp h0).1; omega
  refine ⟨_, mkStats_nat l 0 a h0, ?_⟩
  have g0 : pyGet l ((0 : Nat) : Int) = .ok a := by rw [pyGet_nat, h0]
  have g1 : pyGet l (((0 : Nat) : Int) - 1) = .ok z := by
    unfold pyGet
    have e1 : (if (((0 : Nat) : Int) - 1) < 0 then (((0 : Nat) : Int) - 1) + (l.length : Int) else (((0 : Nat) : Int) - 1)) = ((l.length - 1 : Nat) : Int) := by
      rw [if_pos (by omega)]; omega
    simp only [e1]
    rw [if_neg (by omega)]
    rw [List.getLast?_eq_getElem?] at hz
    simp [hz]
  simp only [RecordStats.firstValue, RecordStats.firstOrLastValue, g0, g1]

/-- C62, violated: in a one-record report, the record is not the first of its value. -/
theorem C62_firstValue_counterexample :
    (mkStats [5] 0).bind (fun r => r.firstValue id) = .ok false ∧
    (mkStats [5] 0).map (fun r => r.first) = .ok true := by decide

/-- C62, violated: `next()` is None for the first record and raises for all others. -/
theorem C62_next_counterexample (l : List α) (i : Nat) (a : α) (h : l[i]? = some a) :
    ∃ r, mkStats l i = .ok r ∧ r.next = if i = 0 then .ok none else .error .indexError := by
  refine ⟨_, mkStats_nat l i a h, ?_⟩
  unfold RecordStats.next
  by_cases hi : i = 0
  · subst hi; simp [RecordStats.length]
  · have hne : ¬ ((i : Int) + (l.length : Int) = (l.length : Int)) := by omega
    rw [if_neg hi]
    refine (if_neg hne).trans ?_
    show Except.map some (mkPrevNext l l.length ((i : Int) + (l.length : Int))) = _
    have e : (i : Int) + (l.length : Int) = ((i + l.length : Nat) : Int) := by omega
    have g : pyGet l ((i : Int) + (l.length : Int)) = .error .indexError := by
      rw [e, pyGet_nat, List.getElem?_eq_none_iff.mpr (by omega)]
    simp only [mkPrevNext, g]
    rfl

/-- C62, violated: `prev()` is None for the first record only; the "previous page" of any other record begins and ends with that
record itself, and is said to begin at a negative index. -/
theorem C62_prev_counterexample (l : List α) (i : Nat) (a : α) (h : l[i]? = some a) :
    ∃ r, mkStats l i = .ok r ∧
      r.prev = .ok (if i = 0 then none else some ⟨((i : Int) - l.length, a), (i, a), l.length⟩) := by
  refine ⟨_, mkStats_nat l i a h, ?_⟩
  have hl := (List.getElem?_eq_some_iff.mp h).1
  unfold RecordStats.prev
  by_cases hi : i = 0
  · subst hi; simp
  · rw [if_neg hi, if_neg (by show ¬ (i : Int) = 0; omega)]
    show Except.map some (mkPrevNext l l.length ((i : Int) - (l.length : Int))) = _
    have g : pyGet l ((i : Int) - (l.length : Int)) = .ok a := by
      have e : (if (i : Int) - (l.length : Int) < 0 then (i : Int) - (l.length : Int) + (l.length : Int) else (i : Int) - (l.length : Int)) = (i : Int) := by
        rw [if_pos (by omega)]; omega
      have := pyGet_nat l i
      rw [h] at this
      unfold pyGet at this ⊢
      rw [if_neg (by omega)] at this
      simp only [e]
      exact this
    have g2 : pyGet l ((i : Int) - (l.length : Int) + (l.length : Int)) = .ok a := by
      have e : (i : Int) - (l.length : Int) + (l.length : Int) = (i : Int) := by omega
      rw [e, pyGet_nat, h]
    simp only [mkPrevNext, g, g2]
    have e : (i : Int) - (l.length : Int) + (l.length : Int) = (i : Int) := by omega
    rw [e]
    rfl

example : (mkStats [10, 20, 30] 1).bind (fun r => r.prev) = .ok (some ⟨(-2, 20), (1, 20), 3⟩) := by decide

theorem insertSorted_perm (a : Int) : ∀ l, (insertSorted a l).Perm (a :: l)
  | [] => List.Perm.refl _
  | b :: l => by
    rw [insertSorted]
    split
    · exact List.Perm.refl _
    · exact ((insertSorted_perm a l).cons b).trans (List.Perm.swap a b l)

theorem sorted_perm : ∀ l, (sorted l).Perm l
  | [] => List.Perm.refl _
  | a :: l => (insertSorted_perm a (sorted l)).trans ((sorted_perm l).cons a)

theorem insertSorted_pairwise (a : Int) : ∀ l : List Int, l.Pairwise (fun a b => a ≤ b) →
    (insertSorted a l).Pairwise (fun a b => a ≤ b)
  | [], _ => by simp [insertSorted]
  | b :: l, h => by
    obtain ⟨h1, h2⟩ := List.pairwise_cons.mp h
    rw [insertSorted]
    split
    · rename_i hab
      refine List.pairwise_cons.mpr ⟨?_, h⟩
      intro c hc
      rcases List.mem_cons.mp hc with rfl | hc
      · exact hab
      · have := h1 c hc; omega
    · rename_i hab
      refine List.pairwise_cons.mpr ⟨?_, insertSorted_pairwise a l h2⟩
      intro c hc
      rcases List.mem_cons.mp ((insertSorted_perm a l).mem_iff.mp hc) with rfl | hc
      · omega
      · exact h1 c hc

theorem sorted_pairwise : ∀ l : List Int, (sorted l).Pairwise (fun a b => a ≤ b)
  | [] => List.Pairwise.nil
  | a :: l => insertSorted_pairwise a _ (sorted_pairwise l)

/-- C62: `median` is an element that splits the sorted list in two halves, so at most half of
the elements are smaller and fewer than that (rounded up) are larger. -/
theorem C62_median (l : List Int) (h : l ≠ []) :
    ∃ m ∈ l, median l = .ok m ∧ l.countP (· < m) ≤ l.length / 2 ∧
      l.countP (· > m) ≤ l.length - l.length / 2 - 1 := by
  have hlen : 0 < l.length := by
    cases l with
    | nil => exact absurd rfl h
    | cons a l => simp
  obtain ⟨s, hs⟩ : ∃ s, s = sorted l := ⟨_, rfl⟩
  have hperm : s.Perm l := hs ▸ sorted_perm l
  have hsorted : s.Pairwise (fun a b => a ≤ b) := hs ▸ sorted_pairwise l
  have hsl : s.length = l.length := hperm.length_eq
  have hk : l.length / 2 < s.length := by omega
  have hget : s[l.length / 2]? = some s[l.length / 2] := List.getElem?_eq_getElem hk
  refine ⟨s[l.length / 2], hperm.mem_iff.mp (List.getElem_mem hk), ?_, ?_, ?_⟩
  · unfold median
    rw [pyGet_nat, ← hs, hget]
  · rw [← hperm.countP_eq]
    generalize hm : s[l.length / 2] = m
    have hsplit : s = s.take (l.length / 2) ++ m :: s.drop (l.length / 2 + 1) := by
      rw [← hm, ← List.drop_eq_getElem_cons hk, List.take_append_drop]
    rw [hsplit] at hsorted ⊢
    rw [List.countP_append]
    have h1 : (m :: s.drop (l.length / 2 + 1)).countP (· < m) = 0 := by
      rw [List.countP_eq_zero]
      intro a ha
      have := (List.pairwise_append.mp hsorted).2.1
      rcases List.mem_cons.mp ha with rfl | ha
      · simp
      · have := (List.pairwise_cons.mp this).1 a ha
        simp only [decide_eq_true_eq]; omega
    rw [h1]
    have h2 := List.countP_le_length (p := (· < m)) (l := s.take (l.length / 2))
    rw [List.length_take] at h2
    omega
  · rw [← hperm.countP_eq]
    generalize hm : s[l.length / 2] = m
    have hsplit : s = s.take (l.length / 2) ++ m :: s.drop (l.length / 2 + 1) := by
      rw [← hm, ← List.drop_eq_getElem_cons hk, List.take_append_drop]
    have h2 : (s.drop (l.length / 2 + 1)).length = l.length - l.length / 2 - 1 := by
      rw [List.length_drop, hsl]; omega
    rw [hsplit] at hsorted ⊢
    rw [List.countP_append, List.countP_cons]
    have h1 : (s.take (l.length / 2)).countP (· > m) = 0 := by
      rw [List.countP_eq_zero]
      intro a ha
      have := (List.pairwise_append.mp hsorted).2.2 a ha m (by simp)
      simp only [decide_eq_true_eq]; omega
    rw [h1]
    have h3 := List.countP_le_length (p := (· > m)) (l := s.drop (l.length / 2 + 1))
    simp only [gt_iff_lt, Int.lt_irrefl, decide_false] at h3 ⊢
    simp only [Bool.false_eq_true, if_false]
    omega

example : median [3, 1, 2, 5] = .ok 3 := by decide +kernel

end Cheetah.Mondo
