import Verif.ErrorReport
import Verif.Props.SourceReader
/-
C73: error reports show the place of the error.
-/
namespace Cheetah.ErrReport
open Cheetah.Reader

/-! ### Specification -/

/-- The lines of a text: ended by `\n`, `\r\n`, or `\r`, the last one possibly unended. -/
inductive Lines : Str → List Str → Prop
  | none : Lines [] []
  | last (body : Str) : body ≠ [] → (∀ c ∈ body, isEolChar c = false) → Lines body [body]
  | more (body term tail : Str) (ls : List Str) : (∀ c ∈ body, isEolChar c = false) →
      (term = c!"\n" ∨ term = c!"\r\n" ∨ (term = c!"\r" ∧ tail.head? ≠ some '\n')) →
      Lines tail ls → Lines (body ++ term ++ tail) (body :: ls)

/-- The text has no other characters at which Python's `splitlines` breaks a line. -/
def PlainBreaks (s : Str) : Prop := ∀ c ∈ s, Indent.isLineSep c = true → c = '\n' ∨ c = '\r'

/-- The position is the second character of a `\r\n`. -/
def InsideBreak (src : Str) (p : Nat) : Prop := ∃ a b, src = a ++ '\r' :: '\n' :: b ∧ p = a.length + 1

/-- A position in a text: `before` are the complete lines before its line, `left` what precedes it in its line, `right` the rest of its line. -/
structure At (src : Str) (p : Nat) (before left right : Str) : Prop where
  split : ∃ after, src = before ++ left ++ right ++ after ∧
    (after = [] ∨ ∃ c t, after = c :: t ∧ isEolChar c = true)
  pos : p = before.length + left.length
  line : ∀ c ∈ left ++ right, isEolChar c = false
  start : before = [] ∨ ∃ q c, before = q ++ [c] ∧ isEolChar c = true

/-- A row of the table: the number, padded to four places, a bar and the line. -/
def tableRow (lines : List Str) (n : Nat) : Str :=
  decimal n ++ List.replicate (4 - (decimal n).length) ' ' ++ c!"|" ++ (lines[n - 1]?).getD [] ++ c!"\n"

/-- The rows from line `lo` up to line `hi`. -/
def rows (lines : List Str) (lo hi : Nat) : Str :=
  (List.range' lo (hi + 1 - lo)).flatMap (tableRow lines)

/-- The text of a report about line `row` and column `col`. -/
def reportText (msg ext file : Str) (lines : List Str) (row col : Nat) : Str :=
  c!"\n\n" ++ msg ++ c!"\nLine " ++ decimal row ++ c!", column " ++ decimal col ++
    (if file = [] then [] else c!" in file " ++ file) ++
    c!"\n\nLine|Cheetah Code\n----|-------------------------------------------------------------\n" ++
    rows lines (max 2 (row - 3)) (row - 1) ++ tableRow lines row ++
    List.replicate (col + 4) ' ' ++ c!"^\n" ++
    rows lines (row + 1) (min (row + 3) lines.length) ++
    (if ext = [] then [] else ext ++ c!"\n")

/-! ### Lines -/

theorem sep_of_eol {c : Char} (h : isEolChar c = true) : Indent.isLineSep c = true := by
  simp [isEolChar] at h
  rcases h with rfl | rfl <;> decide

theorem PlainBreaks.tail {a b : Str} (h : PlainBreaks (a ++ b)) : PlainBreaks b :=
  fun c hc => h c (by simp [hc])

theorem nosep {s : Str} (h : PlainBreaks s) {c : Char} (hc : c ∈ s) (he : isEolChar c = false) :
    Indent.isLineSep c = false := by
  refine Bool.eq_false_iff.2 fun hs => ?_
  rcases h c hc hs with rfl | rfl <;> simp [isEolChar] at he

theorem splitlines_cons (c : Char) (s : Str) (hs : Indent.isLineSep c = false) (hne : s ≠ []) :
    Indent.splitlines (c :: s) = Indent.consLine c (Indent.splitlines s) := by
  cases s with
  | nil => exact absurd rfl hne
  | cons d s =>
    rw [Indent.splitlines, if_neg, if_neg (by simp [hs])]
    rintro ⟨rfl, _⟩; revert hs; decide

theorem splitlines_term (term tail : Str)
    (ht : term = c!"\n" ∨ term = c!"\r\n" ∨ (term = c!"\r" ∧ tail.head? ≠ some '\n')) :
    Indent.splitlines (term ++ tail) = [] :: Indent.splitlines tail := by
  rcases ht with rfl | rfl | ⟨rfl, h⟩
  · cases tail with
    | nil => decide
    | cons d s =>
      show Indent.splitlines ('\n' :: d :: s) = _
      rw [Indent.splitlines, if_neg (by simp), if_pos (by decide)]
  · show Indent.splitlines ('\r' :: '\n' :: tail) = _
    rw [Indent.splitlines, if_pos ⟨rfl, rfl⟩]
  · cases tail with
    | nil => decide
    | cons d s =>
      show Indent.splitlines ('\r' :: d :: s) = _
      rw [Indent.splitlines, if_neg, if_pos (by decide)]
      rintro ⟨_, rfl⟩; simp at h

theorem splitlines_body (body term tail : Str) (hb : ∀ c ∈ body, Indent.isLineSep c = false)
    (ht : term = c!"\n" ∨ term = c!"\r\n" ∨ (term = c!"\r" ∧ tail.head? ≠ some '\n')) :
    Indent.splitlines (body ++ term ++ tail) = body :: Indent.splitlines tail := by
  induction body with
  | nil => exact splitlines_term term tail ht
  | cons c b ih =>
    have hne : b ++ term ++ tail ≠ [] := by
      rcases ht with rfl | rfl | ⟨rfl, _⟩ <;> simp
    show Indent.splitlines (c :: (b ++ term ++ tail)) = _
    rw [splitlines_cons c _ (hb c (by simp)) hne, ih (fun x hx => hb x (by simp [hx]))]
    rfl

theorem splitlines_last (body : Str) (hne : body ≠ []) (hb : ∀ c ∈ body, Indent.isLineSep c = false) :
    Indent.splitlines body = [body] := by
  induction body with
  | nil => exact absurd rfl hne
  | cons c b ih =>
    cases b with
    | nil => simp [Indent.splitlines, hb c (by simp)]
    | cons d s =>
      rw [splitlines_cons c _ (hb c (by simp)) (by simp), ih (by simp) (fun x hx => hb x (by simp [hx]))]
      rfl

theorem Lines.splitlines {src : Str} {ls : List Str} (h : Lines src ls) (hp : PlainBreaks src) :
    Indent.splitlines src = ls := by
  induction h with
  | none => rfl
  | last body hne hb => exact splitlines_last body hne fun c hc => nosep hp hc (hb c hc)
  | more body term tail ls hb ht _ ih =>
    rw [splitlines_body body term tail (fun c hc => nosep hp (by simp [hc]) (hb c hc)) ht, ih hp.tail]

theorem numTerms_body (body s : Str) (hb : ∀ c ∈ body, isEolChar c = false) :
    numTerms (body ++ s) = numTerms s := by
  induction body with
  | nil => rfl
  | cons c b ih =>
    rw [List.cons_append, numTerms_nonterm c _ (hb c (by simp)), ih fun x hx => hb x (by simp [hx])]

theorem numTerms_line (term s : Str)
    (ht : term = c!"\n" ∨ term = c!"\r\n" ∨ (term = c!"\r" ∧ s.head? ≠ some '\n')) :
    numTerms (term ++ s) = numTerms s + 1 := by
  rcases ht with rfl | rfl | ⟨rfl, h⟩
  · show numTerms ('\n' :: s) = _
    rw [numTerms_term _ _ (by decide) (by intro s' h; exact absurd h (by decide))]; omega
  · show numTerms ('\r' :: '\n' :: s) = _
    rw [numTerms]
  · show numTerms ('\r' :: s) = _
    rw [numTerms_term _ _ (by decide) (by rintro s' _ rfl; simp at h)]; omega

/-- Every position of a text that is not inside a `\r\n` stands in one of its lines. -/
theorem Lines.at {src : Str} {ls : List Str} (h : Lines src ls) : ∀ (p : Nat), p < src.length →
    ¬ InsideBreak src p → ∃ before left right, At src p before left right ∧
      ls[numTerms before]? = some (left ++ right) := by
  induction h with
  | none => intro p hp; simp at hp
  | last body hne hb =>
    intro p hp _
    refine ⟨[], body.take p, body.drop p, ⟨⟨[], by simp, Or.inl rfl⟩, by simp; omega, by simpa using hb, Or.inl rfl⟩, ?_⟩
    simp [numTerms]
  | more body term tail ls hb ht hl ih =>
    intro p hp hin
    have hterm : ∃ c t, term ++ tail = c :: t ∧ isEolChar c = true := by
      rcases ht with rfl | rfl | ⟨rfl, _⟩
      · exact ⟨_, _, rfl, by decide⟩
      · exact ⟨_, _, rfl, by decide⟩
      · exact ⟨_, _, rfl, by decide⟩
    by_cases h1 : p ≤ body.length
    · refine ⟨[], body.take p, body.drop p, ⟨⟨term ++ tail, by simp, Or.inr hterm⟩, by simp; omega,
        by simpa using hb, Or.inl rfl⟩, ?_⟩
      simp [numTerms]
    · by_cases h2 : p < body.length + term.length
      · exfalso
        rcases ht with rfl | rfl | ⟨rfl, _⟩
        · simp at h2; omega
        · simp at h2
          exact hin ⟨body, tail, by simp, by omega⟩
        · simp at h2; omega
      · simp at hp
        obtain ⟨q, rfl⟩ : ∃ q, p = body.length + term.length + q := ⟨p - (body.length + term.length), by omega⟩
        have hq : ¬ InsideBreak tail q := by
          rintro ⟨a, b, rfl, rfl⟩
          exact hin ⟨body ++ term ++ a, b, by simp, by simp; omega⟩
        obtain ⟨before, left, right, ⟨⟨after, hs, ha⟩, hpos, hline, hstart⟩, hget⟩ := ih q (by omega) hq
        refine ⟨body ++ term ++ before, left, right, ⟨⟨after, by rw [hs]; simp, ha⟩, by simp; omega, hline, Or.inr ?_⟩, ?_⟩
        · rcases hstart with rfl | ⟨q', c, rfl, hc⟩
          · rcases ht with rfl | rfl | ⟨rfl, _⟩
            · exact ⟨body, '\n', by simp, by decide⟩
            · exact ⟨body ++ ['\r'], '\n', by simp, by decide⟩
            · exact ⟨body, '\r', by simp, by decide⟩
          · exact ⟨body ++ term ++ q', c, by simp, hc⟩
        · have ht' : term = c!"\n" ∨ term = c!"\r\n" ∨ (term = c!"\r" ∧ before.head? ≠ some '\n') := by
            rcases ht with h | h | ⟨h, h'⟩
            · exact Or.inl h
            · exact Or.inr (Or.inl h)
            · refine Or.inr (Or.inr ⟨h, ?_⟩)
              intro hh
              cases before with
              | nil => simp at hh
              | cons x y => simp at hh; subst hh; rw [hs] at h'; simp at h'
          rw [List.append_assoc, numTerms_body _ _ hb, numTerms_line _ _ ht']
          simpa using hget

theorem split_unique {A B A' B' : Str} (h : A ++ B = A' ++ B') (hB : ∀ c ∈ B, isEolChar c = false)
    (hB' : ∀ c ∈ B', isEolChar c = false)
    (hA : A = [] ∨ ∃ q c, A = q ++ [c] ∧ isEolChar c = true)
    (hA' : A' = [] ∨ ∃ q c, A' = q ++ [c] ∧ isEolChar c = true) : A = A' ∧ B = B' := by
  have key : ∀ {A B A' B' : Str}, A ++ B = A' ++ B' → (∀ c ∈ B, isEolChar c = false) →
      (A' = [] ∨ ∃ q c, A' = q ++ [c] ∧ isEolChar c = true) → A'.length ≤ A.length := by
    intro A B A' B' h hB hA'
    rcases hA' with rfl | ⟨q, c, rfl, hc⟩
    · simp
    · refine Classical.byContradiction fun hlt => ?_
      simp at hlt
      have hq := congrArg (fun l : Str => l[q.length]?) h
      replace hq : (A ++ B)[q.length]? = (q ++ [c] ++ B')[q.length]? := hq
      rw [List.getElem?_append_right (by omega)] at hq
      rw [List.append_assoc, List.getElem?_append_right (by omega)] at hq
      simp at hq
      have := hB c (List.mem_of_getElem? hq)
      rw [this] at hc; cases hc
  have hlen : A.length = A'.length := Nat.le_antisymm (key h.symm hB' hA) (key h hB hA')
  exact List.append_inj h hlen

/-- The reader's row and column of a position. -/
theorem rowCol_at {src : Str} {p : Nat} {before left right : Str} (h : At src p before left right)
    (hp : p < src.length) (hin : ¬ InsideBreak src p) :
    getRowCol src p = .ok (numTerms before + 1, (left.length : Int) + 1) := by
  cases hg : getRowCol src p with
  | error e =>
    have he : e = .typeError := by
      rw [getRowCol_eq_walk] at hg
      cases hw : walk 1 1 src p with
      | none => rw [hw] at hg; simpa using hg.symm
      | some x => rw [hw] at hg; cases hg
    subst he
    rcases (C13_fails_iff src p).1 hg with h' | ⟨h', _⟩ | h'
    · omega
    · omega
    · exact absurd h' hin
  | ok x =>
    obtain ⟨row, col⟩ := x
    obtain ⟨_, A, B, hs, hB, hA, hr, hc⟩ := C13_row_col_meaning src p row col hg
    obtain ⟨⟨after, hsrc, _⟩, hpos, hline, hstart⟩ := h
    have : src.take p = before ++ left := by
      rw [hsrc, hpos, List.append_assoc, List.append_assoc, ← List.append_assoc before]
      exact List.take_left' (by simp)
    obtain ⟨rfl, rfl⟩ := split_unique (hs.symm.trans this) hB (fun c hc => hline c (by simp [hc])) hA hstart
    rw [hr, hc]

/-! ### The table -/

theorem numbered_row (lines : List Str) (n : Nat) (l : Str) (h : lines[n - 1]? = some l) :
    numbered (n, l) = tableRow lines n := by
  simp [numbered, tableRow, h]

theorem item_ok {lines : List Str} {i : Nat} (h : i < lines.length) : item lines i = .ok lines[i] := by
  simp [item, List.getElem?_eq_getElem h]

theorem prevLoop_rows (lines : List Str) (row k : Nat) (h : row ≤ lines.length) : ∀ (j : Nat), 1 ≤ j →
    ∃ l, prevLoop lines row (List.range' j k) = .ok l ∧
      l.reverse.flatMap numbered = rows lines (max 2 (row + 1 - (j + k))) (row - j) := by
  induction k with
  | zero =>
    intro j hj
    refine ⟨[], rfl, ?_⟩
    have : row - j + 1 - max 2 (row + 1 - (j + 0)) = 0 := by omega
    simp only [rows, this]; rfl
  | succ k ih =>
    intro j hj
    rw [List.range'_succ, prevLoop]
    split
    next hle =>
      refine ⟨[], rfl, ?_⟩
      have : row - j + 1 - max 2 (row + 1 - (j + (k + 1))) = 0 := by omega
      simp only [rows, this]; rfl
    next hgt =>
      obtain ⟨l, hl, hr⟩ := ih (j + 1) (by omega)
      rw [item_ok (lines := lines) (i := row - 1 - j) (by omega)]
      refine ⟨(row - j, lines[row - 1 - j]) :: l, by rw [hl]; rfl, ?_⟩
      rw [List.reverse_cons, List.flatMap_append, hr]
      have e1 : row + 1 - (j + 1 + k) = row + 1 - (j + (k + 1)) := by omega
      have e2 : row - j + 1 - max 2 (row + 1 - (j + (k + 1))) =
          (row - (j + 1) + 1 - max 2 (row + 1 - (j + (k + 1)))) + 1 := by omega
      rw [rows, rows, e1, e2, List.range'_concat, List.flatMap_append]
      congr 1
      have e3 : max 2 (row + 1 - (j + (k + 1))) + 1 * (row - (j + 1) + 1 - max 2 (row + 1 - (j + (k + 1)))) = row - j := by
        omega
      rw [e3]
      simp only [List.flatMap_cons, List.flatMap_nil, List.append_nil]
      apply numbered_row
      rw [List.getElem?_eq_getElem (by omega)]
      congr 2; omega

theorem nextLoop_rows (lines : List Str) (row k : Nat) (h1 : 1 ≤ row) : ∀ (j : Nat), 1 ≤ j →
    ∃ l, nextLoop lines row (List.range' j k) = .ok l ∧
      l.flatMap numbered = rows lines (row + j) (min (row + (j + k) - 1) lines.length) := by
  induction k with
  | zero =>
    intro j hj
    refine ⟨[], rfl, ?_⟩
    have : min (row + (j + 0) - 1) lines.length + 1 - (row + j) = 0 := by omega
    simp only [rows, this]; rfl
  | succ k ih =>
    intro j hj
    rw [List.range'_succ, nextLoop]
    split
    next hle =>
      refine ⟨[], rfl, ?_⟩
      have : min (row + (j + (k + 1)) - 1) lines.length + 1 - (row + j) = 0 := by omega
      simp only [rows, this]; rfl
    next hgt =>
      obtain ⟨l, hl, hr⟩ := ih (j + 1) (by omega)
      rw [item_ok (lines := lines) (i := row - 1 + j) (by omega)]
      refine ⟨(row + j, lines[row - 1 + j]) :: l, by rw [hl]; rfl, ?_⟩
      rw [List.flatMap_cons, hr]
      have e2 : min (row + (j + (k + 1)) - 1) lines.length + 1 - (row + j) =
          (min (row + (j + 1 + k) - 1) lines.length + 1 - (row + (j + 1))) + 1 := by omega
      rw [rows, rows, e2, List.range'_succ, List.flatMap_cons]
      congr 1
      apply numbered_row
      rw [List.getElem?_eq_getElem (by omega)]
      congr 2; omega

theorem report_of_place (e : PErr) (row col : Nat) (line : Str) (lines : List Str)
    (hs : Indent.splitlines e.src = lines) (hpl : place e = .ok (row, col, line))
    (h1 : 1 ≤ row) (hl : lines[row - 1]? = some line) (hc : 1 ≤ col) :
    report e = .ok (reportText e.msg e.ext e.file lines row col) := by
  have hlt : row - 1 < lines.length := by
    refine Classical.byContradiction fun hh => ?_
    rw [List.getElem?_eq_none (by omega)] at hl; cases hl
  obtain ⟨lp, hp1, hp2⟩ := prevLoop_rows lines row 3 (by omega) 1 (by omega)
  obtain ⟨ln, hn1, hn2⟩ := nextLoop_rows lines row 3 h1 1 (by omega)
  have hp1' : prevLoop lines row [1, 2, 3] = .ok lp := hp1
  have hn1' : nextLoop lines row [1, 2, 3] = .ok ln := hn1
  unfold report
  rw [hpl]
  simp only [bind, Except.bind, hs, hp1', hn1', pure, Except.pure, List.reverse_reverse]
  rw [hp2, hn2, numbered_row _ _ _ hl]
  have e1 : row + 1 - (1 + 3) = row - 3 := by omega
  have e2 : row + (1 + 3) - 1 = row + 3 := by omega
  have e3 : (List.replicate (col + 4) ' ' : Str) = List.replicate 5 ' ' ++ List.replicate (col - 1) ' ' := by
    rw [List.replicate_append_replicate]; congr 1; omega
  rw [e1, e2, reportText, e3]
  simp only [inFile, heading, List.append_assoc]
  rfl

theorem Lines.exists (n : Nat) : ∀ (src : Str), src.length ≤ n → ∃ ls, Lines src ls := by
  induction n with
  | zero =>
    intro src h
    obtain rfl : src = [] := List.length_eq_zero_iff.1 (by omega)
    exact ⟨[], .none⟩
  | succ n ih =>
    intro src h
    obtain ⟨body, term, tail, ⟨rfl, hb, ht⟩, _⟩ := eolScan_line src
    by_cases hterm : term = []
    · subst hterm
      rcases ht with h' | h' | ⟨h', _⟩ | ⟨_, rfl⟩
      · simp at h'
      · simp at h'
      · simp at h'
      · cases body with
        | nil => exact ⟨[], .none⟩
        | cons c b => exact ⟨[c :: b], by simpa using Lines.last (c :: b) (by simp) hb⟩
    · have hlen : 1 ≤ term.length := by
        cases term with
        | nil => exact absurd rfl hterm
        | cons => simp
      obtain ⟨ls, hls⟩ := ih tail (by simp at h; omega)
      refine ⟨body :: ls, .more body term tail ls hb ?_ hls⟩
      rcases ht with h' | h' | h' | ⟨h', _⟩
      · exact Or.inl h'
      · exact Or.inr (Or.inl h')
      · exact Or.inr (Or.inr h')
      · exact absurd h' hterm

theorem consLine_length (c : Char) (ls : List Str) : ls.length ≤ (Indent.consLine c ls).length := by
  cases ls <;> simp [Indent.consLine]

theorem splitlines_count (body term tail : Str)
    (hb : ∀ c ∈ body, isEolChar c = false)
    (ht : term = c!"\n" ∨ term = c!"\r\n" ∨ (term = c!"\r" ∧ tail.head? ≠ some '\n')) :
    (Indent.splitlines tail).length + 1 ≤ (Indent.splitlines (body ++ term ++ tail)).length := by
  induction body with
  | nil => rw [List.nil_append, splitlines_term term tail ht]; simp
  | cons c b ih =>
    have ih := ih fun x hx => hb x (by simp [hx])
    have hc : c ≠ '\r' := by rintro rfl; have := hb '\r' (by simp); simp [isEolChar] at this
    show _ ≤ (Indent.splitlines (c :: (b ++ term ++ tail))).length
    cases hr : b ++ term ++ tail with
    | nil => rw [hr] at ih; simp [Indent.splitlines] at ih
    | cons d s =>
      rw [hr] at ih
      rw [Indent.splitlines, if_neg (by simp [hc])]
      split
      · simp at ih ⊢; omega
      · exact Nat.le_trans ih (consLine_length c _)

theorem Lines.count {src : Str} {ls : List Str} (h : Lines src ls) :
    ls.length ≤ (Indent.splitlines src).length := by
  induction h with
  | none => simp
  | last body hne hb =>
    cases body with
    | nil => exact absurd rfl hne
    | cons c b =>
      cases b with
      | nil => simp [Indent.splitlines]; split <;> simp
      | cons d s =>
        rw [Indent.splitlines]
        split
        · simp
        · split
          · simp
          · cases Indent.splitlines (d :: s) <;> simp [Indent.consLine]
  | more body term tail ls hb ht _ ih =>
    have := splitlines_count body term tail hb ht
    rw [List.length_cons]; omega

theorem decimal_short (n : Nat) (h : n < 10000) : (decimal n).length ≤ 4 := by
  have key : ∀ (k f n : Nat), n < 10 ^ (k + 1) → (decimalAux f n).length ≤ k + 1 := by
    intro k
    induction k with
    | zero =>
      intro f n h
      cases f with
      | zero => simp [decimalAux]
      | succ f => rw [decimalAux, if_pos (by simpa using h)]; simp
    | succ k ih =>
      intro f n h
      cases f with
      | zero => simp [decimalAux]
      | succ f =>
        rw [decimalAux]
        split
        · simp
        · have := ih f (n / 10) (by rw [Nat.div_lt_iff_lt_mul (by omega)]; rw [Nat.pow_succ] at h; exact h)
          simp; omega
  exact key 3 _ n (by simpa using h)

/-! ### The theorems -/

/-- **C73, part.** An error found at position `p` of a template is reported with the row and
column of that position (the last character, when it was found at the end of the template),
with its line, up to three lines before it without the first line of the template, and up
to three lines after it, all of them consecutive, in order, and with their own numbers.
Missing: the report cannot be printed when the position is inside a `\r\n`; the first line
is not shown before the line of the error (`C73_first_line_counterexample`); and the lines
are wrong when the template has other characters at which `splitlines` breaks a line
(`C73_form_feed_counterexample`). -/
theorem C73_report_shows_the_place_partial (src msg ext file : Str) (p : Nat) (lines : List Str)
    (hl : Lines src lines) (hb : PlainBreaks src) (hne : src ≠ [])
    (hin : ¬ InsideBreak src (min p (src.length - 1))) :
    ∃ before left right, At src (min p (src.length - 1)) before left right ∧
      lines[numTerms before]? = some (left ++ right) ∧
      (mk file src p msg ext none none >>= report) =
        .ok (reportText msg ext file lines (numTerms before + 1) (left.length + 1)) := by
  have hlen : 0 < src.length := List.length_pos_iff.2 hne
  obtain ⟨before, left, right, hat, hget⟩ := hl.at (min p (src.length - 1)) (by omega) hin
  refine ⟨before, left, right, hat, hget, ?_⟩
  have hmk : mk file src p msg ext none none = .ok ⟨file, src, min p (src.length - 1), msg, ext, none, none⟩ := by
    unfold mk
    split
    · rw [if_neg (by omega), Nat.min_eq_right (by omega)]
    · rw [Nat.min_eq_left (by omega)]
  rw [hmk]
  show report _ = _
  apply report_of_place (line := left ++ right) (hs := hl.splitlines hb) (h1 := by omega) (hc := by omega)
  · unfold place
    simp only [rowCol_at hat (by omega) hin, hl.splitlines hb]
    rw [show numTerms before + 1 - 1 = numTerms before from rfl]
    simp only [item, hget]
    rfl
  · exact hget

/-- **C73, the caret.** In the first 9999 rows, the caret of a report stands below the
character at the position of the error: the row above it is made of as many characters as
there are spaces before the caret, and then the rest of the line from that position on. -/
theorem C73_caret_below_the_place (src : Str) (p : Nat) (before left right : Str) (lines : List Str)
    (_ : At src p before left right) (hline : lines[numTerms before]? = some (left ++ right))
    (hrow : numTerms before + 1 < 10000) :
    ∃ u, tableRow lines (numTerms before + 1) = u ++ right ++ c!"\n" ∧ u.length = (left.length + 1) + 4 := by
  have := decimal_short _ hrow
  refine ⟨decimal (numTerms before + 1) ++ List.replicate (4 - (decimal (numTerms before + 1)).length) ' ' ++ c!"|" ++ left, ?_, ?_⟩
  · simp [tableRow, hline]
  · simp; omega

/-- **C73, reports that cannot be printed.** Making and printing the report of an error at a
position raises something else exactly when the template is empty, or the position is the
second character of a `\r\n` — in particular for an error at the end of a template that ends
with `\r\n`. -/
theorem C73_report_fails_iff (src msg ext file : Str) (p : Nat) :
    (∃ x, (mk file src p msg ext none none >>= report) = .error x) ↔
      src = [] ∨ InsideBreak src (min p (src.length - 1)) := by
  by_cases hne : src = []
  · subst hne; simp [mk, bind, Except.bind]
  have hlen : 0 < src.length := List.length_pos_iff.2 hne
  have hmk : mk file src p msg ext none none = .ok ⟨file, src, min p (src.length - 1), msg, ext, none, none⟩ := by
    unfold mk
    split
    · rw [if_neg (by omega), Nat.min_eq_right (by omega)]
    · rw [Nat.min_eq_left (by omega)]
  rw [hmk]
  show (∃ x, report _ = .error x) ↔ _
  constructor
  · rintro ⟨x, hx⟩
    refine Or.inr (Classical.byContradiction fun hin => ?_)
    obtain ⟨lines, hl⟩ := Lines.exists src.length src (by omega)
    obtain ⟨before, left, right, hat, hget⟩ := hl.at (min p (src.length - 1)) (by omega) hin
    have hlt : numTerms before < lines.length := by
      refine Classical.byContradiction fun hh => ?_
      rw [List.getElem?_eq_none (by omega)] at hget; cases hget
    have hlt' : numTerms before < (Indent.splitlines src).length := Nat.lt_of_lt_of_le hlt hl.count
    rw [report_of_place _ (numTerms before + 1) (left.length + 1) (Indent.splitlines src)[numTerms before]
      (Indent.splitlines src) rfl ?_ (by omega) ?_ (by omega)] at hx
    · cases hx
    · unfold place
      simp only [rowCol_at hat (by omega) hin]
      rw [show numTerms before + 1 - 1 = numTerms before from rfl, item_ok hlt']
      rfl
    · rw [show numTerms before + 1 - 1 = numTerms before from rfl, List.getElem?_eq_getElem hlt']
  · rintro (h | h)
    · exact absurd h hne
    · have hg := (C13_fails_iff src (min p (src.length - 1))).2 (Or.inr (Or.inr h))
      refine ⟨.reader .typeError, ?_⟩
      simp only [report, place, hg]
      rfl

/-- **C73, with a given line.** An error given a line of the template and a column is
reported with these. -/
theorem C73_report_of_a_line (src msg ext file : Str) (p n col : Nat) (lines : List Str)
    (hl : Lines src lines) (hb : PlainBreaks src) (hn : 1 ≤ n) (hn' : n ≤ lines.length) (hc : 1 ≤ col) :
    (mk file src p msg ext (some n) (some col) >>= report) = .ok (reportText msg ext file lines n col) := by
  have hne : src ≠ [] := by rintro rfl; generalize hs : ([] : Str) = src at hl; cases hl <;> simp_all
  have hlen : 0 < src.length := List.length_pos_iff.2 hne
  have hmk : mk file src p msg ext (some n) (some col) =
      .ok ⟨file, src, min p (src.length - 1), msg, ext, some n, some col⟩ := by
    unfold mk
    split
    · rw [if_neg (by omega), Nat.min_eq_right (by omega)]
    · rw [Nat.min_eq_left (by omega)]
  rw [hmk]
  show report _ = _
  apply report_of_place (line := lines[n - 1]) (hs := hl.splitlines hb) (h1 := hn) (hc := hc)
  · unfold place
    obtain ⟨m, rfl⟩ : ∃ m, n = m + 1 := ⟨n - 1, by omega⟩
    simp only [hl.splitlines hb, item_ok (show m < lines.length by omega)]
    rfl
  · exact List.getElem?_eq_getElem (by omega)

theorem pyPrevLoop_rows (lines : List Str) (n k : Nat) (h : n ≤ lines.length) : ∀ (j : Nat), 1 ≤ j →
    ∃ l, pyPrevLoop lines n (List.range' j k) = .ok l ∧
      l.reverse.flatMap numbered = rows lines (max 2 (n + 2 - (j + k))) (n + 1 - j) := by
  induction k with
  | zero =>
    intro j hj
    refine ⟨[], rfl, ?_⟩
    have : n + 1 - j + 1 - max 2 (n + 2 - (j + 0)) = 0 := by omega
    simp only [rows, this]; rfl
  | succ k ih =>
    intro j hj
    rw [List.range'_succ, pyPrevLoop]
    split
    next hle =>
      refine ⟨[], rfl, ?_⟩
      have : n + 1 - j + 1 - max 2 (n + 2 - (j + (k + 1))) = 0 := by omega
      simp only [rows, this]; rfl
    next hgt =>
      obtain ⟨l, hl, hr⟩ := ih (j + 1) (by omega)
      rw [item_ok (lines := lines) (i := n - j) (by omega)]
      refine ⟨(n + 1 - j, lines[n - j]) :: l, by rw [hl]; rfl, ?_⟩
      rw [List.reverse_cons, List.flatMap_append, hr]
      have e1 : n + 2 - (j + 1 + k) = n + 2 - (j + (k + 1)) := by omega
      have e2 : n + 1 - j + 1 - max 2 (n + 2 - (j + (k + 1))) =
          (n + 1 - (j + 1) + 1 - max 2 (n + 2 - (j + (k + 1)))) + 1 := by omega
      rw [rows, rows, e1, e2, List.range'_concat, List.flatMap_append]
      congr 1
      have e3 : max 2 (n + 2 - (j + (k + 1))) + 1 * (n + 1 - (j + 1) + 1 - max 2 (n + 2 - (j + (k + 1)))) = n + 1 - j := by
        omega
      rw [e3]
      simp only [List.flatMap_cons, List.flatMap_nil, List.append_nil]
      apply numbered_row
      rw [List.getElem?_eq_getElem (by omega)]
      congr 2; omega

/-- A row of the table with the number of the line before. -/
def shiftedRow (lines : List Str) (n : Nat) : Str :=
  decimal n ++ List.replicate (4 - (decimal n).length) ' ' ++ c!"|" ++ (lines[n]?).getD [] ++ c!"\n"

theorem pyNextLoop_rows (lines : List Str) (n k : Nat) : ∀ (j : Nat),
    ∃ l, pyNextLoop lines n (List.range' j k) = .ok l ∧
      l.flatMap numbered = (List.range' (n + j) (min k (lines.length - (n + j)))).flatMap (shiftedRow lines) := by
  induction k with
  | zero => intro j; exact ⟨[], rfl, by simp⟩
  | succ k ih =>
    intro j
    rw [List.range'_succ, pyNextLoop]
    split
    next hle =>
      refine ⟨[], rfl, ?_⟩
      have : min (k + 1) (lines.length - (n + j)) = 0 := by omega
      simp only [this]; rfl
    next hgt =>
      obtain ⟨l, hl, hr⟩ := ih (j + 1)
      rw [item_ok (lines := lines) (i := n + j) (by omega)]
      refine ⟨(n + j, lines[n + j]) :: l, by rw [hl]; rfl, ?_⟩
      rw [List.flatMap_cons, hr]
      have e2 : min (k + 1) (lines.length - (n + j)) = min k (lines.length - (n + (j + 1))) + 1 := by omega
      rw [e2, List.range'_succ, List.flatMap_cons]
      congr 1
      simp [numbered, shiftedRow, List.getElem?_eq_getElem (show n + j < lines.length by omega)]

/-- **C73, errors in the generated code, part.** The table of Python lines shown for a syntax
error in line `n` of the generated code ends, above the caret, with line `n`, after up to two
lines before it, in order and with their own numbers. What follows below the caret are up to three
lines from line `n + 2` on, each with the number of the line before it: line `n + 1` is never
shown (`C73_python_lines_counterexample`), nor is the first line. -/
theorem C73_python_table_partial (code : Str) (n o : Nat) (lines : List Str)
    (hl : Lines code lines) (hb : PlainBreaks code) (hn : n ≤ lines.length) :
    pyTable code n (some o) = .ok
      (c!"Line|Python Code\n----|-------------------------------------------------------------\n" ++
        rows lines (max 2 (n - 2)) n ++ List.replicate (3 + o) ' ' ++ c!"^\n" ++
        (List.range' (n + 1) (min 3 (lines.length - (n + 1)))).flatMap (shiftedRow lines)) := by
  obtain ⟨lp, hp1, hp2⟩ := pyPrevLoop_rows lines n 3 hn 1 (by omega)
  obtain ⟨ln, hn1, hn2⟩ := pyNextLoop_rows lines n 3 1
  have hp1' : pyPrevLoop lines n [1, 2, 3] = .ok lp := hp1
  have hn1' : pyNextLoop lines n [1, 2, 3] = .ok ln := hn1
  unfold pyTable
  simp only [bind, Except.bind, hl.splitlines hb, hp1', hn1', pure, Except.pure, List.reverse_reverse]
  rw [hp2, hn2]
  have e1 : n + 2 - (1 + 3) = n - 2 := by omega
  rw [e1]
  simp only [pyHeading, List.append_assoc]
  rfl

/-! ### Examples and counterexamples -/

/-- `Lines` of a text with all three line ends. -/
theorem lines_ex : Lines c!"a\r\nbcd\re\n\nf" [c!"a", c!"bcd", c!"e", [], c!"f"] :=
  .more c!"a" c!"\r\n" c!"bcd\re\n\nf" _ (by decide) (by decide)
    (.more c!"bcd" c!"\r" c!"e\n\nf" _ (by decide) (by decide)
      (.more c!"e" c!"\n" c!"\nf" _ (by decide) (by decide)
        (.more [] c!"\n" c!"f" _ (by decide) (by decide) (.last c!"f" (by decide) (by decide)))))

example : (mk c!"t.tmpl" c!"a\r\nbcd\re\n\nf" 5 c!"bad" [] none none >>= report) =
    .ok c!"\n\nbad\nLine 2, column 3 in file t.tmpl\n\nLine|Cheetah Code\n----|-------------------------------------------------------------\n2   |bcd\n       ^\n3   |e\n4   |\n5   |f\n" := by
  decide +kernel

example : PlainBreaks c!"a\r\nbcd\re\n\nf" := by unfold PlainBreaks; decide
example : ¬ InsideBreak c!"a\r\nbcd\re\n\nf" (min 5 (c!"a\r\nbcd\re\n\nf".length - 1)) := by
  intro h
  have := (C73_report_fails_iff c!"a\r\nbcd\re\n\nf" [] [] [] 5).2 (Or.inr h)
  obtain ⟨x, hx⟩ := this
  revert hx; cases x with
  | reader e => cases e <;> decide +kernel
  | indexError => decide +kernel

example : At c!"a\r\nbcd\re\n\nf" 5 c!"a\r\n" c!"bc" c!"d" :=
  ⟨⟨c!"\re\n\nf", by decide, Or.inr ⟨'\r', _, rfl, by decide⟩⟩, by decide, by decide, Or.inr ⟨c!"a\r", '\n', rfl, by decide⟩⟩

example : (mk [] c!"a\r\nbcd\re\n\nf" 0 c!"bad" c!"more" (some 5) (some 1) >>= report) =
    .ok c!"\n\nbad\nLine 5, column 1\n\nLine|Cheetah Code\n----|-------------------------------------------------------------\n2   |bcd\n3   |e\n4   |\n5   |f\n     ^\nmore\n" := by
  decide +kernel

/-- The first line of a template is not shown in the report of an error in the second. -/
theorem C73_first_line_counterexample :
    (mk [] c!"#if 1\n#end for\n" 6 c!"bad" [] none none >>= report) =
      .ok c!"\n\nbad\nLine 2, column 1\n\nLine|Cheetah Code\n----|-------------------------------------------------------------\n2   |#end for\n     ^\n" := by
  decide +kernel

/-- After a form feed in the template the report shows the line before that of the error. -/
theorem C73_form_feed_counterexample :
    Lines c!"a\x0cb\n#end for\n" [c!"a\x0cb", c!"#end for"] ∧
    (mk [] c!"a\x0cb\n#end for\n" 4 c!"bad" [] none none >>= report) =
      .ok c!"\n\nbad\nLine 2, column 1\n\nLine|Cheetah Code\n----|-------------------------------------------------------------\n2   |b\n     ^\n3   |#end for\n" :=
  ⟨.more c!"a\x0cb" c!"\n" c!"#end for\n" _ (by decide) (by decide)
    (.more c!"#end for" c!"\n" [] _ (by decide) (by decide) .none), by decide +kernel⟩

/-- The report of an error at the end of a template that ends with `\r\n` cannot be printed. -/
theorem C73_windows_end_counterexample :
    (mk [] c!"#if 1\r\n" 7 c!"bad" [] none none >>= report) = .error (.reader .typeError) := by
  decide +kernel

/-- Of the generated code, the line after that of the error is left out, and the following ones have wrong numbers. -/
theorem C73_python_lines_counterexample :
    pyTable c!"a\nb\nc\nd\ne\nf\n" 3 (some 1) =
      .ok c!"Line|Python Code\n----|-------------------------------------------------------------\n2   |b\n3   |c\n    ^\n4   |e\n5   |f\n" := by
  decide +kernel

/-- When the line of generated code before that of the error comes from another place of the
template, the report shows that place. -/
theorem C73_guessed_place_counterexample :
    cheetahPos [] c!"def respond(self):\nwrite(a) # from line 1, col 1.\n_v = b + # u'${b +}' on line 2, col 3\n" 3 =
      some (1, 1, true) := by
  decide +kernel

end Cheetah.ErrReport
