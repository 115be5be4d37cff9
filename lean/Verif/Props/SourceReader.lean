import Verif.SourceReader
/-
Properties C11-C13: the source cursor.
-/
namespace Cheetah.Reader

/-! ### C11 -/

/-- The readable window: `0 <= pos <= breakPoint <= len(src)`. -/
def InWindow (r : Reader) : Prop := 0 ≤ r.pos ∧ r.pos ≤ r.bp ∧ r.bp ≤ r.src.length

/-- Not one of the two operations by which the code can leave the window:
`ungetc` (its test is inverted) and moving the break point before the cursor. -/
def Safe (r : Reader) : Op → Prop
  | .ungetc _ => False
  | .setBreakPoint p => r.pos ≤ p
  | _ => True

/-- All operations of a run are safe in the state they are applied to. -/
def SafeRun (r : Reader) : List Op → Prop
  | [] => True
  | op :: ops => Safe r op ∧ SafeRun (step r op).2 ops

theorem checkPos_none {r : Reader} {p : Int} (h : checkPos r p = none) : 0 ≤ p ∧ p ≤ r.bp := by
  unfold checkPos at h
  split at h
  · cases h
  · split at h
    · cases h
    · omega

theorem scanLoop_window (test : Reader → Except Err Bool) (limit : Int) (r : Reader)
    (h : InWindow r) : InWindow (scanLoop test limit r).2 ∧ (scanLoop test limit r).2.src = r.src ∧
      (scanLoop test limit r).2.bp = r.bp ∧ r.pos ≤ (scanLoop test limit r).2.pos := by
  fun_induction scanLoop test limit r with
  | case1 r hlt e r' ha =>
    unfold advance at ha
    split at ha
    · cases ha; exact ⟨h, rfl, rfl, Int.le_refl _⟩
    · cases ha
  | case2 r hlt r' ha e ht =>
    unfold advance at ha
    split at ha
    · cases ha
    · next hc =>
      cases ha
      have := checkPos_none hc
      exact ⟨⟨this.1, this.2, h.2.2⟩, rfl, rfl, by simp; omega⟩
  | case3 r hlt r' ha ht =>
    unfold advance at ha
    split at ha
    · cases ha
    · next hc =>
      cases ha
      have := checkPos_none hc
      exact ⟨⟨this.1, this.2, h.2.2⟩, rfl, rfl, by simp; omega⟩
  | case4 r hlt r' ha ht hdec ih =>
    unfold advance at ha
    split at ha
    · cases ha
    · next hc =>
      cases ha
      have := checkPos_none hc
      obtain ⟨i1, i2, i3, i4⟩ := ih ⟨this.1, this.2, h.2.2⟩
      exact ⟨i1, i2, i3, by simp at i4; omega⟩
  | case5 r hlt => exact ⟨h, rfl, rfl, Int.le_refl _⟩

theorem step_window {r : Reader} (h : InWindow r) (op : Op) (hs : Safe r op) :
    InWindow (step r op).2 := by
  have h' := h
  obtain ⟨h1, h2, h3⟩ := h'
  cases op with
  | setPos p =>
    simp only [step]; split
    · exact h
    · next hc => have := checkPos_none hc; exact ⟨this.1, this.2, h3⟩
  | setBreakPoint p =>
    simp only [step]; split
    · exact h
    · split
      · exact h
      · exact ⟨h1, hs, by simp; omega⟩
  | setBookmark n => exact h
  | gotoBookmark n =>
    simp only [step]; split
    · exact h
    · split
      · next hv => simp [validPos] at hv; exact ⟨hv.2, hv.1, h3⟩
      · exact h
  | peek off => exact h
  | getc =>
    simp only [step, getc]; split
    · next hv => simp [validPos] at hv; exact ⟨by simp; omega, by simp; omega, h3⟩
    · exact h
  | ungetc c => exact absurd hs (by simp [Safe])
  | advance off =>
    simp only [step, advance]
    cases hc : checkPos r (r.pos + off) with
    | some e => exact h
    | none => have := checkPos_none hc; exact ⟨this.1, this.2, h3⟩
  | rev off =>
    simp only [step, advance]
    cases hc : checkPos r (r.pos + -off) with
    | some e => exact h
    | none => have := checkPos_none hc; exact ⟨this.1, this.2, h3⟩
  | read off =>
    simp only [step, read]; split
    · exact h
    · next hc => have := checkPos_none hc; exact ⟨this.1, this.2, h3⟩
  | readTo to start =>
    simp only [step, readTo]; split
    · exact h
    · next hc => have := checkPos_none hc; exact ⟨this.1, this.2, h3⟩
  | readToEOL start g =>
    simp only [step, readToEOL, readTo]; split
    · exact h
    · next hc => have := checkPos_none hc; exact ⟨this.1, this.2, h3⟩
  | getWhiteSpace m ws =>
    simp only [step, getWS]
    split
    · exact h
    · exact h
    · next hm =>
      have := (scanLoop_window (matchWS · ws) (match m with | none => r.bp | some m => min r.bp (r.pos + m)) r h).1
      cases m <;> simp only at this ⊢ <;> split <;> (next hh => rw [hh] at this; exact this)
  | getNonWhiteSpace ws =>
    simp only [step, getNonWS]
    split
    · exact h
    · exact h
    · have := (scanLoop_window (matchNonWS · ws) r.bp r h).1
      split <;> (next hh => rw [hh] at this; exact this)

/-- **C11 (partial).** From a fresh reader on any source, after any sequence of
cursor operations, successful or not, the cursor is inside the readable window —
provided the sequence never uses `ungetc` and never moves the break point before
the cursor.  Missing: those two, for which the claim is false of the code, see the
counterexamples below. -/
theorem C11_window_partial (src : Str) (ops : List Op) (hs : SafeRun (init src) ops) :
    InWindow (run (init src) ops) := by
  have : ∀ (ops : List Op) (r : Reader), InWindow r → SafeRun r ops → InWindow (run r ops) := by
    intro ops
    induction ops with
    | nil => intro r h _; exact h
    | cons op ops ih => intro r h hs; exact ih _ (step_window h op hs.1) hs.2
  exact this ops (init src) ⟨Int.le_refl 0, by simp [init], by simp [init]⟩ hs

/-- **C11, all operations.** Whatever the sequence, the source is never changed and
the break point stays within it. -/
theorem C11_breakpoint_in_source (src : Str) (ops : List Op) :
    (run (init src) ops).src = src ∧ 0 ≤ (run (init src) ops).bp ∧
      (run (init src) ops).bp ≤ src.length := by
  have hscan : ∀ test limit (r : Reader), (scanLoop test limit r).2.src = r.src ∧
      (scanLoop test limit r).2.bp = r.bp := by
    intro test limit r
    have hadv : ∀ (r : Reader) o r', advance r 1 = (o, r') → r'.src = r.src ∧ r'.bp = r.bp := by
      intro r o r' ha
      unfold advance at ha
      split at ha <;> (cases ha; exact ⟨rfl, rfl⟩)
    fun_induction scanLoop test limit r with
    | case1 r hlt e r' ha => exact hadv _ _ _ ha
    | case2 r hlt r' ha e ht => exact hadv _ _ _ ha
    | case3 r hlt r' ha ht => exact hadv _ _ _ ha
    | case4 r hlt r' ha ht hdec ih =>
      have := hadv _ _ _ ha
      exact ⟨ih.1.trans this.1, ih.2.trans this.2⟩
    | case5 r hlt => exact ⟨rfl, rfl⟩
  have hstep : ∀ (r : Reader) op, 0 ≤ r.bp ∧ r.bp ≤ r.src.length →
      (step r op).2.src = r.src ∧ 0 ≤ (step r op).2.bp ∧ (step r op).2.bp ≤ r.src.length := by
    intro r op h
    cases op with
    | setPos p => simp only [step]; split <;> exact ⟨rfl, h⟩
    | setBreakPoint p =>
      simp only [step]
      split
      · exact ⟨rfl, h⟩
      · split
        · exact ⟨rfl, h⟩
        · exact ⟨rfl, by simp; omega, by simp; omega⟩
    | setBookmark n => exact ⟨rfl, h⟩
    | gotoBookmark n =>
      simp only [step]; split
      · exact ⟨rfl, h⟩
      · split <;> exact ⟨rfl, h⟩
    | peek off => exact ⟨rfl, h⟩
    | getc => simp only [step, getc]; split <;> exact ⟨rfl, h⟩
    | ungetc c =>
      simp only [step, ungetc]; split
      · exact ⟨rfl, h⟩
      · cases c <;> exact ⟨rfl, h⟩
    | advance off => simp only [step, advance]; cases checkPos r (r.pos + off) <;> exact ⟨rfl, h⟩
    | rev off => simp only [step, advance]; cases checkPos r (r.pos + -off) <;> exact ⟨rfl, h⟩
    | read off => simp only [step, read]; split <;> exact ⟨rfl, h⟩
    | readTo to start => simp only [step, readTo]; split <;> exact ⟨rfl, h⟩
    | readToEOL start g => simp only [step, readToEOL, readTo]; split <;> exact ⟨rfl, h⟩
    | getWhiteSpace m ws =>
      simp only [step, getWS]
      split
      · exact ⟨rfl, h⟩
      · exact ⟨rfl, h⟩
      · have := hscan (matchWS · ws) (match m with | none => r.bp | some m => min r.bp (r.pos + m)) r
        cases m <;> simp only at this ⊢ <;> split <;>
          (next hh => rw [hh] at this; exact ⟨this.1, by rw [this.2]; exact h⟩)
    | getNonWhiteSpace ws =>
      simp only [step, getNonWS]
      split
      · exact ⟨rfl, h⟩
      · exact ⟨rfl, h⟩
      · have := hscan (matchNonWS · ws) r.bp r
        split <;> (next hh => rw [hh] at this; exact ⟨this.1, by rw [this.2]; exact h⟩)
  have : ∀ (ops : List Op) (r : Reader), 0 ≤ r.bp ∧ r.bp ≤ r.src.length →
      (run r ops).src = r.src ∧ 0 ≤ (run r ops).bp ∧ (run r ops).bp ≤ r.src.length := by
    intro ops
    induction ops with
    | nil => intro r h; exact ⟨rfl, h⟩
    | cons op ops ih =>
      intro r h
      obtain ⟨a, b, c⟩ := hstep r op h
      obtain ⟨d, e, f⟩ := ih (step r op).2 ⟨b, by rw [a]; exact c⟩
      exact ⟨d.trans a, e, by rw [a] at f; exact f⟩
  exact this ops (init src) ⟨by simp [init], by simp [init]⟩

/-- **C11, position errors.** An operation that raises SourceReader.Error because
of a bad position leaves the reader exactly as it was. -/
theorem C11_error_leaves_cursor (r : Reader) (h : InWindow r) (op : Op) (e : Err)
    (he : e = .posError ∨ e = .bpError ∨ e = .bookmarkError ∨ e = .atBeginning)
    (hr : (step r op).1 = .error e) : (step r op).2 = r := by
  have hidx : ∀ s i e, index s i = .error e → e = .indexError := by
    intro s i e h
    unfold index at h
    split at h
    · split at h
      · cases h; rfl
      · split at h <;> cases h; rfl
    · split at h <;> cases h; rfl
  -- inside the loops no error occurs at all
  have hscan : ∀ (test : Reader → Except Err Bool) (limit : Int) (r : Reader),
      InWindow r → limit ≤ r.bp → (∀ r', InWindow r' → ∀ e, test r' ≠ .error e) →
      ∀ e, (scanLoop test limit r).1 ≠ .error e := by
    intro test limit r
    fun_induction scanLoop test limit r with
    | case1 r hlt e r' ha =>
      intro hw hl _ e'
      unfold advance at ha
      split at ha
      · next hc =>
        unfold checkPos at hc
        have := hw.1
        rw [if_neg (by omega), if_neg (by omega)] at hc; cases hc
      · cases ha
    | case2 r hlt r' ha e ht =>
      intro hw hl ht' e'
      unfold advance at ha
      split at ha
      · cases ha
      · next hc =>
        cases ha
        have := checkPos_none hc
        exact absurd ht (ht' { r with pos := r.pos + 1 } ⟨this.1, this.2, hw.2.2⟩ e)
    | case3 r hlt r' ha ht => intro _ _ _ e; simp
    | case4 r hlt r' ha ht hdec ih =>
      intro hw hl ht' e'
      unfold advance at ha
      split at ha
      · cases ha
      · next hc =>
        cases ha
        have := checkPos_none hc
        exact ih ⟨this.1, this.2, hw.2.2⟩ hl ht' e'
    | case5 r hlt => intro _ _ _ e; simp
  have hpeek : ∀ r : Reader, InWindow r → atEnd r = false → ∃ c, peek r 0 = .ok c := by
    intro r hw he
    obtain ⟨a, b, c⟩ := hw
    simp [atEnd] at he
    unfold peek checkPos index
    rw [if_neg (by omega), if_neg (by omega)]
    simp only [Int.add_zero]
    rw [if_neg (by omega)]
    have hlt : r.pos.toNat < r.src.length := by omega
    exact ⟨r.src[r.pos.toNat], by simp [hlt]⟩
  have hmw : ∀ ws (r : Reader), InWindow r → ∀ e, matchWS r ws ≠ .error e := by
    intro ws r hw e
    unfold matchWS
    cases he : atEnd r with
    | true => simp
    | false => obtain ⟨c, hc⟩ := hpeek r hw he; simp [hc, Except.map]
  have hmn : ∀ ws (r : Reader), InWindow r → ∀ e, matchNonWS r ws ≠ .error e := by
    intro ws r hw e
    unfold matchNonWS
    cases he : atEnd r with
    | true => simp
    | false => obtain ⟨c, hc⟩ := hpeek r hw he; simp [hc, Except.map]
  cases op with
  | setPos p => simp only [step] at hr ⊢; split <;> simp_all
  | setBreakPoint p =>
    simp only [step] at hr ⊢
    split
    · rfl
    · split
      · rfl
      · simp_all
  | setBookmark n => simp [step] at hr
  | gotoBookmark n =>
    simp only [step] at hr ⊢
    split
    · rfl
    · split
      · simp_all
      · rfl
  | peek off => rfl
  | getc =>
    simp only [step, getc] at hr
    cases hi : index r.src r.pos with
    | ok c => rw [hi] at hr; simp [Except.map] at hr
    | error e' =>
      rw [hi] at hr; simp [Except.map] at hr
      have := hidx _ _ _ hi
      subst hr; subst this
      simp at he
  | ungetc c =>
    simp only [step, ungetc] at hr ⊢
    split
    · rfl
    · next h0 =>
      simp only [h0] at hr
      cases c <;> simp at hr
      subst hr; simp at he
  | advance off =>
    simp only [step, advance] at hr ⊢
    cases hc : checkPos r (r.pos + off) with
    | some e => rfl
    | none => simp [hc] at hr
  | rev off =>
    simp only [step, advance] at hr ⊢
    cases hc : checkPos r (r.pos + -off) with
    | some e => rfl
    | none => simp [hc] at hr
  | read off => simp only [step, read] at hr ⊢; split <;> simp_all
  | readTo to start => simp only [step, readTo] at hr ⊢; split <;> simp_all
  | readToEOL start g => simp only [step, readToEOL, readTo] at hr ⊢; split <;> simp_all
  | getWhiteSpace m ws =>
    exfalso
    simp only [step, getWS] at hr
    cases hm : matchWS r ws with
    | error e' => exact hmw ws r h e' hm
    | ok b =>
      cases b with
      | false => simp [hm] at hr
      | true =>
        simp only [hm] at hr
        have := fun l hl => hscan (matchWS · ws) l r h hl (hmw ws)
        cases m with
        | none =>
          have := this r.bp (Int.le_refl _)
          simp only at hr
          split at hr
          · next hh => rw [hh] at this; exact this _ rfl
          · cases hr
        | some m =>
          have := this (min r.bp (r.pos + m)) (by omega)
          simp only at hr
          split at hr
          · next hh => rw [hh] at this; exact this _ rfl
          · cases hr
  | getNonWhiteSpace ws =>
    exfalso
    simp only [step, getNonWS] at hr
    cases hm : matchNonWS r ws with
    | error e' => exact hmn ws r h e' hm
    | ok b =>
      cases b with
      | false => simp [hm] at hr
      | true =>
        simp only [hm] at hr
        have := hscan (matchNonWS · ws) _ r h (Int.le_refl _) (hmn ws)
        revert hr
        split
        · next hh => rw [hh] at this; intro hr; exact this _ rfl
        · simp

/-- Finding: `ungetc` at the start of the source (the only place where it does not
raise) moves the cursor to -1. -/
theorem C11_ungetc_counterexample :
    (run (init c!"abc") [.ungetc none]).pos = -1 ∧
    (step (run (init c!"abc") [.advance 2]) (.ungetc none)).1 = .error .atBeginning := by
  decide

/-- Finding: `setBreakPoint` does not look at the cursor, which may end up beyond
the window. -/
theorem C11_setBreakPoint_counterexample :
    ¬ InWindow (run (init c!"abc") [.advance 3, .setBreakPoint 1]) := by
  unfold InWindow; decide

example : SafeRun (init c!"ab\ncd") [.advance 9, .readToEOL none true, .setBreakPoint 4, .getc] :=
  ⟨trivial, trivial, by unfold Safe; decide, trivial, trivial⟩

/-! ### C12 -/

/-- A read that consumes: `read` of a non-negative amount, `readTo` a later
position, `readToEOL`, `getc` before the end of the window, `getWhiteSpace`,
`getNonWhiteSpace`; in each case from the current position. -/
def Consuming (r : Reader) : Op → Prop
  | .read off => 0 ≤ off
  | .readTo to none => r.pos ≤ to
  | .readToEOL none _ => True
  | .getc => r.pos < r.bp
  | .getWhiteSpace _ _ => True
  | .getNonWhiteSpace _ => True
  | _ => False

theorem eolSearch_bounds (src : Str) (pos : Nat) (h : pos ≤ src.length) :
    pos ≤ (eolSearch src pos).1 ∧ (eolSearch src pos).1 ≤ (eolSearch src pos).2 ∧
      (eolSearch src pos).2 ≤ src.length := by
  have hs : ∀ s : Str, (eolScan s).1 + (eolScan s).2 ≤ s.length := by
    intro s
    fun_induction eolScan s <;> simp_all <;> omega
  have := hs (src.drop (min pos src.length))
  simp only [eolSearch, List.length_drop] at *
  omega

/-- What one consuming read returns: exactly the text between the old and the new
cursor, and the cursor does not move back. -/
theorem consuming_step {r : Reader} (h : InWindow r) {op : Op} (hc : Consuming r op) {t : Str}
    {r' : Reader} (hs : step r op = (.ok t, r')) :
    r.pos ≤ r'.pos ∧ t = slice r.src r.pos r'.pos ∧ r'.src = r.src := by
  cases op with
  | read off =>
    simp only [step, read] at hs
    split at hs
    · cases hs
    · cases hs; simp only [Consuming] at hc; exact ⟨by simp; omega, rfl, rfl⟩
  | readTo to start =>
    cases start with
    | some s => simp [Consuming] at hc
    | none =>
      simp only [step, readTo] at hs
      split at hs
      · cases hs
      · cases hs; exact ⟨hc, rfl, rfl⟩
  | readToEOL start g =>
    cases start with
    | some s => simp [Consuming] at hc
    | none =>
      simp only [step, readToEOL, readTo] at hs
      split at hs
      · cases hs
      · cases hs
        obtain ⟨a, b, c⟩ := h
        have := eolSearch_bounds r.src r.pos.toNat (by omega)
        refine ⟨?_, rfl, rfl⟩
        cases g <;> simp <;> omega
  | getc =>
    simp only [Consuming] at hc
    obtain ⟨a, b, c⟩ := h
    have hlt : r.pos.toNat < r.src.length := by omega
    simp only [step, getc] at hs
    have hv : validPos r (r.pos + 1) = true := by simp [validPos]; omega
    rw [if_pos hv] at hs
    unfold index at hs
    rw [if_neg (by omega)] at hs
    simp only [List.getElem?_eq_getElem hlt, Except.map] at hs
    cases hs
    refine ⟨by simp; omega, ?_, rfl⟩
    simp only [slice, normIdx]
    rw [if_neg (by omega), if_neg (by omega), Nat.min_eq_left (by omega), Nat.min_eq_left (by omega)]
    have e : (r.pos + 1).toNat = r.pos.toNat + 1 := by omega
    rw [e, List.drop_take, show r.pos.toNat + 1 - r.pos.toNat = 1 by omega,
      List.drop_eq_getElem_cons hlt]
    rfl
  | getWhiteSpace m ws =>
    simp only [step, getWS] at hs
    split at hs
    · cases hs
    · cases hs; exact ⟨Int.le_refl _, by simp [slice], rfl⟩
    · have := scanLoop_window (matchWS · ws)
        (match m with | none => r.bp | some m => min r.bp (r.pos + m)) r h
      cases m <;> simp only at this hs <;> split at hs <;>
        (next hh => cases hs; try (rw [hh] at this; exact ⟨this.2.2.2, rfl, this.2.1⟩))
  | getNonWhiteSpace ws =>
    simp only [step, getNonWS] at hs
    split at hs
    · cases hs
    · cases hs; exact ⟨Int.le_refl _, by simp [slice], rfl⟩
    · have := scanLoop_window (matchNonWS · ws) r.bp r h
      split at hs <;>
        (next hh => cases hs; try (rw [hh] at this; exact ⟨this.2.2.2, rfl, this.2.1⟩))
  | _ => simp [Consuming] at hc

theorem slice_append (s : Str) (i j k : Int) (h0 : 0 ≤ i) (h1 : i ≤ j) (h2 : j ≤ k) :
    slice s i j ++ slice s j k = slice s i k := by
  unfold slice normIdx
  rw [if_neg (by omega), if_neg (by omega), if_neg (by omega)]
  generalize hi : min i.toNat s.length = a
  generalize hj : min j.toNat s.length = b
  generalize hk : min k.toNat s.length = c
  have hab : a ≤ b := by omega
  have hbc : b ≤ c := by omega
  clear hi hj hk
  apply List.ext_getElem?
  intro n
  rw [List.getElem?_append]
  simp only [List.length_drop, List.length_take, List.getElem?_drop, List.getElem?_take]
  by_cases hb : b ≤ s.length
  · by_cases hn : n < b - a
    · rw [if_pos (by omega), if_pos (by omega), if_pos (by omega)]
    · rw [if_neg (by omega)]
      have : b + (n - (min b s.length - a)) = a + n := by omega
      rw [this]
  · by_cases hn : n < s.length - a
    · rw [if_pos (by omega), if_pos (by omega), if_pos (by omega)]
    · rw [if_neg (by omega)]
      have h1 : s[a + n]? = none := List.getElem?_eq_none (by omega)
      have h2 : s[b + (n - (min b s.length - a))]? = none := List.getElem?_eq_none (by omega)
      rw [h1, h2]; simp

/-- A successful run of consuming reads, with the texts they returned. -/
inductive Reads : Reader → List Op → List Str → Reader → Prop
  | nil {r} : Reads r [] [] r
  | cons {r op t r' ops ts r''} : Consuming r op → step r op = (.ok t, r') →
      Reads r' ops ts r'' → Reads r (op :: ops) (t :: ts) r''

/-- **C12.** The texts returned by any sequence of consuming reads, concatenated,
are exactly the source between the first and the last position. -/
theorem C12_reads_conserve_source (r r' : Reader) (ops : List Op) (ts : List Str)
    (h : InWindow r) (hr : Reads r ops ts r') :
    ts.flatten = slice r.src r.pos r'.pos ∧ r.pos ≤ r'.pos ∧ r'.src = r.src := by
  induction hr with
  | nil => exact ⟨by simp [slice], Int.le_refl _, rfl⟩
  | @cons r op t r1 ops ts r2 hc hs _ ih =>
    obtain ⟨h1, h2, h3⟩ := consuming_step h hc hs
    have hw : InWindow r1 := by
      have := step_window h op (by cases op <;> simp [Consuming, Safe] at hc ⊢)
      rw [hs] at this; exact this
    obtain ⟨i1, i2, i3⟩ := ih hw
    refine ⟨?_, by omega, i3.trans h3⟩
    simp only [List.flatten_cons, i1, h2, h3]
    exact slice_append _ _ _ _ h.1 h1 i2

/-- **C12, whole source.** Reading a fresh reader to the end of the source returns
the source. -/
theorem C12_read_everything (src : Str) (r' : Reader) (ops : List Op) (ts : List Str)
    (hr : Reads (init src) ops ts r') (hend : r'.pos = src.length) : ts.flatten = src := by
  have := (C12_reads_conserve_source (init src) r' ops ts
    ⟨by simp [init], by simp [init], by simp [init]⟩ hr).1
  rw [this, hend]
  simp only [slice, init, normIdx]
  rw [if_neg (by omega)]
  simp

/-- Is a line-terminator character. -/
def isEolChar (c : Char) : Bool := c == '\n' || c == '\r'

/-- Spec of a line: `body` has no terminator character, and `term` is one of the
three terminators (a `\r` only if not followed by `\n`) or the end of the text. -/
def LineAt (rest body term tail : Str) : Prop :=
  rest = body ++ term ++ tail ∧ (∀ c ∈ body, isEolChar c = false) ∧
  (term = c!"\n" ∨ term = c!"\r\n" ∨ (term = c!"\r" ∧ tail.head? ≠ some '\n') ∨
    (term = [] ∧ tail = []))

theorem eolScan_line (s : Str) : ∃ body term tail, LineAt s body term tail ∧
    (eolScan s).1 = body.length ∧ (eolScan s).2 = term.length := by
  fun_induction eolScan s with
  | case1 => exact ⟨[], [], [], ⟨rfl, by simp, by simp⟩, rfl, rfl⟩
  | case2 cs => exact ⟨[], c!"\r\n", cs, ⟨rfl, by simp, by simp⟩, rfl, rfl⟩
  | case3 c cs hne hc =>
    rcases hc with rfl | rfl
    · refine ⟨[], c!"\r", cs, ⟨rfl, by simp, Or.inr (Or.inr (Or.inl ⟨rfl, ?_⟩))⟩, rfl, rfl⟩
      intro hh
      cases cs with
      | nil => simp at hh
      | cons d ds => simp at hh; exact hne ds rfl (by rw [hh])
    · exact ⟨[], c!"\n", cs, ⟨rfl, by simp, by simp⟩, rfl, rfl⟩
  | case4 c cs hne hc ih =>
    obtain ⟨body, term, tail, ⟨h1, h2, h3⟩, h4, h5⟩ := ih
    refine ⟨c :: body, term, tail, ⟨by simp [h1], ?_, h3⟩, by simp [h4], h5⟩
    intro d hd
    simp at hd
    rcases hd with rfl | hd
    · simp at hc; simp [isEolChar, hc.1, hc.2]
    · exact h2 d hd

/-- **C12, lines.** From any position in the window (with the break point at the end
of the source), `readToEOL` returns the rest of the line: without `gobble` the
characters before the terminator, with `gobble` these and exactly the terminator
(`\n`, `\r\n` or a lone `\r`), leaving the cursor right after what was returned. -/
theorem C12_readToEOL (r : Reader) (h : InWindow r) (hbp : r.bp = r.src.length) :
    ∃ body term tail, LineAt (r.src.drop r.pos.toNat) body term tail ∧
      step r (.readToEOL none false) = (.ok body, { r with pos := r.pos + body.length }) ∧
      step r (.readToEOL none true) =
        (.ok (body ++ term), { r with pos := r.pos + body.length + term.length }) := by
  obtain ⟨a, b, c⟩ := h
  obtain ⟨body, term, tail, hl, h1, h2⟩ := eolScan_line (r.src.drop r.pos.toNat)
  refine ⟨body, term, tail, hl, ?_⟩
  have hdrop := hl.1
  have hlen : body.length + term.length + tail.length = r.src.length - r.pos.toNat := by
    have := congrArg List.length hdrop; simp at this; omega
  have hmin : min r.pos.toNat r.src.length = r.pos.toNat := by omega
  have hsearch : eolSearch r.src r.pos.toNat =
      (r.pos.toNat + body.length, r.pos.toNat + body.length + term.length) := by
    simp only [eolSearch, hmin, h1, h2]
  have hslice : ∀ n : Nat, n ≤ r.src.length - r.pos.toNat →
      slice r.src r.pos ((r.pos.toNat + n : Nat) : Int) = (r.src.drop r.pos.toNat).take n := by
    intro n hn
    simp only [slice, normIdx]
    rw [if_neg (by omega), if_neg (by omega)]
    rw [Nat.min_eq_left (by omega), Nat.min_eq_left (by omega)]
    rw [List.drop_take]
    congr 1
    omega
  constructor
  · simp only [step, readToEOL, hsearch, readTo, checkPos]
    rw [if_neg (by simp; omega), if_neg (by simp; omega)]
    simp only [Bool.false_eq_true, if_false, Option.getD_none]
    rw [hslice _ (by omega), hdrop]
    have e : ((r.pos.toNat + body.length : Nat) : Int) = r.pos + body.length := by omega
    simp [e]
  · simp only [step, readToEOL, hsearch, readTo, checkPos]
    rw [if_neg (by simp; omega), if_neg (by simp; omega)]
    simp only [if_true, Option.getD_none]
    rw [Nat.add_assoc, hslice _ (by omega), hdrop]
    have e : ((r.pos.toNat + (body.length + term.length) : Nat) : Int) =
      r.pos + body.length + term.length := by omega
    have e2 : body.length + term.length = (body ++ term).length := by simp
    rw [e]
    rw [e2, List.take_left]

/-- Finding: at the break point `getc` returns a character without consuming it. -/
theorem C12_getc_at_breakpoint_counterexample :
    let r := run (init c!"abc") [.setBreakPoint 1, .advance 1]
    step r .getc = (.ok c!"b", r) ∧ InWindow r := by
  intro r; exact ⟨by decide, by unfold InWindow; decide⟩

example : Reads (init c!"ab \r\nc") [.getNonWhiteSpace c!" \r\n", .readToEOL none true, .getc]
    [c!"ab", c!" \r\n", c!"c"] ⟨c!"ab \r\nc", 6, 6, []⟩ :=
  .cons (r' := ⟨c!"ab \r\nc", 6, 2, []⟩) trivial (by decide +kernel)
    (.cons (r' := ⟨c!"ab \r\nc", 6, 5, []⟩) trivial (by decide +kernel)
      (.cons (by simp [Consuming]) (by decide +kernel) .nil))

/-! ### C13 -/

/-- Number of line terminators in a text; `\r\n` is one terminator. -/
def numTerms : Str → Nat
  | [] => 0
  | '\r' :: '\n' :: s => numTerms s + 1
  | c :: s => (if isEolChar c then 1 else 0) + numTerms s

theorem numTerms_nonterm (c : Char) (s : Str) (h : isEolChar c = false) :
    numTerms (c :: s) = numTerms s := by
  rw [numTerms]
  · simp [h]
  · rintro s' rfl; simp [isEolChar] at h

theorem numTerms_term (c : Char) (s : Str) (h : isEolChar c = true)
    (hne : ∀ s', c = '\r' → s = '\n' :: s' → False) : numTerms (c :: s) = 1 + numTerms s := by
  rw [numTerms]
  · simp [h]
  · exact hne

/-- Row and column found by walking through the text (helper spec). -/
def walk (row col : Nat) : Str → Nat → Option (Nat × Nat)
  | [], 0 => if col = 1 then none else some (row, col)
  | [], _ + 1 => none
  | _ :: _, 0 => some (row, col)
  | '\r' :: '\n' :: s, p + 1 => if p = 0 then none else walk (row + 1) 1 s (p - 1)
  | c :: s, p + 1 => if isEolChar c then walk (row + 1) 1 s p else walk row (col + 1) s p

theorem walk_nonterm (row col : Nat) (c : Char) (s : Str) (p : Nat) (h : isEolChar c = false) :
    walk row col (c :: s) (p + 1) = walk row (col + 1) s p := by
  rw [walk]
  · simp [h]
  · rintro s' rfl; simp [isEolChar] at h

theorem walk_term (row col : Nat) (c : Char) (s : Str) (p : Nat) (h : isEolChar c = true)
    (hne : ∀ s', c = '\r' → s = '\n' :: s' → False) :
    walk row col (c :: s) (p + 1) = walk (row + 1) 1 s p := by
  rw [walk]
  · simp [h]
  · exact hne

theorem walk_in_line (body : Str) : ∀ (row col : Nat) (rest : Str) (p : Nat),
    (∀ c ∈ body, isEolChar c = false) → 1 ≤ col → p ≤ body.length →
    (rest = [] → col = 1 → body ≠ []) →
    walk row col (body ++ rest) p = some (row, col + p) := by
  induction body with
  | nil =>
    intro row col rest p _ hcol hp hr
    simp at hp; subst hp
    cases rest with
    | nil =>
      simp [walk]
      intro h; exact absurd rfl (hr rfl h)
    | cons d ds => simp [walk]
  | cons c body ih =>
    intro row col rest p hb hcol hp hr
    cases p with
    | zero => simp [walk]
    | succ p =>
      simp only [List.cons_append]
      rw [walk_nonterm _ _ _ _ _ (hb c (by simp)),
        ih row (col + 1) rest p (fun d hd => hb d (by simp [hd])) (by omega) (by simpa using hp)
          (by intro _ h; omega)]
      simp; omega

theorem walk_past_line (body : Str) : ∀ (row col : Nat) (rest : Str) (p : Nat),
    (∀ c ∈ body, isEolChar c = false) →
    walk row col (body ++ rest) (body.length + p) = walk row (col + body.length) rest p := by
  induction body with
  | nil => intro row col rest p _; simp
  | cons c body ih =>
    intro row col rest p hb
    simp only [List.cons_append, List.length_cons]
    rw [show body.length + 1 + p = (body.length + p) + 1 by omega,
      walk_nonterm _ _ _ _ _ (hb c (by simp)), ih row (col + 1) rest p (fun d hd => hb d (by simp [hd]))]
    congr 1; omega

theorem walk_shift (k : Nat) (s : Str) (p : Nat) : ∀ row col,
    walk (row + k) col s p = (walk row col s p).map fun x => (x.1 + k, x.2) := by
  intro row col
  fun_induction walk row col s p with
  | case1 row => simp [walk]
  | case2 row col h => simp [walk, h]
  | case3 => simp [walk]
  | case4 => simp [walk]
  | case5 row col s => simp [walk]
  | case6 row col s p h ih =>
    simp only [walk, h, if_false]
    rw [← ih]
    congr 1; omega
  | case7 row col c s p hne hc ih =>
    rw [walk_term _ _ _ _ _ hc hne, show row + k + 1 = row + 1 + k by omega, ih]
  | case8 row col c s p hne hc ih =>
    simp at hc
    rw [walk_nonterm _ _ _ _ _ hc, ih]

/-- `pre` is empty or ends in a terminator character. -/
def EndsLine (pre : Str) : Prop := pre = [] ∨ ∃ q c, pre = q ++ [c] ∧ isEolChar c = true

theorem rfindNext_le (c : Char) (s : Str) : rfindNext c s ≤ s.length := by
  fun_induction rfindNext c s <;> simp_all <;> omega

theorem rfindNext_not_mem (c : Char) (s : Str) (h : c ∉ s) : rfindNext c s = 0 := by
  induction s with
  | nil => rfl
  | cons d ds ih =>
    simp at h
    rw [rfindNext, ih h.2]
    simp [Ne.symm h.1]

theorem rfindNext_append (c : Char) (s body : Str) (h : c ∉ body) :
    rfindNext c (s ++ body) = rfindNext c s := by
  induction s with
  | nil => simpa [rfindNext] using rfindNext_not_mem c body h
  | cons d ds ih => simp only [List.cons_append, rfindNext, ih]

theorem rfindNext_last (c : Char) (s : Str) : rfindNext c (s ++ [c]) = s.length + 1 := by
  induction s with
  | nil => simp [rfindNext]
  | cons d ds ih => simp only [List.cons_append, rfindNext, ih, List.length_cons]

theorem findBOL_eq (pre body rest : Str) (hp : EndsLine pre)
    (hb : ∀ c ∈ body, isEolChar c = false) :
    findBOL (pre ++ body ++ rest) (pre.length + body.length) = pre.length := by
  have ht : (pre ++ body ++ rest).take (pre.length + body.length) = pre ++ body := by
    rw [← List.length_append, List.take_left]
  have hn : '\n' ∉ body := fun h => by simpa [isEolChar] using hb _ h
  have hr : '\r' ∉ body := fun h => by simpa [isEolChar] using hb _ h
  simp only [findBOL, ht, rfindNext_append _ _ _ hn, rfindNext_append _ _ _ hr]
  have h1 := rfindNext_le '\n' pre
  have h2 := rfindNext_le '\r' pre
  rcases hp with rfl | ⟨q, c, rfl, hc⟩
  · simp [rfindNext]
  · simp [isEolChar] at hc
    rcases hc with rfl | rfl
    · rw [rfindNext_last] at *; simp at *; omega
    · rw [rfindNext_last '\r'] at *; simp at *; omega

/-- The part of the line table from position `|pre|` on. -/
def tableFrom (src : Str) (pos : Nat) : List (Nat × Nat) :=
  (eolTable src pos).map fun e => (findBOL src e, e)

/-- Unfolding of the table at the beginning of a line. -/
theorem tableFrom_line (pre rest : Str) (hp : EndsLine pre) (hr : rest ≠ []) :
    ∃ body term tail, LineAt rest body term tail ∧
      tableFrom (pre ++ rest) pre.length =
        (pre.length, pre.length + body.length) ::
          tableFrom (pre ++ rest) (pre.length + body.length + term.length) := by
  obtain ⟨body, term, tail, hl, h1, h2⟩ := eolScan_line rest
  refine ⟨body, term, tail, hl, ?_⟩
  have hlt : pre.length < (pre ++ rest).length := by
    have := List.length_pos_iff.2 hr; simp; omega
  have hs : eolSearch (pre ++ rest) pre.length =
      (pre.length + body.length, pre.length + body.length + term.length) := by
    simp only [eolSearch, Nat.min_eq_left (Nat.le_of_lt hlt)]
    rw [List.drop_left, h1, h2]
  unfold tableFrom
  rw [eolTable, dif_pos hlt]
  simp only [hs, List.map_cons]
  have hrest : pre ++ rest = pre ++ body ++ (term ++ tail) := by rw [hl.1]; simp
  rw [hrest, findBOL_eq pre body (term ++ tail) hp hl.2.1]

theorem tableFrom_end (src : Str) (pos : Nat) (h : src.length ≤ pos) : tableFrom src pos = [] := by
  unfold tableFrom
  rw [eolTable, dif_neg (by omega)]; rfl

theorem EndsLine_term (pre body term : Str) (h : term = c!"\n" ∨ term = c!"\r\n" ∨ term = c!"\r") :
    EndsLine (pre ++ body ++ term) := by
  right
  rcases h with rfl | rfl | rfl
  · exact ⟨pre ++ body, '\n', rfl, rfl⟩
  · exact ⟨pre ++ body ++ c!"\r", '\n', by simp, rfl⟩
  · exact ⟨pre ++ body, '\r', rfl, rfl⟩

/-- Row and column according to a (part of the) line table. -/
def rowColOf (T : List (Nat × Nat)) (p : Nat) : Option (Nat × Int) :=
  (T.findIdx? fun l => l.1 ≤ p && p ≤ l.2).bind fun n => T[n]?.map fun l => (n + 1, (p : Int) - l.1 + 1)

theorem rowColOf_cons_out (l : Nat × Nat) (T : List (Nat × Nat)) (p : Nat)
    (h : ¬ (l.1 ≤ p ∧ p ≤ l.2)) :
    rowColOf (l :: T) p = (rowColOf T p).map fun x => (x.1 + 1, x.2) := by
  have hb : (decide (l.1 ≤ p) && decide (p ≤ l.2)) = false := by
    rw [Bool.eq_false_iff]; simpa using h
  unfold rowColOf
  simp only [List.findIdx?_cons, hb, Bool.false_eq_true, if_false]
  cases T.findIdx? (fun l => decide (l.1 ≤ p) && decide (p ≤ l.2)) with
  | none => simp
  | some n =>
    simp only [Option.map_some, Option.bind_some, List.getElem?_cons_succ]
    cases T[n]? <;> simp

theorem table_spec (n : Nat) : ∀ (pre rest : Str) (p : Nat), rest.length ≤ n → EndsLine pre →
    rowColOf (tableFrom (pre ++ rest) pre.length) p =
      if p < pre.length then none
      else (walk 1 1 rest (p - pre.length)).map fun x => (x.1, (x.2 : Int)) := by
  induction n with
  | zero =>
    intro pre rest p hn hp
    have : rest = [] := List.length_eq_zero_iff.1 (by omega)
    subst this
    rw [tableFrom_end _ _ (by simp)]
    cases hq : p - pre.length <;> simp [rowColOf, walk]
  | succ n ih =>
    intro pre rest p hn hp
    by_cases hr : rest = []
    · subst hr
      rw [tableFrom_end _ _ (by simp)]
      cases hq : p - pre.length <;> simp [rowColOf, walk]
    · obtain ⟨body, term, tail, ⟨h1, h2, h3⟩, h4⟩ := tableFrom_line pre rest hp hr
      rw [h4]
      have hrest : rest = body ++ (term ++ tail) := by rw [h1]; simp
      by_cases hin : pre.length ≤ p ∧ p ≤ pre.length + body.length
      · -- on this line
        have hb : (decide (pre.length ≤ p) && decide (p ≤ pre.length + body.length)) = true := by
          simpa using hin
        unfold rowColOf
        simp only [List.findIdx?_cons, hb, if_true, Option.bind_some, List.getElem?_cons_zero,
          Option.map_some]
        rw [if_neg (by omega), hrest,
          walk_in_line body 1 1 (term ++ tail) (p - pre.length) h2 (by omega) (by omega)
            (by intro ht _ hbn; apply hr; rw [hrest, hbn, ht]; rfl)]
        simp; omega
      · rw [rowColOf_cons_out _ _ _ hin]
        by_cases hlt : p < pre.length
        · -- before this line
          rw [if_pos hlt]
          rcases h3 with h3 | h3 | h3 | h3
          · have := ih (pre ++ body ++ term) tail p (by subst h3; subst h1; simp at hn; omega)
              (EndsLine_term pre body term (Or.inl h3))
            rw [show pre ++ body ++ term ++ tail = pre ++ rest by rw [h1]; simp,
              show (pre ++ body ++ term).length = pre.length + body.length + term.length by simp; omega] at this
            rw [this, if_pos (by omega)]; rfl
          · have := ih (pre ++ body ++ term) tail p (by subst h3; subst h1; simp at hn; omega)
              (EndsLine_term pre body term (Or.inr (Or.inl h3)))
            rw [show pre ++ body ++ term ++ tail = pre ++ rest by rw [h1]; simp,
              show (pre ++ body ++ term).length = pre.length + body.length + term.length by simp; omega] at this
            rw [this, if_pos (by omega)]; rfl
          · have := ih (pre ++ body ++ term) tail p (by rw [h3.1] at h1; subst h1; simp at hn; omega)
              (EndsLine_term pre body term (Or.inr (Or.inr h3.1)))
            rw [show pre ++ body ++ term ++ tail = pre ++ rest by rw [h1]; simp,
              show (pre ++ body ++ term).length = pre.length + body.length + term.length by simp; omega] at this
            rw [this, if_pos (by omega)]; rfl
          · rw [tableFrom_end _ _ (by rw [hrest, h3.1, h3.2]; simp)]; simp [rowColOf]
        · -- after this line
          rw [if_neg hlt]
          have hpos : pre.length + body.length < p := by omega
          obtain ⟨q, hq⟩ : ∃ q, p = pre.length + (body.length + (q + 1)) :=
            ⟨p - pre.length - body.length - 1, by omega⟩
          have hwalk : walk 1 1 rest (p - pre.length) = walk 1 (1 + body.length) (term ++ tail) (q + 1) := by
            rw [hq, hrest, show pre.length + (body.length + (q + 1)) - pre.length = body.length + (q + 1) by omega,
              walk_past_line body 1 1 (term ++ tail) (q + 1) h2]
          rw [hwalk]
          rcases h3 with h3 | h3 | h3 | h3
          · have := ih (pre ++ body ++ term) tail p (by subst h3; subst h1; simp at hn; omega)
              (EndsLine_term pre body term (Or.inl h3))
            rw [show pre ++ body ++ term ++ tail = pre ++ rest by rw [h1]; simp,
              show (pre ++ body ++ term).length = pre.length + body.length + term.length by simp; omega] at this
            rw [this]
            subst h3
            rw [if_neg (by simp; omega), show p - (pre.length + body.length + c!"\n".length) = q by simp; omega]
            have hw : walk 1 (1 + body.length) (c!"\n" ++ tail) (q + 1) = walk (1 + 1) 1 tail q := by
              simp [walk, isEolChar]
            rw [hw, walk_shift 1 tail q 1 1]
            cases walk 1 1 tail q <;> simp
          · have := ih (pre ++ body ++ term) tail p (by subst h3; subst h1; simp at hn; omega)
              (EndsLine_term pre body term (Or.inr (Or.inl h3)))
            rw [show pre ++ body ++ term ++ tail = pre ++ rest by rw [h1]; simp,
              show (pre ++ body ++ term).length = pre.length + body.length + term.length by simp; omega] at this
            rw [this]
            subst h3
            have hw : walk 1 (1 + body.length) (c!"\r\n" ++ tail) (q + 1) =
                if q = 0 then none else walk (1 + 1) 1 tail (q - 1) := by
              simp [walk]
            rw [hw]
            by_cases hq0 : q = 0
            · rw [if_pos (by simp; omega), if_pos hq0]; rfl
            · rw [if_neg (by simp; omega), if_neg hq0,
                show p - (pre.length + body.length + c!"\r\n".length) = q - 1 by simp; omega,
                walk_shift 1 tail (q - 1) 1 1]
              cases walk 1 1 tail (q - 1) <;> simp
          · have := ih (pre ++ body ++ term) tail p (by rw [h3.1] at h1; subst h1; simp at hn; omega)
              (EndsLine_term pre body term (Or.inr (Or.inr h3.1)))
            rw [show pre ++ body ++ term ++ tail = pre ++ rest by rw [h1]; simp,
              show (pre ++ body ++ term).length = pre.length + body.length + term.length by simp; omega] at this
            rw [this]
            obtain ⟨h3, h3'⟩ := h3
            subst h3
            rw [if_neg (by simp; omega), show p - (pre.length + body.length + c!"\r".length) = q by simp; omega]
            have hw : walk 1 (1 + body.length) (c!"\r" ++ tail) (q + 1) = walk (1 + 1) 1 tail q := by
              exact walk_term _ _ _ _ _ (by simp [isEolChar])
                (by rintro s' _ rfl; simp at h3')
            rw [hw, walk_shift 1 tail q 1 1]
            cases walk 1 1 tail q <;> simp
          · rw [tableFrom_end _ _ (by rw [hrest, h3.1, h3.2]; simp), h3.1, h3.2]
            simp [rowColOf, walk]

/-- The code's row and column are those of the walk. -/
theorem getRowCol_eq_walk (src : Str) (p : Nat) :
    getRowCol src p = match walk 1 1 src p with
      | some (r, c) => .ok (r, (c : Int))
      | none => .error .typeError := by
  have h := table_spec src.length [] src p (Nat.le_refl _) (Or.inl rfl)
  simp only [List.nil_append, List.length_nil, Nat.not_lt_zero, if_false, Nat.sub_zero] at h
  have ht : tableFrom src 0 = lineTable src := rfl
  rw [ht] at h
  unfold getRowCol lineNum
  unfold rowColOf at h
  cases hi : (lineTable src).findIdx? (fun l => decide (l.1 ≤ p) && decide (p ≤ l.2)) with
  | none =>
    rw [hi] at h
    cases hw : walk 1 1 src p with
    | none => rfl
    | some x => rw [hw] at h; simp at h
  | some n =>
    rw [hi] at h
    have hlt : n < (lineTable src).length := by
      have := List.findIdx?_eq_some_iff_getElem.1 hi
      exact this.1
    simp only [Option.bind_some, List.getElem?_eq_getElem hlt, Option.map_some] at h ⊢
    cases hw : walk 1 1 src p with
    | none => rw [hw] at h; cases h
    | some x =>
      rw [hw] at h
      simp only [Option.map_some, Option.some.injEq] at h
      rw [h]

theorem walk_decl (s : Str) (p : Nat) : ∀ row col r c, walk row col s p = some (r, c) →
    p ≤ s.length ∧ ∃ A B, s.take p = A ++ B ∧ (∀ d ∈ B, isEolChar d = false) ∧
      ((A = [] ∧ r = row ∧ c = col + B.length) ∨
       ((∃ q d, A = q ++ [d] ∧ isEolChar d = true) ∧ r = row + numTerms A ∧ c = 1 + B.length)) := by
  intro row col
  fun_induction walk row col s p with
  | case1 => intro r c h; simp at h
  | case2 row col hcol =>
    intro r c h; simp at h
    exact ⟨by simp, [], [], by simp, by simp, Or.inl ⟨rfl, h.1.symm, by simp [h.2]⟩⟩
  | case3 => intro r c h; simp at h
  | case4 row col d s =>
    intro r c h; simp at h
    exact ⟨by simp, [], [], by simp, by simp, Or.inl ⟨rfl, h.1.symm, by simp [h.2]⟩⟩
  | case5 => intro r c h; simp at h
  | case6 row col s p hp ih =>
    intro r c h
    obtain ⟨h1, A, B, h2, h3, h4⟩ := ih r c h
    obtain ⟨p, rfl⟩ : ∃ q, p = q + 1 := ⟨p - 1, by omega⟩
    simp at h1 h2
    refine ⟨by simp; omega, '\r' :: '\n' :: A, B, by simp [h2], h3, Or.inr ?_⟩
    rcases h4 with ⟨hA, hr, hc⟩ | ⟨⟨q, d, hA, hd⟩, hr, hc⟩
    · subst hA; exact ⟨⟨c!"\r", '\n', rfl, rfl⟩, by simp [numTerms, hr], by simpa using hc⟩
    · exact ⟨⟨'\r' :: '\n' :: q, d, by simp [hA], hd⟩, by simp [numTerms, hr]; omega, hc⟩
  | case7 row col d s p hne hd ih =>
    intro r c h
    obtain ⟨h1, A, B, h2, h3, h4⟩ := ih r c h
    have hnum : numTerms (d :: A) = 1 + numTerms A := by
      apply numTerms_term d A hd
      intro s' hd' hA
      cases s with
      | nil => rw [hA] at h2; simp at h2
      | cons e s =>
        cases p with
        | zero => rw [hA] at h2; simp at h2
        | succ p => rw [hA] at h2; simp at h2; exact hne s hd' (by rw [h2.1])
    refine ⟨by simpa using h1, d :: A, B, by simp [h2], h3, Or.inr ?_⟩
    rcases h4 with ⟨hA, hr, hc⟩ | ⟨⟨q, e, hA, he⟩, hr, hc⟩
    · subst hA; exact ⟨⟨[], d, rfl, hd⟩, by rw [hnum, hr]; simp [numTerms], hc⟩
    · exact ⟨⟨d :: q, e, by simp [hA], he⟩, by rw [hnum, hr]; omega, hc⟩
  | case8 row col d s p hne hd ih =>
    intro r c h
    obtain ⟨h1, A, B, h2, h3, h4⟩ := ih r c h
    simp at hd
    rcases h4 with ⟨hA, hr, hc⟩ | ⟨⟨q, e, hA, he⟩, hr, hc⟩
    · subst hA
      simp at h2
      refine ⟨by simpa using h1, [], d :: B, by simp [h2], ?_, Or.inl ⟨rfl, hr, by simp [hc]; omega⟩⟩
      intro e he; simp at he; rcases he with rfl | he
      · exact hd
      · exact h3 e he
    · have hnum : numTerms (d :: A) = numTerms A := numTerms_nonterm d A hd
      exact ⟨by simpa using h1, d :: A, B, by simp [h2], h3,
        Or.inr ⟨⟨d :: q, e, by simp [hA], he⟩, by rw [hnum]; exact hr, hc⟩⟩

/-- **C13, meaning.** When a row and column are reported for a position `p`, split
the text before `p` at the last line terminator, `A ++ B`: the row is one more
than the number of terminators in `A` (`\r\n` counting once), the column one
more than the number of characters in `B`. -/
theorem C13_row_col_meaning (src : Str) (p row : Nat) (col : Int)
    (h : getRowCol src p = .ok (row, col)) :
    p ≤ src.length ∧ ∃ A B, src.take p = A ++ B ∧ (∀ c ∈ B, isEolChar c = false) ∧
      (A = [] ∨ ∃ q c, A = q ++ [c] ∧ isEolChar c = true) ∧
      row = numTerms A + 1 ∧ col = B.length + 1 := by
  rw [getRowCol_eq_walk] at h
  cases hw : walk 1 1 src p with
  | none => rw [hw] at h; cases h
  | some x =>
    obtain ⟨r, c⟩ := x
    rw [hw] at h
    simp at h
    obtain ⟨h1, A, B, h2, h3, h4⟩ := walk_decl src p 1 1 r c hw
    refine ⟨h1, A, B, h2, h3, ?_⟩
    rcases h4 with ⟨hA, hr, hc⟩ | ⟨hA, hr, hc⟩
    · exact ⟨Or.inl hA, by subst hA; simp [numTerms]; omega, by omega⟩
    · exact ⟨Or.inr hA, by omega, by omega⟩

theorem walk_ge (s : Str) (p : Nat) : ∀ row col r c, walk row col s p = some (r, c) →
    row < r ∨ (r = row ∧ c = col + p) := by
  intro row col
  fun_induction walk row col s p with
  | case1 => intro r c h; simp at h
  | case2 row col hcol => intro r c h; simp at h; omega
  | case3 => intro r c h; simp at h
  | case4 row col d s => intro r c h; simp at h; omega
  | case5 => intro r c h; simp at h
  | case6 row col s p hp ih => intro r c h; have := ih r c h; omega
  | case7 row col d s p hne hd ih => intro r c h; have := ih r c h; omega
  | case8 row col d s p hne hd ih => intro r c h; have := ih r c h; omega

theorem walk_inj (s : Str) (p : Nat) : ∀ row col q x, walk row col s p = some x →
    walk row col s q = some x → p = q := by
  intro row col
  fun_induction walk row col s p with
  | case1 => intro q x h; simp at h
  | case2 row col hcol =>
    intro q x h h'
    cases q with
    | zero => rfl
    | succ q => simp [walk] at h'
  | case3 => intro q x h; simp at h
  | case4 row col d s =>
    intro q x h h'
    obtain ⟨r, c⟩ := x
    simp at h
    have := walk_ge _ _ _ _ _ _ h'
    omega
  | case5 => intro q x h; simp at h
  | case6 row col s p hp ih =>
    intro q x h h'
    obtain ⟨r, c⟩ := x
    have hge := walk_ge _ _ _ _ _ _ h
    cases q with
    | zero => simp [walk] at h'; omega
    | succ q =>
      simp only [walk] at h'
      split at h'
      · cases h'
      · have := ih (q - 1) _ h h'; omega
  | case7 row col d s p hne hd ih =>
    intro q x h h'
    obtain ⟨r, c⟩ := x
    have hge := walk_ge _ _ _ _ _ _ h
    cases q with
    | zero => simp [walk] at h'; omega
    | succ q =>
      have he : walk row col (d :: s) (q + 1) = walk (row + 1) 1 s q := by
        rw [walk]
        · simp [hd]
        · exact hne
      rw [he] at h'
      have := ih q _ h h'; omega
  | case8 row col d s p hne hd ih =>
    intro q x h h'
    obtain ⟨r, c⟩ := x
    have hge := walk_ge _ _ _ _ _ _ h
    cases q with
    | zero => simp [walk] at h'; omega
    | succ q =>
      simp at hd
      rw [walk_nonterm _ _ _ _ _ hd] at h'
      have := ih q _ h h'; omega

/-- **C13, injectivity.** Two positions with the same row and column are the same. -/
theorem C13_injective (src : Str) (p q : Nat) (rc : Nat × Int)
    (hp : getRowCol src p = .ok rc) (hq : getRowCol src q = .ok rc) : p = q := by
  rw [getRowCol_eq_walk] at hp hq
  cases hw : walk 1 1 src p with
  | none => rw [hw] at hp; cases hp
  | some x =>
    cases hw' : walk 1 1 src q with
    | none => rw [hw'] at hq; cases hq
    | some y =>
      rw [hw] at hp; rw [hw'] at hq
      simp at hp hq
      have : x = y := by
        rw [← hq] at hp; simp at hp; exact Prod.ext hp.1 (by omega)
      subst this
      exact walk_inj src p 1 1 q x hw hw'

theorem walk_none_iff (s : Str) (p : Nat) : ∀ row col, 1 ≤ col → (walk row col s p = none ↔
    s.length < p ∨
    (p = s.length ∧ ((s = [] ∧ col = 1) ∨ ∃ t c, s = t ++ [c] ∧ isEolChar c = true)) ∨
    (∃ a b, s = a ++ '\r' :: '\n' :: b ∧ p = a.length + 1)) := by
  have snoc_cons : ∀ (d : Char) (s : Str), s ≠ [] →
      ((∃ t c, d :: s = t ++ [c] ∧ isEolChar c = true) ↔
        ∃ t c, s = t ++ [c] ∧ isEolChar c = true) := by
    intro d s hs
    constructor
    · rintro ⟨t, c, h, hc⟩
      cases t with
      | nil => simp at h; exact absurd h.2 hs
      | cons e t => simp at h; exact ⟨t, c, h.2, hc⟩
    · rintro ⟨t, c, h, hc⟩; exact ⟨d :: t, c, by simp [h], hc⟩
  intro row col
  fun_induction walk row col s p with
  | case1 row => intro _; simp
  | case2 row col hcol => intro _; simp [hcol]
  | case3 => intro _; simp
  | case4 row col d s => intro _; simp
  | case5 row col s => 
    intro _
    simp only [true_iff]
    exact Or.inr (Or.inr ⟨[], s, rfl, by simp⟩)
  | case6 row col s p hp ih =>
    intro _
    rw [ih (by omega)]
    obtain ⟨p, rfl⟩ : ∃ q, p = q + 1 := ⟨p - 1, by omega⟩
    simp only [Nat.add_sub_cancel, List.length_cons]
    constructor
    · rintro (h | ⟨h1, h2⟩ | ⟨a, b, h1, h2⟩)
      · exact Or.inl (by omega)
      · refine Or.inr (Or.inl ⟨by omega, Or.inr ?_⟩)
        rcases h2 with ⟨rfl, _⟩ | ⟨t, c, rfl, hc⟩
        · exact ⟨c!"\r", '\n', rfl, rfl⟩
        · exact ⟨'\r' :: '\n' :: t, c, rfl, hc⟩
      · exact Or.inr (Or.inr ⟨'\r' :: '\n' :: a, b, by simp [h1], by simp [h2]⟩)
    · rintro (h | ⟨h1, h2⟩ | ⟨a, b, h1, h2⟩)
      · exact Or.inl (by omega)
      · refine Or.inr (Or.inl ⟨by omega, ?_⟩)
        rcases h2 with ⟨h2, _⟩ | ⟨t, c, h2, hc⟩
        · cases h2
        · cases s with
          | nil => exact Or.inl ⟨rfl, trivial⟩
          | cons e s =>
            right
            have := (snoc_cons '\n' (e :: s) (by simp)).1
              ((snoc_cons '\r' _ (by simp)).1 ⟨t, c, h2, hc⟩)
            exact this
      · match a with
        | [] => simp at h2
        | [x] => simp at h1
        | x :: y :: a =>
          simp at h1 h2
          exact Or.inr (Or.inr ⟨a, b, h1.2.2, by omega⟩)
  | case7 row col d s p hne hd ih =>
    intro _
    rw [ih (by omega)]
    simp only [List.length_cons]
    constructor
    · rintro (h | ⟨h1, h2⟩ | ⟨a, b, h1, h2⟩)
      · exact Or.inl (by omega)
      · refine Or.inr (Or.inl ⟨by omega, Or.inr ?_⟩)
        rcases h2 with ⟨rfl, _⟩ | ⟨t, c, rfl, hc⟩
        · exact ⟨[], d, rfl, hd⟩
        · exact ⟨d :: t, c, rfl, hc⟩
      · exact Or.inr (Or.inr ⟨d :: a, b, by simp [h1], by simp [h2]⟩)
    · rintro (h | ⟨h1, h2⟩ | ⟨a, b, h1, h2⟩)
      · exact Or.inl (by omega)
      · refine Or.inr (Or.inl ⟨by omega, ?_⟩)
        rcases h2 with ⟨h2, _⟩ | ⟨t, c, h2, hc⟩
        · cases h2
        · cases s with
          | nil => exact Or.inl ⟨rfl, trivial⟩
          | cons e s => exact Or.inr ((snoc_cons d _ (by simp)).1 ⟨t, c, h2, hc⟩)
      · cases a with
        | nil =>
          simp at h1
          exact absurd h1.2 (fun h => hne b h1.1 h)
        | cons x a =>
          simp at h1 h2
          exact Or.inr (Or.inr ⟨a, b, h1.2, by omega⟩)
  | case8 row col d s p hne hd ih =>
    intro hcol
    rw [ih (by omega)]
    simp at hd
    simp only [List.length_cons]
    constructor
    · rintro (h | ⟨h1, h2⟩ | ⟨a, b, h1, h2⟩)
      · exact Or.inl (by omega)
      · refine Or.inr (Or.inl ⟨by omega, Or.inr ?_⟩)
        rcases h2 with ⟨rfl, h⟩ | ⟨t, c, rfl, hc⟩
        · omega
        · exact ⟨d :: t, c, rfl, hc⟩
      · exact Or.inr (Or.inr ⟨d :: a, b, by simp [h1], by simp [h2]⟩)
    · rintro (h | ⟨h1, h2⟩ | ⟨a, b, h1, h2⟩)
      · exact Or.inl (by omega)
      · refine Or.inr (Or.inl ⟨by omega, ?_⟩)
        rcases h2 with ⟨h2, _⟩ | ⟨t, c, h2, hc⟩
        · cases h2
        · cases s with
          | nil =>
            cases t with
            | nil => simp at h2; rw [h2] at hd; rw [hd] at hc; cases hc
            | cons x t => simp at h2
          | cons e s => exact Or.inr ((snoc_cons d _ (by simp)).1 ⟨t, c, h2, hc⟩)
      · cases a with
        | nil =>
          simp at h1
          exact absurd h1.2 (fun h => hne b h1.1 h)
        | cons x a =>
          simp at h1 h2
          exact Or.inr (Or.inr ⟨a, b, h1.2, by omega⟩)

/-- **C13, positions without a row.** `getRowCol` fails (TypeError) exactly for
positions outside the text, for the position after a final line terminator (or
in an empty source), and between the two characters of a `\r\n`. -/
theorem C13_fails_iff (src : Str) (p : Nat) :
    getRowCol src p = .error .typeError ↔
      src.length < p ∨
      (p = src.length ∧ (src = [] ∨ ∃ t c, src = t ++ [c] ∧ isEolChar c = true)) ∨
      (∃ a b, src = a ++ '\r' :: '\n' :: b ∧ p = a.length + 1) := by
  have h := walk_none_iff src p 1 1 (by omega)
  simp only [and_true] at h
  rw [← h, getRowCol_eq_walk]
  cases walk 1 1 src p <;> simp

/-- **C13, order.** Rows and columns increase with the position: of two positions
with a row, the later one is on a later row, or on the same row further right. -/
theorem C13_monotone (src : Str) (p q : Nat) (r1 r2 : Nat) (c1 c2 : Int)
    (hp : getRowCol src p = .ok (r1, c1)) (hq : getRowCol src q = .ok (r2, c2)) (hlt : p < q) :
    r1 < r2 ∨ (r1 = r2 ∧ c2 = c1 + (q - p)) := by
  have key : ∀ (s : Str) (p : Nat) row col q r1 c1 r2 c2, walk row col s p = some (r1, c1) →
      walk row col s q = some (r2, c2) → p < q → r1 < r2 ∨ (r1 = r2 ∧ c2 = c1 + (q - p)) := by
    intro s p row col
    fun_induction walk row col s p with
    | case1 => intro q r1 c1 r2 c2 h; simp at h
    | case2 row col hcol =>
      intro q r1 c1 r2 c2 h h' hl
      cases q with
      | zero => omega
      | succ q => simp [walk] at h'
    | case3 => intro q r1 c1 r2 c2 h; simp at h
    | case4 row col d s =>
      intro q r1 c1 r2 c2 h h' hl
      simp at h
      have := walk_ge _ _ _ _ _ _ h'
      omega
    | case5 => intro q r1 c1 r2 c2 h; simp at h
    | case6 row col s p hp ih =>
      intro q r1 c1 r2 c2 h h' hl
      cases q with
      | zero => omega
      | succ q =>
        simp only [walk] at h'
        split at h'
        · cases h'
        · have := ih (q - 1) _ _ _ _ h h' (by omega); omega
    | case7 row col d s p hne hd ih =>
      intro q r1 c1 r2 c2 h h' hl
      cases q with
      | zero => omega
      | succ q =>
        have he : walk row col (d :: s) (q + 1) = walk (row + 1) 1 s q := by
          rw [walk]
          · simp [hd]
          · exact hne
        rw [he] at h'
        have := ih q _ _ _ _ h h' (by omega); omega
    | case8 row col d s p hne hd ih =>
      intro q r1 c1 r2 c2 h h' hl
      cases q with
      | zero => omega
      | succ q =>
        simp at hd
        rw [walk_nonterm _ _ _ _ _ hd] at h'
        have := ih q _ _ _ _ h h' (by omega); omega
  rw [getRowCol_eq_walk] at hp hq
  cases hw : walk 1 1 src p with
  | none => rw [hw] at hp; cases hp
  | some x =>
    cases hw' : walk 1 1 src q with
    | none => rw [hw'] at hq; cases hq
    | some y =>
      obtain ⟨a, b⟩ := x
      obtain ⟨c, d⟩ := y
      rw [hw] at hp; rw [hw'] at hq
      simp at hp hq
      have := key src p 1 1 q a b c d hw hw' hlt
      omega

example : getRowCol c!"ab\r\n\ncd" 6 = .ok (3, 2) ∧ getRowCol c!"ab\r\n\ncd" 3 = .error .typeError ∧
    getRowCol c!"ab\n" 3 = .error .typeError := by decide +kernel

end Cheetah.Reader
