import Verif.Props.ParserText
import Verif.Props.SourceReader
/-
C35: sequences of block directives are accepted exactly if they are balanced.
-/
namespace Cheetah.Parser
open Reader (EndsLine)

/-! ### Reading at a known place

`x.src = a ++ b` says that the cursor, at `a.length`, is between the texts `a` and `b`. -/

theorem goto_le {x : Cx} (hx : Std x) {p : Nat} (h : p ≤ x.src.length) : x.goto p = .ok p := by
  rw [Cx.goto, hx.bp, if_pos h]

theorem peek_head {x : Cx} (hx : Std x) {a b : Str} (h : x.src = a ++ b) : x.peek a.length = b.head? := by
  unfold Cx.peek
  rw [hx.bp]
  have h1 : x.src[a.length]? = b.head? := by
    rw [h, List.head?_eq_getElem?, List.getElem?_append_right (Nat.le_refl _), Nat.sub_self]
  rw [h1]
  split
  · rfl
  · rename_i hl
    cases b with
    | nil => rfl
    | cons c b => rw [h] at hl; simp at hl

theorem peek!_head {x : Cx} (hx : Std x) {a b : Str} {c : Char} (h : x.src = a ++ c :: b) : x.peek! a.length = .ok c := by
  unfold Cx.peek!
  rw [hx.bp, if_neg (by rw [h]; simp)]
  have h1 : x.src[a.length]? = some c := by
    rw [h, List.getElem?_append_right (Nat.le_refl _), Nat.sub_self]; rfl
  rw [h1]

theorem EndsLine.newline (a t : Str) : EndsLine (a ++ t ++ c!"\n") := .inr ⟨a ++ t, '\n', rfl, rfl⟩

theorem EndsLine.unescaped {a : Str} (ha : EndsLine a) : a.getLast? ≠ some '\\' := by
  rcases ha with rfl | ⟨q, d, rfl, hd⟩
  · simp
  · simp only [List.getLast?_append, List.getLast?_singleton, Option.some_or, ne_eq, Option.some.injEq]
    rintro rfl
    exact absurd hd (by decide)

/-- A text after which there are only blanks since the start of the line. -/
def Clear (a : Str) : Prop := ∃ b i, a = b ++ i ∧ EndsLine b ∧ ∀ c ∈ i, c ∈ c!" \t\x0c"

theorem EndsLine.clear {a : Str} (ha : EndsLine a) : Clear a := ⟨a, [], by simp, ha, by simp⟩

theorem Clear.unescaped {a : Str} (ha : Clear a) : a.getLast? ≠ some '\\' := by
  obtain ⟨b, i, rfl, hb, hi⟩ := ha
  rcases List.eq_nil_or_concat i with rfl | ⟨i', c, rfl⟩
  · rw [List.append_nil]
    exact EndsLine.unescaped hb
  · simp only [List.concat_eq_append] at hi ⊢
    have := hi c (by simp)
    rw [← List.append_assoc, List.getLast?_append, List.getLast?_singleton]
    simp only [Option.some_or, ne_eq, Option.some.injEq]
    rintro rfl
    exact absurd this (by decide)

theorem lineClear_at {x : Cx} {a b : Str} (h : x.src = a ++ b) (ha : Clear a) : x.lineClear a.length = true := by
  obtain ⟨u, i, rfl, hu, hi⟩ := ha
  unfold Cx.lineClear
  have := Reader.findBOL_eq u i b hu (fun c hc => by
    have := hi c hc
    simp only [List.mem_cons, List.not_mem_nil, or_false] at this
    rcases this with rfl | rfl | rfl <;> decide)
  rw [h, List.length_append, this]
  have hs : x.slice u.length (u.length + i.length) = i := by
    unfold Cx.slice
    rw [h, ← List.length_append, List.take_left, List.drop_left]
  simp only [hs, Bool.or_eq_true, List.all_eq_true]
  right
  intro c hc
  have := hi c hc
  simp only [List.mem_cons, List.not_mem_nil, or_false] at this
  rcases this with rfl | rfl | rfl <;> decide +kernel

theorem eolScan_at {t b : Str} (ht : ∀ c ∈ t, c ≠ '\r' ∧ c ≠ '\n') : Reader.eolScan (t ++ '\n' :: b) = (t.length, 1) := by
  induction t with
  | nil => rw [List.nil_append, Reader.eolScan.eq_def]; simp
  | cons c t ih =>
    have h1 := ht c (by simp)
    rw [List.cons_append, Reader.eolScan.eq_def]
    split
    · rename_i he; cases he
    · rename_i he; injection he with he; exact absurd he h1.1
    · rename_i he
      injection he with he1 he2
      subst he1 he2
      rw [if_neg (by simp [h1]), ih fun d hd => ht d (by simp [hd])]
      rfl

theorem eol_at {x : Cx} {a t b : Str} (h : x.src = a ++ t ++ '\n' :: b) (ht : ∀ c ∈ t, c ≠ '\r' ∧ c ≠ '\n') :
    x.eol a.length = (a ++ t).length ∧ x.eolGobble a.length = (a ++ t).length + 1 := by
  unfold Cx.eol Cx.eolGobble Reader.eolSearch
  have h1 : min a.length x.src.length = a.length := by rw [h]; simp
  have h2 : x.src.drop a.length = t ++ '\n' :: b := by rw [h, List.append_assoc, List.drop_left]
  simp only [h1, h2, eolScan_at ht, List.length_append, and_self]

theorem ws_none {x : Cx} (hx : Std x) {a b : Str} (h : x.src = a ++ b) (hb : ∀ c, b.head? = some c → c ∉ c!" \t\x0c") : x.ws a.length = [] :=
  ws_at (w := []) (by rw [h, List.append_nil]) hx.bp (by simp) hb

theorem matchTok_none {x : Cx} {t a b : Str} {c : Char} (h : x.src = a ++ c :: b) (hc : t.head? ≠ some c) (ht : t ≠ []) : x.matchTok t a.length = none := by
  refine matchTok_miss x t a (c :: b) h fun r hr => ?_
  cases t with
  | nil => exact ht rfl
  | cons d t =>
    injection hr with hr
    exact hc (by rw [hr]; rfl)

/-! ### Words -/

/-- An identifier. -/
def Word (w : Str) : Prop := ∃ c r, w = c :: r ∧ identStart c = true ∧ ∀ d ∈ r, identChar d = true

theorem identStart_char {c : Char} (h : identStart c = true) : identChar c = true := by
  unfold identStart at h
  unfold identChar Char.isAlphanum
  simp only [Bool.or_eq_true] at *
  rcases h with h | h
  · exact .inl (.inl h)
  · exact .inr h

theorem Word.all {w : Str} (h : Word w) : ∀ d ∈ w, identChar d = true := by
  obtain ⟨c, r, rfl, h1, h2⟩ := h
  intro d hd
  rcases List.mem_cons.1 hd with rfl | hd
  · exact identStart_char h1
  · exact h2 d hd

theorem Word.takeWhile {w r : Str} {c : Char} (h : Word w) (hc : identChar c = false) : (w ++ c :: r).takeWhile identChar = w :=
  (takeWhile_stop (a := w) (t := c :: r) h.all (by simpa using hc)).1

theorem identChar_special {c : Char} (h : identChar c = true) : c ∉ c!"()[]{} \t\x0c\r\n\\$#" := by
  intro hm
  simp only [List.mem_cons, List.not_mem_nil, or_false] at hm
  rcases hm with rfl | rfl | rfl | rfl | rfl | rfl | rfl | rfl | rfl | rfl | rfl | rfl | rfl | rfl <;> exact absurd h (by decide)

theorem Word.no_eol {w : Str} (h : Word w) : ∀ d ∈ w, d ≠ '\r' ∧ d ≠ '\n' := by
  intro d hd
  have := identChar_special (h.all d hd)
  simp at this
  exact ⟨this.2.2.2.2.2.2.2.2.2.1, this.2.2.2.2.2.2.2.2.2.2.1⟩

/-- The tokenizer reads identifiers as a whole (if no quote follows). -/
def TokWords (tok : Str → Option Nat) : Prop :=
  ∀ w c r, Word w → identChar c = false → c ≠ '\'' → c ≠ '"' → tok (w ++ c :: r) = some w.length

theorem simpleTok_words : TokWords simpleTok := by
  intro w c r hw hc _ _
  have h1 := hw.takeWhile (r := r) hc
  obtain ⟨d, t, rfl, hd, _⟩ := hw
  rw [List.cons_append] at h1 ⊢
  rw [simpleTok, if_pos (identStart_char hd), h1]

variable {x : Px}

/-- One identifier in an expression outside brackets. -/
theorem exprParts_word (hx : Std x.toCx) (hT : TokWords x.tok) (st : GenVar.Settings) {brk : List Str} {a w r : Str} {c : Char} (n : Nat) (h : x.src = a ++ w ++ c :: r)
    (hw : Word w) (hc : identChar c = false) (hq : c ≠ '\'' ∧ c ≠ '"') (hbrk : w ∉ brk) (hf : w ≠ c!"for")
    (hpar : x.peek ((a ++ w).length + (x.ws (a ++ w).length).length) ≠ some '(') :
    x.exprParts (n + 1) st false brk [] a.length =
      (x.exprParts n st false brk [] ((a ++ w).length + (x.ws (a ++ w).length).length) >>= fun (bs, q) => .ok (w :: x.ws (a ++ w).length :: bs, q)) := by
  have ht := pyTok_at h hx.bp (hT w c r hw hc hq.1 hq.2)
  rw [← List.length_append] at ht
  have hpk : x.peek (a ++ w).length = some c := peek_head hx h
  obtain ⟨d, w', hw', hd, _⟩ := id hw
  have h' : x.src = a ++ d :: (w' ++ c :: r) := by rw [h, hw']; simp
  have hsp := identChar_special (identStart_char hd)
  obtain ⟨h1, h2, h3, h4, h5, h6⟩ := not_special (c := d) (by simp at hsp ⊢; tauto)
  have hcfg := hx.cfg
  obtain ⟨ns, hcfg⟩ := hx.cfg
  obtain ⟨v1, v2⟩ := novar_at (x := x.toCx) h' (by rw [hcfg]; rfl) h6
  have hde : x.matchTok x.cfg.dirEnd a.length = none := matchTok_none h' (by rw [hcfg]; simp [Cfg.std] at hsp ⊢; tauto) (by rw [hcfg]; simp [Cfg.std])
  conv_lhs => unfold Px.exprParts
  rw [peek_head hx h']
  simp only [List.head?_cons, h1, h2, h3, h4, h5, hde, v1, v2, ht, hbrk, hf, bind, Except.bind, Px.transform, hpk, Bool.false_eq_true, if_false, and_true, and_false,
    Option.isSome_none, false_and, Option.some.injEq, hq.1, hq.2, or_self]
  have hh : headIs identStart w = true := by rw [hw']; exact hd
  simp only [hh, if_true, hpar, if_false]

/-- The end of the line ends an expression. -/
theorem exprParts_eol (hx : Std x.toCx) (st : GenVar.Settings) {brk : List Str} {a r : Str} (n : Nat) (h : x.src = a ++ '\n' :: r) :
    x.exprParts (n + 1) st false brk [] a.length = .ok ([], a.length) := by
  obtain ⟨ns, hcfg⟩ := hx.cfg
  have hde : x.matchTok x.cfg.dirEnd a.length = none := matchTok_none h (by rw [hcfg]; simp [Cfg.std]) (by rw [hcfg]; simp [Cfg.std])
  conv_lhs => unfold Px.exprParts
  rw [peek_head hx h]
  simp [isOpen, isClose, isWs, hde]

theorem newline_facts : identChar '\n' = false ∧ (('\n' : Char) ≠ '\'' ∧ ('\n' : Char) ≠ '"') := by decide

theorem space_facts : identChar ' ' = false ∧ ((' ' : Char) ≠ '\'' ∧ (' ' : Char) ≠ '"') := by decide

/-- A word and the end of the line. -/
theorem exprParts_wordEol (hx : Std x.toCx) (hT : TokWords x.tok) (st : GenVar.Settings) {brk : List Str} {a w r : Str} (n : Nat) (h : x.src = a ++ w ++ '\n' :: r)
    (hw : Word w) (hbrk : w ∉ brk) (hf : w ≠ c!"for") :
    x.exprParts (n + 2) st false brk [] a.length = .ok ([w, []], (a ++ w).length) := by
  have hws : x.ws (a ++ w).length = [] := ws_none hx h (by simp)
  rw [exprParts_word hx hT st (n + 1) h hw newline_facts.1 newline_facts.2 hbrk hf (by rw [hws, List.length_nil, Nat.add_zero, peek_head hx h]; simp),
    hws]
  simp only [List.length_nil, Nat.add_zero, exprParts_eol hx st n h]
  rfl

/-- White space in an expression outside brackets. -/
theorem exprParts_space (hx : Std x.toCx) (st : GenVar.Settings) {brk : List Str} {a w r : Str} (n : Nat) (h : x.src = a ++ ' ' :: (w ++ r)) (hw : Word w) :
    x.exprParts (n + 1) st false brk [] a.length = (x.exprParts n st false brk [] (a ++ c!" ").length >>= fun (bs, q) => .ok (c!" " :: bs, q)) := by
  have hws : x.ws a.length = c!" " := by
    refine ws_at (w := c!" ") (r := w ++ r) (by rw [h]; simp) hx.bp (by simp) ?_
    obtain ⟨d, w', rfl, hd, _⟩ := hw
    intro c hc
    simp only [List.cons_append, List.head?_cons, Option.some.injEq] at hc
    subst hc
    have := identChar_special (identStart_char hd)
    simp at this ⊢
    tauto
  conv_lhs => unfold Px.exprParts
  rw [peek_head hx h]
  simp [isOpen, isClose, isWs, hws]

/-- Two words and the end of the line. -/
theorem exprParts_two (hx : Std x.toCx) (hT : TokWords x.tok) (st : GenVar.Settings) {brk : List Str} {a v w r : Str} (n : Nat) (h : x.src = a ++ v ++ ' ' :: (w ++ '\n' :: r))
    (hv : Word v) (hw : Word w) (hbrk : v ∉ brk ∧ w ∉ brk) (hf : v ≠ c!"for" ∧ w ≠ c!"for") :
    x.exprParts (n + 3) st false brk [] a.length = .ok ([v, c!" ", w, []], (a ++ v ++ c!" " ++ w).length) := by
  have hws : x.ws (a ++ v).length = c!" " := by
    refine ws_at (w := c!" ") (r := w ++ '\n' :: r) (by rw [h]; simp) hx.bp (by simp) ?_
    obtain ⟨d, w', rfl, hd, _⟩ := hw
    intro c hc
    simp only [List.cons_append, List.head?_cons, Option.some.injEq] at hc
    subst hc
    have := identChar_special (identStart_char hd)
    simp at this ⊢
    tauto
  have h2 : x.src = (a ++ v ++ c!" ") ++ w ++ '\n' :: r := by rw [h]; simp
  have hlen : (a ++ v).length + (c!" " : Str).length = (a ++ v ++ c!" ").length := (List.length_append (as := a ++ v)).symm
  have hpk : x.peek (a ++ v ++ c!" ").length ≠ some '(' := by
    rw [peek_head hx (a := a ++ v ++ c!" ") (b := w ++ '\n' :: r) (by rw [h]; simp)]
    obtain ⟨d, w', rfl, hd, _⟩ := hw
    have := identChar_special (identStart_char hd)
    simp at this ⊢
    tauto
  rw [exprParts_word hx hT st (n + 2) h hv space_facts.1 space_facts.2 hbrk.1 hf.1 (by rw [hws, hlen]; exact hpk), hws, hlen,
    exprParts_wordEol hx hT st n h2 hw hbrk.2 hf.2]
  rfl

/-- The word `for`: what follows it is read up to `in`. -/
theorem exprParts_for (hx : Std x.toCx) (hT : TokWords x.tok) (st : GenVar.Settings) {brk : List Str} {a r : Str} {c : Char} (n : Nat) (h : x.src = a ++ c!"for" ++ c :: r)
    (hc : identChar c = false) (hq : c ≠ '\'' ∧ c ≠ '"') (hbrk : c!"for" ∉ brk) :
    x.exprParts (n + 1) st false brk [] a.length =
      (x.exprParts n { st with useNameMapper := false } false [c!"in"] [] (a ++ c!"for").length >>= fun (e, q2) =>
        x.exprParts n st false brk [] q2 >>= fun (bs, q) => .ok (c!"for" :: e.flatten :: bs, q)) := by
  have hw : Word c!"for" := ⟨'f', c!"or", rfl, by decide, by decide⟩
  have ht := pyTok_at h hx.bp (hT _ c r hw hc hq.1 hq.2)
  rw [← List.length_append] at ht
  have hpk : x.peek (a ++ c!"for").length = some c := peek_head hx h
  have h' : x.src = a ++ 'f' :: (c!"or" ++ c :: r) := by rw [h]; simp
  obtain ⟨ns, hcfg⟩ := hx.cfg
  obtain ⟨v1, v2⟩ := novar_at (x := x.toCx) h' (by rw [hcfg]; rfl) (by decide)
  have hde : x.matchTok x.cfg.dirEnd a.length = none := matchTok_none h' (by rw [hcfg]; simp [Cfg.std]) (by rw [hcfg]; simp [Cfg.std])
  conv_lhs => unfold Px.exprParts
  rw [peek_head hx h']
  have e1 : isOpen 'f' = false := by decide
  have e2 : isClose 'f' = false := by decide
  have e3 : isWs 'f' = false := by decide
  have e4 : headIs identStart c!"for" = true := by decide
  simp only [List.head?_cons, e1, e2, e3, hde, v1, v2, ht, hbrk, bind, Except.bind, Px.transform, hpk, Bool.false_eq_true, if_false, and_true, and_false,
    Option.isSome_none, false_and, Option.some.injEq, hq.1, hq.2, or_self, e4, if_true, Char.reduceEq]

/-! ### Parts of a directive -/

theorem skip_none (hx : Std x.toCx) {a b : Str} (h : x.src = a ++ b) (hb : ∀ c, b.head? = some c → c ∉ c!" \t\x0c") : x.skip a.length = a.length := by
  unfold Cx.skip
  rw [ws_none hx h hb]
  rfl

theorem Word.head {w : Str} (h : Word w) (r : Str) : ∀ c, (w ++ r).head? = some c → identStart c = true := by
  obtain ⟨d, w', rfl, hd, _⟩ := h
  intro c hc
  simp only [List.cons_append, List.head?_cons, Option.some.injEq] at hc
  subst hc
  exact hd

theorem identStart_ws {c : Char} (h : identStart c = true) : c ∉ c!" \t\x0c" := by
  have := identChar_special (identStart_char h)
  simp at this ⊢
  tauto

theorem skip_one (hx : Std x.toCx) {a w r : Str} (h : x.src = a ++ ' ' :: (w ++ r)) (hw : Word w) : x.skip a.length = (a ++ c!" ").length := by
  unfold Cx.skip
  rw [ws_at (w := c!" ") (r := w ++ r) (by rw [h]; simp) hx.bp (by simp) fun c hc => identStart_ws (hw.head r c hc)]
  simp

theorem dirStart_at (hx : Std x.toCx) {a r : Str} {c : Char} (h : x.src = a ++ '#' :: c :: r) (ha : a.getLast? ≠ some '\\') (hc : identStart c = true) :
    x.dirStart a.length = .ok (a ++ c!"#").length := by
  obtain ⟨ns, hcfg⟩ := hx.cfg
  have hu : x.unescaped a.length = true := by
    rw [unescaped_iff h]
    exact ha
  have : x.matchDirStart a.length = some (a ++ c!"#").length := by
    unfold Cx.matchDirStart
    rw [if_pos hu, rest_after h, hcfg]
    simp [Cfg.std, stripPrefix?, headIs, hc]
  unfold Px.dirStart
  rw [this]
  exact goto_le hx (by rw [h]; simp)

theorem afterName_at (hx : Std x.toCx) {a n r : Str} {c : Char} (h : x.src = a ++ '#' :: (n ++ c :: r)) (ha : a.getLast? ≠ some '\\') (hn : Word n) :
    x.afterName n a.length = .ok (a ++ c!"#" ++ n).length := by
  unfold Px.afterName
  obtain ⟨d, n', hn', hd, _⟩ := id hn
  rw [dirStart_at hx (r := n' ++ c :: r) (c := d) (by rw [h, hn']; rfl) ha hd]
  simp only [bind, Except.bind]
  rw [← List.length_append]
  exact goto_le hx (by rw [h]; simp)

theorem colon_eol (hx : Std x.toCx) {a r : Str} (h : x.src = a ++ '\n' :: r) : x.colon a.length = .ok false := by
  unfold Px.colon
  rw [peek_head hx h]
  simp

theorem skipColon_eol (hx : Std x.toCx) {a r : Str} (h : x.src = a ++ '\n' :: r) : x.skipColon a.length = .ok a.length := by
  unfold Px.skipColon
  rw [peek!_head hx h]
  simp only [bind, Except.bind, Char.reduceEq, if_false]
  rw [goto_le hx (by rw [h]; simp)]
  simp only
  rw [skip_none hx h (by simp)]

theorem restTag_eol (hx : Std x.toCx) {a r : Str} (h : x.src = a ++ '\n' :: r) {e : Nat} (he : e ≤ a.length) :
    x.restTag true e a.length = .ok ([.handleWS], (a ++ c!"\n").length) := by
  obtain ⟨ns, hcfg⟩ := hx.cfg
  have hco : x.matchTok x.cfg.com a.length = none := matchTok_none h (by rw [hcfg]; simp [Cfg.std]) (by rw [hcfg]; simp [Cfg.std])
  have hde : x.matchTok x.cfg.dirEnd a.length = none := matchTok_none h (by rw [hcfg]; simp [Cfg.std]) (by rw [hcfg]; simp [Cfg.std])
  have heol := (eol_at (x := x.toCx) (a := a) (t := []) (b := r) (by rw [h]; simp) (by simp)).2
  unfold Px.restTag Px.tagComment
  rw [hco]
  simp only [bind, Except.bind]
  have : x.tagEnd true false a.length = .ok (a ++ c!"\n").length := by
    unfold Px.tagEnd
    rw [hde, peek_head hx h]
    simp only [Bool.false_eq_true, if_false, List.head?_cons, true_and, or_true, if_true, heol, List.append_nil]
    rw [goto_le hx (by rw [h]; simp)]
    simp
  rw [this]
  simp
  omega

theorem matchDirective_at (hx : Std x.toCx) {a r n : Str} (h : x.src = a ++ '#' :: r) (hu : a.getLast? ≠ some '\\') (hr : ∃ c, r.head? = some c ∧ (Letter c ∨ c = '@'))
    (hn : directiveOf x.cfg.names r = some n) : x.matchDirective a.length = .ok (some n) ∧ x.tagAt a.length = .ok (some .directive) := by
  obtain ⟨ns, hcfg⟩ := id hx.cfg
  obtain ⟨o, h1, h2⟩ := matchDirective_spec (x := x.toCx) (by rw [hcfg]; rfl) (by rw [hcfg]; rfl) hx.bp h
  have h3 : o = some n := (h2 n).2 ⟨hu, r, rfl, hr, hn⟩
  subst h3
  refine ⟨h1, ?_⟩
  obtain ⟨c, hc, hc'⟩ := hr
  have hne : c ≠ '#' ∧ c ≠ '*' := by
    rcases hc' with (hc' | hc') | hc'
    · constructor <;> (rintro rfl; exact absurd hc' (by decide))
    · subst hc'; decide
    · subst hc'; decide
  cases r with
  | nil => cases hc
  | cons d r =>
    cases hc
    have hco : (x.matchTok x.cfg.com a.length).isSome = false := by
      rw [matchTok_miss x.toCx _ a _ h (by rw [hcfg]; intro r'; simp [Cfg.std, hne])]; rfl
    have hml : (x.matchTok x.cfg.mlStart a.length).isSome = false := by
      rw [matchTok_miss x.toCx _ a _ h (by rw [hcfg]; intro r'; simp [Cfg.std, hne])]; rfl
    have hv : x.matchVarStart a.length = false := by
      unfold Cx.matchVarStart; rw [rest_after h, hcfg]; simp [Cfg.std, stripPrefix?]
    have hv2 : x.matchExprStart a.length = false := by
      unfold Cx.matchExprStart; rw [rest_after h, hcfg]; simp [Cfg.std, stripPrefix?]
    unfold Cx.tagAt
    simp [hco, hml, hv, hv2, h1, bind, Except.bind]

/-! ### Opening directives -/

/-- The cursor stands before the line `#n w`. -/
structure OpenLine (x : Px) (a n w b : Str) : Prop where
  std : Std x.toCx
  toks : TokWords x.tok
  src : x.src = a ++ '#' :: (n ++ ' ' :: (w ++ '\n' :: b))
  start : Clear a
  name : Word n
  word : Word w
  not_for : w ≠ c!"for"

namespace OpenLine
variable {a n w b : Str} (o : OpenLine x a n w b)
include o

/-- The end of the line. -/
theorem src_end : x.src = (a ++ c!"#" ++ n ++ c!" " ++ w) ++ '\n' :: b := by rw [o.src]; simp

theorem src_word : x.src = (a ++ c!"#" ++ n ++ c!" ") ++ w ++ '\n' :: b := by rw [o.src]; simp

theorem src_name : x.src = (a ++ c!"#") ++ n ++ ' ' :: (w ++ '\n' :: b) := by rw [o.src]; simp

theorem src_space : x.src = (a ++ c!"#" ++ n) ++ ' ' :: (w ++ '\n' :: b) := by rw [o.src]; simp

theorem eol : x.eol a.length = (a ++ c!"#" ++ n ++ c!" " ++ w).length := by
  have := (eol_at (x := x.toCx) (a := a) (t := c!"#" ++ n ++ c!" " ++ w) (b := b) (by rw [o.src]; simp) ?_).1
  · rw [this]; simp
  · intro c hc
    simp only [List.mem_append, List.mem_cons, List.not_mem_nil, or_false] at hc
    rcases hc with ((rfl | hc) | rfl) | hc
    · decide
    · exact o.name.no_eol c hc
    · decide
    · exact o.word.no_eol c hc

theorem clear : x.lineClear a.length = true := lineClear_at o.src o.start

theorem dirStart : x.dirStart a.length = .ok (a ++ c!"#").length := by
  obtain ⟨d, n', hn', hd, _⟩ := id o.name
  exact dirStart_at o.std (r := n' ++ ' ' :: (w ++ '\n' :: b)) (c := d) (by rw [o.src, hn']; rfl) o.start.unescaped hd

theorem afterName : x.afterName n a.length = .ok (a ++ c!"#" ++ n).length := afterName_at o.std o.src o.start.unescaped o.name

theorem skip_hash : x.skip (a ++ c!"#").length = (a ++ c!"#").length :=
  skip_none o.std (b := n ++ ' ' :: (w ++ '\n' :: b)) (by rw [o.src]; simp) fun c hc => identStart_ws (o.name.head _ c hc)

theorem skip_name : x.skip (a ++ c!"#" ++ n).length = (a ++ c!"#" ++ n ++ c!" ").length := skip_one o.std o.src_space o.word

theorem rest : x.restTag (x.lineClear a.length) (x.eol a.length) (a ++ c!"#" ++ n ++ c!" " ++ w).length =
    .ok ([.handleWS], (a ++ c!"#" ++ n ++ c!" " ++ w ++ c!"\n").length) := by
  rw [o.clear]
  exact restTag_eol o.std o.src_end (by rw [o.eol])

theorem colon : x.colon (a ++ c!"#" ++ n ++ c!" " ++ w).length = .ok false := colon_eol o.std o.src_end

theorem skipColon : x.skipColon (a ++ c!"#" ++ n ++ c!" " ++ w).length = .ok (a ++ c!"#" ++ n ++ c!" " ++ w).length := skipColon_eol o.std o.src_end

/-- The argument is read as an expression. -/
theorem expression (st : GenVar.Settings) (brk : List Str) (hb : w ∉ brk) :
    x.expression st false brk [] (a ++ c!"#" ++ n ++ c!" ").length = .ok (w, (a ++ c!"#" ++ n ++ c!" " ++ w).length) := by
  unfold Px.expression Px.fuel
  rw [show ∀ k, 4 * k + 4 = (4 * k + 2) + 2 by omega, exprParts_wordEol o.std o.toks st _ o.src_word o.word hb o.not_for]
  simp [bind, Except.bind]

/-- The name and the argument are read as an expression. -/
theorem parts2 (st : GenVar.Settings) (brk : List Str) (hb : n ∉ brk ∧ w ∉ brk) (hf : n ≠ c!"for") :
    x.exprParts (x.fuel (a ++ c!"#").length) st false brk [] (a ++ c!"#").length = .ok ([n, c!" ", w, []], (a ++ c!"#" ++ n ++ c!" " ++ w).length) := by
  unfold Px.fuel
  rw [show ∀ k, 4 * k + 4 = (4 * k + 1) + 3 by omega, exprParts_two o.std o.toks st _ o.src_name o.name o.word hb ⟨hf, o.not_for⟩]

end OpenLine

/-- The directive `n` with the argument `w` opens a block. -/
def OpensBlock (x : Px) (h : Env) (st : GenVar.Settings) (a n w : Str) : Prop :=
  (∃ cs, x.directive h st n a.length = .ok (.opened n cs (a ++ c!"#" ++ n ++ c!" " ++ w ++ c!"\n").length)) ∨
  ∃ kind cs, n = DefKind.name kind ∧ x.directive h st n a.length = .ok (.defOpen kind w [] cs (a ++ c!"#" ++ n ++ c!" " ++ w ++ c!"\n").length)

theorem opens_if {h : Env} {st : GenVar.Settings} {a w b : Str} (o : OpenLine x a c!"if" w b) (hw : w ∉ [c!":"]) : OpensBlock x h st a c!"if" w := by
  refine .inl ?_
  unfold Px.directive
  rw [if_neg (by decide), if_neg (by decide), if_pos rfl]
  unfold Px.ifDirective
  rw [o.dirStart]
  simp only [bind, Except.bind, o.parts2 st [c!":"] ⟨by decide, hw⟩ (by decide), o.colon, o.skipColon, o.rest]
  have hte : ¬ (c!"then" ∈ [c!"if", c!" ", w, []] ∧ c!"else" ∈ [c!"if", c!" ", w, []]) := by
    rintro ⟨h1, h2⟩
    simp only [List.mem_cons, List.not_mem_nil, or_false] at h1 h2
    rcases h1 with h1 | h1 | h1 | h1
    · exact absurd h1 (by decide)
    · exact absurd h1 (by decide)
    · subst h1
      exact absurd h2 (by decide)
    · exact absurd h1 (by decide)
  rw [if_neg hte]
  simp only [Bool.false_eq_true, if_false]
  exact ⟨_, rfl⟩

theorem opens_while {h : Env} {st : GenVar.Settings} {a n w b : Str} (hn : n = c!"while" ∨ n = c!"try") (o : OpenLine x a n w b) (hw : w ∉ [c!":"]) : OpensBlock x h st a n w := by
  refine .inl ?_
  unfold Px.directive
  rw [if_pos (by rcases hn with rfl | rfl <;> decide)]
  unfold Px.simpleIndenting Px.nameStart
  rw [if_neg (by rcases hn with rfl | rfl <;> decide), o.dirStart]
  simp only [bind, Except.bind, o.skip_hash, Px.expression, o.parts2 st [c!":"] ⟨by rcases hn with rfl | rfl <;> decide, hw⟩ (by rcases hn with rfl | rfl <;> decide),
    o.colon, o.skipColon, o.rest, Bool.false_eq_true, if_false]
  rw [if_pos (by rcases hn with rfl | rfl <;> decide)]
  exact ⟨_, rfl⟩

theorem opens_unless {h : Env} {st : GenVar.Settings} {a n w b : Str} (hn : n = c!"repeat" ∨ n = c!"unless") (o : OpenLine x a n w b) (hw : w ∉ [c!":"]) : OpensBlock x h st a n w := by
  refine .inl ?_
  unfold Px.directive
  rw [if_pos (by rcases hn with rfl | rfl <;> decide)]
  unfold Px.simpleIndenting Px.nameStart
  rw [if_pos (by rcases hn with rfl | rfl <;> decide), o.afterName]
  simp only [bind, Except.bind, o.skip_name, o.expression st [c!":"] hw, o.colon, o.skipColon, o.rest, Bool.false_eq_true, if_false]
  rw [if_pos (by rcases hn with rfl | rfl <;> decide)]
  exact ⟨_, rfl⟩

theorem opens_for {h : Env} {st : GenVar.Settings} {a w b : Str} (o : OpenLine x a c!"for" w b) (hw : w ≠ c!"in") : OpensBlock x h st a c!"for" w := by
  have hparts : x.exprParts (x.fuel (a ++ c!"#").length) st false [c!":"] [] (a ++ c!"#").length =
      .ok ([c!"for", c!" " ++ w], (a ++ c!"#" ++ c!"for" ++ c!" " ++ w).length) := by
    unfold Px.fuel
    rw [show ∀ k, 4 * k + 4 = (4 * k + 3) + 1 by omega, exprParts_for o.std o.toks st _ o.src_name space_facts.1 space_facts.2 (by decide)]
    rw [show ∀ k, 4 * k + 3 = (4 * k + 2) + 1 by omega, exprParts_space o.std _ _ o.src_space o.word, exprParts_wordEol o.std o.toks _ _ o.src_word o.word (by simpa using hw) o.not_for]
    simp only [bind, Except.bind]
    rw [exprParts_eol o.std st _ o.src_end]
    simp
  refine .inl ?_
  unfold Px.directive
  rw [if_pos (by decide)]
  unfold Px.simpleIndenting Px.nameStart
  rw [if_neg (by decide), o.dirStart]
  simp only [bind, Except.bind, o.skip_hash, Px.expression, hparts, o.colon, o.skipColon, o.rest, Bool.false_eq_true, if_false]
  rw [if_pos (by decide)]
  exact ⟨_, rfl⟩

theorem identifier_word (hx : Std x.toCx) {a w r : Str} {c : Char} (h : x.src = a ++ w ++ c :: r) (hw : Word w) (hc : identChar c = false) :
    x.identifier a.length = .ok (w, (a ++ w).length) := by
  unfold Px.identifier
  rw [rest_after (b := w ++ c :: r) (by rw [h]; simp), hw.takeWhile hc]
  have hh : headIs identStart (w ++ c :: r) = true := by
    obtain ⟨d, w', rfl, hd, _⟩ := hw
    exact hd
  rw [if_pos hh, ← List.length_append, goto_le hx (by rw [h]; simp)]
  simp only [bind, Except.bind]
  unfold Cx.slice
  rw [h, List.take_left' rfl, List.drop_left' rfl]

theorem novar_word (hx : Std x.toCx) {a w r : Str} (h : x.src = a ++ w ++ r) (hw : Word w) : x.matchVarStart a.length = false := by
  obtain ⟨d, w', rfl, hd, _⟩ := hw
  obtain ⟨ns, hcfg⟩ := hx.cfg
  refine (novar_at (x := x.toCx) (a := a) (c := d) (r := w' ++ r) (by rw [h]; simp) (by rw [hcfg]; rfl) ?_).2
  have := identChar_special (identStart_char hd)
  simp at this
  tauto

theorem opens_def {h : Env} {st : GenVar.Settings} {kind : DefKind} {a w b : Str} (o : OpenLine x a kind.name w b) : OpensBlock x h st a kind.name w := by
  refine .inr ⟨kind, [.handleWS], rfl, ?_⟩
  have hdir : x.directive h st kind.name a.length = x.definition st kind a.length := by
    cases kind <;> rfl
  rw [hdir]
  unfold Px.definition
  have hexpr : x.expression st false [] [] (a ++ c!"#" ++ kind.name ++ c!" " ++ w).length = .ok ([], (a ++ c!"#" ++ kind.name ++ c!" " ++ w).length) := by
    unfold Px.expression Px.fuel
    rw [exprParts_eol o.std st _ o.src_end]
    rfl
  have hskip : x.skip (a ++ c!"#" ++ kind.name ++ c!" " ++ w).length = (a ++ c!"#" ++ kind.name ++ c!" " ++ w).length := skip_none o.std o.src_end (by simp)
  have hrest : x.restTag (x.lineClear a.length) (x.eol (a ++ c!"#" ++ kind.name ++ c!" " ++ w).length) (a ++ c!"#" ++ kind.name ++ c!" " ++ w).length =
      .ok ([.handleWS], (a ++ c!"#" ++ kind.name ++ c!" " ++ w ++ c!"\n").length) := by
    rw [o.clear]
    refine restTag_eol o.std o.src_end (Nat.le_of_eq ?_)
    have := (eol_at (x := x.toCx) (a := a ++ c!"#" ++ kind.name ++ c!" " ++ w) (t := []) (b := b) (by rw [o.src_end]; simp) (by simp)).1
    rw [this, List.append_nil]
  rw [o.afterName]
  simp only [bind, Except.bind, o.skip_name, Px.skipVar, novar_word o.std o.src_word o.word, Bool.false_eq_true, if_false,
    identifier_word o.std o.src_word o.word newline_facts.1, hskip, Px.optArgs, peek!_head o.std o.src_end, Char.reduceEq, o.colon, false_and, hexpr, hrest]

theorem opens_capture {h : Env} {st : GenVar.Settings} {a w b : Str} (o : OpenLine x a c!"capture" w b) (hw : w ∉ [c!":"]) : OpensBlock x h st a c!"capture" w := by
  refine .inl ?_
  have hdir : x.directive h st c!"capture" a.length = x.captureDirective st a.length := rfl
  rw [hdir]
  unfold Px.captureDirective
  rw [o.afterName]
  simp only [bind, Except.bind, o.skip_name, o.expression st [c!":"] hw, o.colon, o.skipColon, o.rest, Bool.false_eq_true, if_false]
  exact ⟨_, rfl⟩

theorem opens_filter {h : Env} {st : GenVar.Settings} {a w b : Str} (o : OpenLine x a c!"filter" w b) : OpensBlock x h st a c!"filter" w := by
  refine .inl ?_
  have hdir : x.directive h st c!"filter" a.length = x.filterDirective st a.length := rfl
  rw [hdir]
  unfold Px.filterDirective Px.filterName
  have hskip : x.skip (a ++ c!"#" ++ c!"filter" ++ c!" " ++ w).length = (a ++ c!"#" ++ c!"filter" ++ c!" " ++ w).length := skip_none o.std o.src_end (by simp)
  rw [o.afterName]
  simp only [bind, Except.bind, o.skip_name, novar_word o.std o.src_word o.word, identifier_word o.std o.src_word o.word newline_facts.1,
    hskip, o.colon, o.skipColon, o.rest, Bool.false_eq_true, if_false]
  exact ⟨_, rfl⟩

theorem dottedName_word (hx : Std x.toCx) {a w r : Str} (h : x.src = a ++ w ++ '\n' :: r) (hw : Word w) : x.dottedName a.length = .ok (w, (a ++ w).length) := by
  have hid := identifier_word hx h hw newline_facts.1
  obtain ⟨d, w', hw', hd, _⟩ := id hw
  have h' : x.src = a ++ d :: (w' ++ '\n' :: r) := by rw [h, hw']; simp
  unfold Px.dottedName
  rw [peek!_head hx h']
  simp only [bind, Except.bind, hd, if_true]
  obtain ⟨k, hk⟩ : ∃ k, x.bp - a.length = k + 1 + 1 := by
    refine ⟨x.bp - a.length - 2, ?_⟩
    have : a.length + 2 ≤ x.bp := by rw [hx.bp, h']; simp; omega
    omega
  have hend : x.dottedLoop (k + 1) (a ++ w).length = .ok ([], (a ++ w).length) := by
    rw [Px.dottedLoop, peek_head hx h]
    have e1 : identChar '\n' = false := by decide
    simp only [List.head?_cons, e1, Bool.false_eq_true, if_false, Char.reduceEq, false_and]
  rw [hk, Px.dottedLoop, peek_head hx h']
  simp only [List.head?_cons, identStart_char hd, if_true, hid, bind, Except.bind, hend, List.append_nil]

theorem opens_call {h : Env} {st : GenVar.Settings} {a w b : Str} (o : OpenLine x a c!"call" w b) (hw : w ∉ [c!":"]) : OpensBlock x h st a c!"call" w := by
  refine .inl ?_
  have hdir : x.directive h st c!"call" a.length = x.callDirective st a.length := rfl
  obtain ⟨d, w', hw', hd, _⟩ := id o.word
  have hsw := o.src_word
  generalize hA : a ++ c!"#" ++ c!"call" ++ c!" " = A at hsw
  have hrest : x.rest A.length = d :: (w' ++ '\n' :: b) := by
    rw [rest_after (b := w ++ '\n' :: b) (by rw [hsw]; simp), hw']
    rfl
  have hle : A.length ≤ x.bp := by rw [o.std.bp, hsw]; simp
  have hsc : x.silentAndCache A.length = .ok (false, .none, A.length) := by
    have hsp := letter_no_silence (c := d) (.inl ((identStart_iff d).1 hd))
    have h1 : afterSilent (d :: (w' ++ '\n' :: b)) = d :: (w' ++ '\n' :: b) := by
      unfold afterSilent
      split
      · rename_i he; injection he with he; exact absurd he hsp
      · rfl
    have h2 : Interval.readToken (d :: (w' ++ '\n' :: b)) = (.none, d :: (w' ++ '\n' :: b)) := by
      have hstar : d ≠ '*' := by rintro rfl; exact absurd hd (by decide)
      unfold Interval.readToken Interval.matchRefresh
      split
      · rename_i he
        split at he
        · rename_i he2; injection he2 with he2; exact absurd he2 hstar
        · cases he
      · split
        · rename_i he2; injection he2 with he2; exact absurd he2 hstar
        · rfl
    unfold Px.silentAndCache
    simp only [hrest, h1, h2, Nat.sub_self, Nat.add_zero, hle, if_true, bne_self_eq_false]
  have hend : ∀ k st, x.nameChunks (k + 1) st (A ++ w).length = .ok ([], (A ++ w).length) := by
    intro k st
    rw [Px.nameChunks, peek_head o.std hsw]
    have e1 : identStart '\n' = false := by decide
    simp [e1]
  have hchunks : ∀ k st, x.nameChunks (k + 2) st A.length = .ok ([⟨w, true, []⟩], (A ++ w).length) := by
    intro k st
    rw [Px.nameChunks, peek_head o.std (b := w ++ '\n' :: b) (by rw [hsw]; simp), hw']
    have hdot : d ≠ '.' := by rintro rfl; exact absurd hd (by decide)
    have e2 := dottedName_word o.std hsw o.word
    have e3 : x.peek (A ++ w).length = some '\n' := peek_head o.std hsw
    rw [hw'] at e2 e3
    have e4 := hend k st
    rw [hw'] at e4
    simp only [List.cons_append, List.head?_cons, hd, hdot, or_false, not_true, if_false, false_and, bind, Except.bind, e2, e3, e4, Option.some.injEq, Char.reduceEq,
      GenVar.splitChunk, if_true, List.append_nil]
  have hname : ∀ st, x.callName st A.length = .ok (w, (A ++ w).length) := by
    intro st
    unfold Px.callName
    rw [novar_word o.std hsw o.word]
    simp only [Bool.false_eq_true, if_false]
    unfold Px.fuel
    rw [show ∀ k, 4 * k + 4 = (4 * k + 1 + 2) + 1 by omega, Px.cheetahVar]
    simp only [Px.varStart, if_true, bind, Except.bind, hsc, hchunks]
    simp [genVar, GenVar.genCheetahVar, GenVar.genPlainVar]
  have hexpr : ∀ st, x.expression st false [c!":"] [] (A ++ w).length = .ok ([], (A ++ w).length) := by
    intro st
    unfold Px.expression Px.fuel
    rw [exprParts_eol o.std st _ hsw]
    rfl
  have hskip : x.skip (A ++ w).length = (A ++ w).length := skip_none o.std hsw (by simp)
  rw [hdir]
  unfold Px.callDirective
  rw [o.afterName]
  have h1 := o.colon
  have h2 := o.skipColon
  have h3 := o.rest
  have h4 := o.skip_name
  rw [hA] at h1 h2 h3 h4
  simp only [bind, Except.bind, h4, hname, hskip, hexpr, h1, h2, h3, Bool.false_eq_true, if_false]
  subst hA
  exact ⟨_, rfl⟩

theorem opens_cache {h : Env} {st : GenVar.Settings} {a w b : Str} (o : OpenLine x a c!"cache" w b) : OpensBlock x h st a c!"cache" w := by
  refine .inl ?_
  have hdir : x.directive h st c!"cache" a.length = x.cacheDirective st a.length := rfl
  obtain ⟨d, w', hw', hd, hw2⟩ := id o.word
  obtain ⟨ns, hcfg⟩ := id o.std.cfg
  have hs1 := o.src_space
  have hs2 := o.src_word
  have heol : x.eol (a ++ c!"#" ++ c!"cache").length = (a ++ c!"#" ++ c!"cache" ++ c!" " ++ w).length := by
    have := (eol_at (x := x.toCx) (a := a ++ c!"#" ++ c!"cache") (t := c!" " ++ w) (b := b) (by rw [o.src]; simp) ?_).1
    · rw [this]; simp
    · intro c hc
      rcases List.mem_append.1 hc with hc | hc
      · simp at hc; subst hc; decide
      · exact o.word.no_eol c hc
  have hlt : (a ++ c!"#" ++ c!"cache" ++ c!" ").length < (a ++ c!"#" ++ c!"cache" ++ c!" " ++ w).length := by rw [hw']; simp
  have hsp := identChar_special (identStart_char hd)
  have hde : x.matchTok x.cfg.dirEnd (a ++ c!"#" ++ c!"cache").length = none :=
    matchTok_none hs1 (by rw [hcfg]; simp [Cfg.std]) (by rw [hcfg]; simp [Cfg.std])
  have hs3 : x.src = (a ++ c!"#" ++ c!"cache" ++ c!" ") ++ d :: (w' ++ '\n' :: b) := by rw [hs2, hw']; simp
  have hde2 : x.matchTok x.cfg.dirEnd (a ++ c!"#" ++ c!"cache" ++ c!" ").length = none :=
    matchTok_none hs3 (by rw [hcfg]; simp [Cfg.std] at hsp ⊢; tauto) (by rw [hcfg]; simp [Cfg.std])
  have hvar : startsWith (x.rest (a ++ c!"#" ++ c!"cache" ++ c!" ").length) x.cfg.var = false := by
    rw [rest_after hs3, hcfg]
    simp at hsp
    have : '$' ≠ d := by rintro rfl; tauto
    simp [Cfg.std, startsWith, stripPrefix?, this]
  have hA : ∀ k st as, x.defArgs (k + 1) st (some (a ++ c!"#" ++ c!"cache" ++ c!" " ++ w).length) false as (a ++ c!"#" ++ c!"cache" ++ c!" " ++ w).length =
      .ok (as, (a ++ c!"#" ++ c!"cache" ++ c!" " ++ w).length) := by
    intro k st as
    rw [Px.defArgs, peek_head o.std o.src_end]
    simp
  have hB : ∀ k st as, x.defArgs (k + 2) st (some (a ++ c!"#" ++ c!"cache" ++ c!" " ++ w).length) false as (a ++ c!"#" ++ c!"cache" ++ c!" ").length =
      .ok (as.addArgument w, (a ++ c!"#" ++ c!"cache" ++ c!" " ++ w).length) := by
    intro k st as
    rw [Px.defArgs, peek_head o.std hs3]
    simp at hsp
    have n1 : d ≠ ')' := by rintro rfl; tauto
    have n2 : d ≠ ':' := by rintro rfl; exact absurd hd (by decide)
    have n3 : d ≠ '=' := by rintro rfl; exact absurd hd (by decide)
    have n4 : d ≠ ',' := by rintro rfl; exact absurd hd (by decide)
    have n5 : isWs d = false := by
      cases hq : isWs d with
      | false => rfl
      | true => exact absurd ((isWs_mem).1 hq) (identStart_ws hd)
    have n6 : ¬ (d = '\r' ∨ d = '\n') := by tauto
    have n7 : (a ++ c!"#" ++ c!"cache" ++ c!" " ++ w).length ≠ (a ++ c!"#" ++ c!"cache" ++ c!" ").length := by omega
    simp only [List.head?_cons, Option.some.injEq, n7, if_false, n1, hde2, Option.isSome_none, Bool.false_eq_true, or_self, n2, n3, n4, n5, n6, or_false, hvar, false_and,
      hd, true_and, if_true, bind, Except.bind, identifier_word o.std hs2 o.word newline_facts.1, hA]
  have hC : ∀ k st as, x.defArgs (k + 3) st (some (a ++ c!"#" ++ c!"cache" ++ c!" " ++ w).length) false as (a ++ c!"#" ++ c!"cache").length =
      .ok (as.addArgument w, (a ++ c!"#" ++ c!"cache" ++ c!" " ++ w).length) := by
    intro k st as
    rw [Px.defArgs, peek_head o.std hs1]
    have n7 : (a ++ c!"#" ++ c!"cache" ++ c!" " ++ w).length ≠ (a ++ c!"#" ++ c!"cache").length := by
      have : (a ++ c!"#" ++ c!"cache").length < (a ++ c!"#" ++ c!"cache" ++ c!" ").length := by simp
      omega
    have e1 : isWs ' ' = true := by decide
    have e2 : (a ++ c!"#" ++ c!"cache").length + 1 = (a ++ c!"#" ++ c!"cache" ++ c!" ").length := (List.length_append (bs := c!" ")).symm
    simp only [List.head?_cons, Option.some.injEq, n7, if_false, Char.reduceEq, hde, Option.isSome_none, Bool.false_eq_true, or_self, e1, true_or, if_true, e2, hB]
  have hargs : ∃ as, x.defArgList st true (a ++ c!"#" ++ c!"cache").length = .ok (as, (a ++ c!"#" ++ c!"cache" ++ c!" " ++ w).length) := by
    unfold Px.defArgList
    rw [peek!_head o.std hs1]
    obtain ⟨k, hk⟩ : ∃ k, x.bp - (a ++ c!"#" ++ c!"cache").length + 1 = k + 3 := by
      refine ⟨x.bp - (a ++ c!"#" ++ c!"cache").length + 1 - 3, ?_⟩
      have : (a ++ c!"#" ++ c!"cache").length + 2 ≤ x.bp := by rw [o.std.bp, hs1]; simp; omega
      omega
    simp only [bind, Except.bind, Char.reduceEq, if_false, heol, goto_le o.std (show (a ++ c!"#" ++ c!"cache").length ≤ x.src.length by rw [hs1]; simp), hk, hC]
    exact ⟨_, rfl⟩
  obtain ⟨as, hargs⟩ := hargs
  rw [hdir]
  unfold Px.cacheDirective
  rw [o.afterName]
  simp only [bind, Except.bind, hargs, o.colon, o.skipColon, o.rest, Bool.false_eq_true, if_false]
  exact ⟨_, rfl⟩

/-- The directives that open a block. -/
def blockNames : List Str :=
  [c!"if", c!"unless", c!"for", c!"while", c!"repeat", c!"try", c!"call", c!"capture", c!"cache", c!"filter", c!"def", c!"block", c!"closure"]

theorem Word.not_colon {w : Str} (h : Word w) : w ∉ [c!":"] := by
  obtain ⟨d, r, rfl, hd, _⟩ := h
  simp only [List.mem_singleton, List.cons.injEq, not_and]
  rintro rfl
  exact absurd hd (by decide)

theorem opens_block {h : Env} {st : GenVar.Settings} {a n w b : Str} (hn : n ∈ blockNames) (o : OpenLine x a n w b) (hw : w ≠ c!"in") : OpensBlock x h st a n w := by
  have hc := o.word.not_colon
  simp only [blockNames, List.mem_cons, List.not_mem_nil, or_false] at hn
  rcases hn with rfl | rfl | rfl | rfl | rfl | rfl | rfl | rfl | rfl | rfl | rfl | rfl | rfl
  · exact opens_if o hc
  · exact opens_unless (.inr rfl) o hc
  · exact opens_for o hw
  · exact opens_while (.inl rfl) o hc
  · exact opens_unless (.inl rfl) o hc
  · exact opens_while (.inr rfl) o hc
  · exact opens_call o hc
  · exact opens_capture o hc
  · exact opens_cache o
  · exact opens_filter o
  · exact opens_def (kind := .def_) o
  · exact opens_def (kind := .block) o
  · exact opens_def (kind := .closure) o

/-! ### `#end` -/

theorem closes_block' {h : Env} {st : GenVar.Settings} (hx : Std x.toCx) (hT : TokWords x.tok) {a n b : Str} (hn : n ∈ blockNames)
    (hs : x.src = a ++ '#' :: (c!"end" ++ ' ' :: (n ++ '\n' :: b))) (ha : Clear a) :
    x.directive h st c!"end" a.length = .ok (.closed n [.handleWS] (a ++ c!"#end " ++ n ++ c!"\n").length) := by
  have hw : Word n := by
    simp only [blockNames, List.mem_cons, List.not_mem_nil, or_false] at hn
    rcases hn with rfl | rfl | rfl | rfl | rfl | rfl | rfl | rfl | rfl | rfl | rfl | rfl | rfl <;> exact ⟨_, _, rfl, by decide, by decide⟩
  have hend : Word c!"end" := ⟨_, _, rfl, by decide, by decide⟩
  have hs1 : x.src = (a ++ c!"#" ++ c!"end") ++ ' ' :: (n ++ '\n' :: b) := by rw [hs]; simp
  have hs2 : x.src = (a ++ c!"#" ++ c!"end" ++ c!" ") ++ n ++ '\n' :: b := by rw [hs]; simp
  have hs3 : x.src = (a ++ c!"#" ++ c!"end" ++ c!" ") ++ (n ++ '\n' :: b) := by rw [hs]; simp
  have hA : (a ++ c!"#end " ++ n ++ c!"\n") = a ++ c!"#" ++ c!"end" ++ c!" " ++ n ++ c!"\n" := by simp
  have hexpr : ∃ e, x.expression st false [] [] (a ++ c!"#" ++ c!"end" ++ c!" ").length = .ok (e, (a ++ c!"#" ++ c!"end" ++ c!" " ++ n).length) := by
    unfold Px.expression Px.fuel
    by_cases hf : n = c!"for"
    · subst hf
      rw [show ∀ k, 4 * k + 4 = (4 * k + 2) + 1 + 1 by omega, exprParts_for hx hT st _ hs2 newline_facts.1 newline_facts.2 (by simp), exprParts_eol hx _ _ hs2]
      simp only [bind, Except.bind]
      rw [exprParts_eol hx _ _ hs2]
      exact ⟨_, rfl⟩
    · rw [show ∀ k, 4 * k + 4 = (4 * k + 2) + 2 by omega, exprParts_wordEol hx hT st _ hs2 hw (by simp) hf]
      exact ⟨_, rfl⟩
  obtain ⟨e, hexpr⟩ := hexpr
  have hdir : x.directive h st c!"end" a.length = x.endDirective st a.length := rfl
  have heol : x.eol (a ++ c!"#" ++ c!"end" ++ c!" ").length = (a ++ c!"#" ++ c!"end" ++ c!" " ++ n).length :=
    (eol_at (x := x.toCx) hs2 hw.no_eol).1
  have hfind : (endNames.find? fun k => startsWith (n ++ '\n' :: b) k) = some n := by
    simp only [blockNames, List.mem_cons, List.not_mem_nil, or_false] at hn
    rcases hn with rfl | rfl | rfl | rfl | rfl | rfl | rfl | rfl | rfl | rfl | rfl | rfl | rfl <;> rfl
  have hcl : n ∈ closeable := by
    simp only [blockNames, List.mem_cons, List.not_mem_nil, or_false] at hn
    rcases hn with rfl | rfl | rfl | rfl | rfl | rfl | rfl | rfl | rfl | rfl | rfl | rfl | rfl <;> decide
  rw [hdir]
  unfold Px.endDirective
  rw [afterName_at hx hs ha.unescaped hend]
  simp only [bind, Except.bind, skip_one hx hs1 hw, rest_after hs3, hfind, hexpr, heol, lineClear_at hs ha, restTag_eol hx hs2 (Nat.le_refl _), hcl, if_true, hA]

theorem closes_block {h : Env} {st : GenVar.Settings} (hx : Std x.toCx) (hT : TokWords x.tok) {a n b : Str} (hn : n ∈ blockNames)
    (hs : x.src = a ++ '#' :: (c!"end" ++ ' ' :: (n ++ '\n' :: b))) (ha : Clear a) :
    ∃ cs, x.directive h st c!"end" a.length = .ok (.closed n cs (a ++ c!"#end " ++ n ++ c!"\n").length) :=
  ⟨_, closes_block' hx hT hn hs ha⟩

/-! ### Specification: sequences of block directives -/

/-- A line that opens a block, `#name word`, or ends one, `#end name`. -/
inductive Dir where
  | opn (name word : Str)
  | cls (name : Str)

/-- The line's text. -/
def Dir.line : Dir → Str
  | .opn n w => c!"#" ++ n ++ c!" " ++ w ++ c!"\n"
  | .cls n => c!"#end " ++ n ++ c!"\n"

/-- The name is that of a block directive; the word is an identifier, but not one of two Python keywords. -/
def Dir.Valid : Dir → Prop
  | .opn n w => n ∈ blockNames ∧ Word w ∧ w ≠ c!"for" ∧ w ≠ c!"in"
  | .cls n => n ∈ blockNames

/-- Lines of text without `#`, `$`, `<` and backslashes, and blanks before what follows them on its line. -/
def TextLines (t : Str) : Prop :=
  (∀ c ∈ t, c ∉ c!"#$<\\") ∧ ∃ lines blanks, t = lines ++ blanks ∧ (lines = [] ∨ lines.getLast? = some '\n') ∧ ∀ c ∈ blanks, c ∈ c!" \t\x0c"

/-- A source: directives with text before each of them, and text at the end. -/
def source : List (Str × Dir) → Str → Str
  | [], last => last
  | (t, d) :: ps, last => t ++ d.line ++ source ps last

/-- Properly nested: each block is ended by an `#end` with its own name. -/
inductive Balanced : List Dir → Prop
  | nil : Balanced []
  | block (n w : Str) (body rest : List Dir) : Balanced body → Balanced rest → Balanced (.opn n w :: body ++ .cls n :: rest)

/-- After these directives the blocks with these names are open, the innermost first. -/
inductive Pending : List Dir → List Str → Prop
  | nil (ds : List Dir) : Balanced ds → Pending ds []
  | opn (before : List Dir) (names : List Str) (n w : Str) (after : List Dir) : Pending before names → Balanced after →
      Pending (before ++ .opn n w :: after) (n :: names)

/-! ### The parser on such sources -/

/-- What the parser does with its stack. -/
def run : List Str → List Dir → Except Msg (List Str)
  | ns, [] => .ok ns
  | ns, .opn n _ :: ds => run (n :: ns) ds
  | [], .cls _ :: _ => .error .nothingToEnd
  | m :: ns, .cls n :: ds => if m = n then run ns ds else .error (.wrongEnd n m)

/-- `_useSearchList_orig` is set while it is needed. -/
def OrigOk (h : Env) (s : PS) (stack : List Str) : Prop :=
  (c!"closure" ∈ stack ∨ (h.nested = true ∧ 2 ≤ stack.count c!"def")) → s.orig ≠ none

theorem endBlock_ok {h : Env} {s : PS} {name : Str} (ho : OrigOk h s (name :: s.stack)) :
    ∃ t, h.endBlock s name = .ok t ∧ t.pos = s.pos ∧ t.bp = s.bp ∧ t.stack = s.stack ∧ t.orig = s.orig := by
  have restore : s.orig ≠ none → ∃ t, (match s.orig with
      | some b => Except.ok { s with st := { s.st with useSearchList := b }, cmds := s.cmds ++ [Cmd.commit, Cmd.dedent] }
      | none => Except.error Err.assertion) = .ok t ∧ t.pos = s.pos ∧ t.bp = s.bp ∧ t.stack = s.stack ∧ t.orig = s.orig := by
    intro hne
    cases h1 : s.orig with
    | none => exact absurd h1 hne
    | some b => exact ⟨_, rfl, rfl, rfl, rfl, rfl⟩
  unfold Env.endBlock
  split
  · subst name
    split
    · rename_i hn
      apply restore
      apply ho
      right
      unfold Env.nestedDef at hn
      rw [Bool.and_eq_true, decide_eq_true_eq] at hn
      refine ⟨hn.1, ?_⟩
      rw [List.count_cons_self]
      omega
    · exact ⟨_, rfl, rfl, rfl, rfl, rfl⟩
  split
  · exact ⟨_, rfl, rfl, rfl, rfl, rfl⟩
  split
  · exact ⟨_, rfl, rfl, rfl, rfl, rfl⟩
  split
  · exact ⟨_, rfl, rfl, rfl, rfl, rfl⟩
  split
  · exact ⟨_, rfl, rfl, rfl, rfl, rfl⟩
  split
  · exact ⟨_, rfl, rfl, rfl, rfl, rfl⟩
  split
  · subst name
    exact restore (ho (.inl (by simp)))
  · exact ⟨_, rfl, rfl, rfl, rfl, rfl⟩

/-- The settings and the tokenizer assumed here: the default tokens, no directive disabled, identifiers are tokens. -/
structure Plain (h : Env) : Prop where
  cfg : h.cfg = Cfg.std
  enabled : ∀ n, h.disabled n = false
  toks : TokWords h.tok

theorem Plain.std {h : Env} (hp : Plain h) : Std (h.px h.src.length).toCx := ⟨⟨stdNames, hp.cfg⟩, rfl⟩

theorem blockName_facts {n : Str} (hn : n ∈ blockNames) : Word n ∧ ∀ b, directiveOf stdNames (n ++ ' ' :: b) = some n := by
  simp only [blockNames, List.mem_cons, List.not_mem_nil, or_false] at hn
  rcases hn with rfl | rfl | rfl | rfl | rfl | rfl | rfl | rfl | rfl | rfl | rfl | rfl | rfl <;> exact ⟨⟨_, _, rfl, by decide, by decide⟩, fun b => rfl⟩

theorem line_tag {d : Dir} (hd : d.Valid) (b : Str) : ∃ c r name, d.line ++ b = '#' :: c :: r ∧ Letter c ∧ directiveOf stdNames (c :: r) = some name := by
  cases d with
  | opn n w =>
    obtain ⟨h1, h2⟩ := blockName_facts hd.1
    obtain ⟨c, n', rfl, hc, _⟩ := h1
    refine ⟨c, n' ++ ' ' :: (w ++ '\n' :: b), _, by simp [Dir.line], (identStart_iff c).1 hc, h2 (w ++ '\n' :: b)⟩
  | cls n => exact ⟨'e', c!"nd " ++ n ++ c!"\n" ++ b, c!"end", by simp [Dir.line], by unfold Letter; decide, rfl⟩

/-- Text before a directive, or at the end, takes one step. -/
theorem loop_text {h : Env} (hp : Plain h) {a t b : Str} {s : PS} {n : Nat} (hs : h.src = a ++ t ++ b) (hpos : s.pos = a.length) (hbp : s.bp = h.src.length)
    (ht : TextLines t) (hne : t ≠ []) (hb : b = [] ∨ TagStart stdNames (a ++ t) b) :
    ∃ cs, h.loop (n + 1) s = h.loop n (s.emit cs (a ++ t).length) := by
  have hnames : (h.px h.src.length).cfg.names = stdNames := by show h.cfg.names = _; rw [hp.cfg]; rfl
  have hno : ∀ u v, t = u ++ v → v ≠ [] → ¬ TagStart stdNames (a ++ u) (v ++ b) := by
    intro u v hu hv htag
    obtain ⟨c, r, hr, hc⟩ := htag.head
    cases v with
    | nil => exact hv rfl
    | cons e v =>
      injection hr with hr
      subst hr
      have := ht.1 e (by rw [hu]; simp)
      simp at this
      tauto
  have h1 := C34_text_between_tags (h.px h.src.length).toCx hp.std a t b hs (by rw [hnames]; exact hno) (by rw [hnames]; exact hb)
  obtain ⟨o, ho, h2⟩ := tagAt_spec hp.std (a := a) (b := t ++ b) (by rw [← List.append_assoc]; exact hs)
  have hnone : o = none := by
    cases o with
    | none => rfl
    | some v =>
      have := h2.1 (by simp)
      rw [hnames] at this
      have h3 := hno [] t rfl hne
      rw [List.append_nil] at h3
      exact absurd this h3
  subst hnone
  refine ⟨[.strConst (unescapeOnce '$' '#' t)], ?_⟩
  rw [Env.loop, hbp, hpos, if_neg (by rw [hs]; simp [hne])]
  simp only [ho, bind, Except.bind, reduceCtorEq, if_false, Px.simple, h1, Except.map]

/-- An opening directive takes one step. -/
theorem loop_open {h : Env} (hp : Plain h) {a n w b : Str} {s : PS} {k : Nat} (hs : h.src = a ++ (Dir.opn n w).line ++ b) (hpos : s.pos = a.length)
    (hbp : s.bp = h.src.length) (ha : Clear a) (hv : (Dir.opn n w).Valid) (ho : OrigOk h s s.stack) :
    ∃ t, h.loop (k + 3) s = h.loop (k + 2) t ∧ t.pos = (a ++ (Dir.opn n w).line).length ∧ t.bp = h.src.length ∧ t.stack = n :: s.stack ∧ OrigOk h t t.stack := by
  obtain ⟨h1, h2, h3, h4⟩ := hv
  have hsrc : (h.px h.src.length).src = a ++ '#' :: (n ++ ' ' :: (w ++ '\n' :: b)) := by show h.src = _; rw [hs]; simp [Dir.line]
  have ol : OpenLine (h.px h.src.length) a n w b := ⟨hp.std, hp.toks, hsrc, ha, (blockName_facts h1).1, h2, h3⟩
  obtain ⟨e1, e2⟩ := matchDirective_at hp.std (n := n) hsrc ha.unescaped
    (by
      obtain ⟨c, n', hn', hc, _⟩ := (blockName_facts h1).1
      exact ⟨c, by rw [hn']; rfl, .inl ((identStart_iff c).1 hc)⟩)
    (by
      have : (h.px h.src.length).cfg.names = stdNames := by show h.cfg.names = _; rw [hp.cfg]; rfl
      rw [this]
      exact (blockName_facts h1).2 _)
  have hlen : (a ++ (Dir.opn n w).line).length = (a ++ c!"#" ++ n ++ c!" " ++ w ++ c!"\n").length := by simp [Dir.line]
  have key : ∀ (t : PS), h.eatDirective (k + 2) s = .ok t → h.loop (k + 3) s = h.loop (k + 2) t := by
    intro t ht
    rw [Env.loop, hbp, hpos, if_neg (by rw [hs]; simp [Dir.line])]
    simp only [e2, bind, Except.bind, if_true, ht]
  have hoo : ∀ t : PS, t.orig = s.orig → t.stack = n :: s.stack → (n = c!"def" → h.nestedDef (c!"def" :: s.stack) 2 = false) → n ≠ c!"closure" → OrigOk h t t.stack := by
    intro t q1 q2 q3 q4 q5
    rw [q1]
    apply ho
    rw [q2] at q5
    rcases q5 with q5 | ⟨q5, q6⟩
    · left
      rcases List.mem_cons.1 q5 with q5 | q5
      · exact absurd q5.symm q4
      · exact q5
    · right
      refine ⟨q5, ?_⟩
      by_cases hd : n = c!"def"
      · have := q3 hd
        subst hd
        unfold Env.nestedDef at this
        rw [q5, Bool.true_and, decide_eq_false_iff_not] at this
        exact absurd q6 this
      · rwa [List.count_cons_of_ne hd] at q6
  have hdis := hp.enabled n
  rcases opens_block (h := h) (st := s.st) h1 ol h4 with ⟨cs, hd⟩ | ⟨kind, cs, hn, hd⟩
  · by_cases hk : n = c!"def" ∨ n = c!"closure"
    · exfalso
      rcases hk with rfl | rfl
      · rcases opens_def (h := h) (st := s.st) (kind := .def_) ol with ⟨cs', hd'⟩ | ⟨_, cs', _, hd'⟩
        · unfold Px.directive at hd
          simp only [indentingNames, exprNames] at hd
          have : (h.px h.src.length).definition s.st .def_ a.length = .ok (.opened c!"def" cs (a ++ c!"#" ++ c!"def" ++ c!" " ++ w ++ c!"\n").length) := hd
          unfold Px.definition at this
          revert this
          simp only [bind, Except.bind]
          repeat' split
          all_goals (intro h; cases h)
        · have hc := hd.symm.trans hd'
          injection hc with hc
          cases hc
      · rcases opens_def (h := h) (st := s.st) (kind := .closure) ol with ⟨cs', hd'⟩ | ⟨_, cs', _, hd'⟩
        · have : (h.px h.src.length).definition s.st .closure a.length = .ok (.opened c!"closure" cs (a ++ c!"#" ++ c!"closure" ++ c!" " ++ w ++ c!"\n").length) := hd
          unfold Px.definition at this
          revert this
          simp only [bind, Except.bind]
          repeat' split
          all_goals (intro h; cases h)
        · have hc := hd.symm.trans hd'
          injection hc with hc
          cases hc
    · refine ⟨{ s.emit cs (a ++ c!"#" ++ n ++ c!" " ++ w ++ c!"\n").length with stack := n :: s.stack }, key _ ?_, ?_⟩
      · rw [Env.eatDirective, hbp, hpos, e1]
        simp only [hdis, Bool.false_eq_true, if_false, hd, bind, Except.bind]
        rw [Env.perform]
      · refine ⟨hlen.symm, hbp, rfl, hoo _ rfl rfl (fun hd => absurd (.inl hd) hk) (fun hd => hk (.inr hd))⟩
  · refine ⟨_, key (h.openDef s kind w [] cs (a ++ c!"#" ++ n ++ c!" " ++ w ++ c!"\n").length) ?_, ?_⟩
    · rw [Env.eatDirective, hbp, hpos, e1]
      simp only [hdis, Bool.false_eq_true, if_false, hd, bind, Except.bind]
      rw [Env.perform]
    · unfold Env.openDef
      simp only
      split
      · rename_i hm
        refine ⟨hlen.symm, hbp, by rw [hn], ?_⟩
        refine hoo _ rfl (by rw [hn]) ?_ ?_
        · intro hdef
          rw [hn] at hdef
          cases kind with
          | def_ =>
            unfold asMethod at hm
            simp only [reduceCtorEq, true_and, false_or, decide_eq_true_eq] at hm
            exact hm
          | block => exact absurd hdef (by decide)
          | closure => exact absurd hdef (by decide)
        · intro hcl
          rw [hn] at hcl
          cases kind with
          | def_ => exact absurd hcl (by decide)
          | block => exact absurd hcl (by decide)
          | closure => unfold asMethod at hm; simp at hm
      · exact ⟨hlen.symm, hbp, by rw [hn], fun _ => by simp⟩

/-- An `#end` takes one step: it pops the innermost name, or is rejected. -/
theorem loop_close {h : Env} (hp : Plain h) {a n b : Str} {s : PS} {k : Nat} (hs : h.src = a ++ (Dir.cls n).line ++ b) (hpos : s.pos = a.length)
    (hbp : s.bp = h.src.length) (ha : Clear a) (hv : (Dir.cls n).Valid) (ho : OrigOk h s s.stack) :
    (s.stack = [] ∧ h.loop (k + 3) s = .error (.parse (a ++ (Dir.cls n).line).length .nothingToEnd)) ∨
    (∃ m ns, s.stack = m :: ns ∧ m ≠ n ∧ h.loop (k + 3) s = .error (.parse (a ++ (Dir.cls n).line).length (.wrongEnd n m))) ∨
    ∃ t, s.stack = n :: t.stack ∧ h.loop (k + 3) s = h.loop (k + 2) t ∧ t.pos = (a ++ (Dir.cls n).line).length ∧ t.bp = h.src.length ∧ OrigOk h t t.stack := by
  have hsrc : (h.px h.src.length).src = a ++ '#' :: (c!"end" ++ ' ' :: (n ++ '\n' :: b)) := by show h.src = _; rw [hs]; simp [Dir.line]
  obtain ⟨e1, e2⟩ := matchDirective_at hp.std (n := c!"end") hsrc ha.unescaped ⟨'e', rfl, .inl (by unfold Letter; decide)⟩
    (by
      have : (h.px h.src.length).cfg.names = stdNames := by show h.cfg.names = _; rw [hp.cfg]; rfl
      rw [this]
      rfl)
  have hlen : (a ++ (Dir.cls n).line).length = (a ++ c!"#end " ++ n ++ c!"\n").length := by simp [Dir.line]
  obtain ⟨cs, hd⟩ := closes_block (h := h) (st := s.st) hp.std hp.toks hv hsrc ha
  have step : h.loop (k + 3) s = (pop n (a ++ c!"#end " ++ n ++ c!"\n").length s.stack >>= fun stack =>
      h.endBlock { s.emit cs (a ++ c!"#end " ++ n ++ c!"\n").length with stack := stack } n) >>= h.loop (k + 2) := by
    rw [Env.loop, hbp, hpos, if_neg (by rw [hs]; simp [Dir.line])]
    simp only [e2, bind, Except.bind, if_true]
    rw [Env.eatDirective, hbp, hpos, e1]
    simp only [hp.enabled, Bool.false_eq_true, if_false, hd, bind, Except.bind]
    rw [Env.perform]
    rfl
  cases hst : s.stack with
  | nil =>
    left
    refine ⟨rfl, ?_⟩
    rw [step, hst, hlen]
    rfl
  | cons m ns =>
    right
    by_cases hm : m = n
    · right
      subst hm
      obtain ⟨t, h1, h2, h3, h4, h5⟩ := endBlock_ok (h := h) (s := { s.emit cs (a ++ c!"#end " ++ m ++ c!"\n").length with stack := ns }) (name := m)
        (by show OrigOk h s (m :: ns); rw [← hst]; exact ho)
      refine ⟨t, by rw [h4], ?_, h2.trans hlen.symm, h3.trans hbp, ?_⟩
      · rw [step, hst, pop, if_pos rfl]
        simp only [bind, Except.bind, h1]
      · intro q
        rw [h5]
        apply ho
        rw [h4] at q
        rw [hst]
        rcases q with q | ⟨q1, q2⟩
        · exact .inl (List.mem_cons_of_mem _ q)
        · exact .inr ⟨q1, Nat.le_trans q2 List.count_le_count_cons⟩
    · left
      refine ⟨m, ns, rfl, hm, ?_⟩
      rw [step, hst, pop, if_neg hm, hlen]
      rfl

/-- The result of a loop agrees with the stack machine. -/
def Agrees : Except Err PS → Except Msg (List Str) → Prop
  | .ok s, .ok ns => s.stack = ns
  | .error e, .error m => ∃ p, e = .parse p m
  | _, _ => False

/-- Lines, then a directive or the end. -/
theorem loop_lines {h : Env} (hp : Plain h) {a t b : Str} {s : PS} {n : Nat} (hs : h.src = a ++ t ++ b) (hpos : s.pos = a.length) (hbp : s.bp = h.src.length)
    (ht : TextLines t) (ha : EndsLine a) (hb : b = [] ∨ ∃ d c, Dir.Valid d ∧ b = d.line ++ c) :
    Clear (a ++ t) ∧ ∃ k s', h.loop (n + 1) s = h.loop k s' ∧ n ≤ k ∧ s'.pos = (a ++ t).length ∧ s'.bp = h.src.length ∧ s'.stack = s.stack ∧ s'.orig = s.orig := by
  by_cases hne : t = []
  · subst hne
    rw [List.append_nil]
    exact ⟨EndsLine.clear ha, n + 1, s, rfl, by omega, hpos, hbp, rfl, rfl⟩
  · have he : Clear (a ++ t) := by
      obtain ⟨lines, blanks, rfl, hl, hbl⟩ := ht.2
      refine ⟨a ++ lines, blanks, by simp, ?_, hbl⟩
      rcases hl with rfl | hl
      · rw [List.append_nil]
        exact ha
      · obtain ⟨u, rfl⟩ : ∃ u, lines = u ++ c!"\n" := List.getLast?_eq_some_iff.1 hl
        rw [← List.append_assoc]
        exact .inr ⟨_, _, rfl, rfl⟩
    refine ⟨he, ?_⟩
    obtain ⟨cs, h1⟩ := loop_text hp (n := n) hs hpos hbp ht hne (by
      rcases hb with rfl | ⟨d, c, hd, rfl⟩
      · exact .inl rfl
      · right
        obtain ⟨e, r, name, h1, h2, h3⟩ := line_tag hd c
        rw [h1]
        exact .directive _ _ _ he.unescaped ⟨e, rfl, .inl h2⟩ h3)
    exact ⟨n, _, h1, Nat.le_refl _, rfl, hbp, rfl, rfl⟩

theorem loop_run {h : Env} (hp : Plain h) {last : Str} (hl : TextLines last) (ps : List (Str × Dir)) (a : Str) (s : PS) (k : Nat) (hv : ∀ p ∈ ps, TextLines p.1 ∧ p.2.Valid)
    (hs : h.src = a ++ source ps last) (hpos : s.pos = a.length) (hbp : s.bp = h.src.length) (ha : EndsLine a) (ho : OrigOk h s s.stack)
    (hk : 2 * ps.length + 2 ≤ k) : Agrees (h.loop k s) (run s.stack (ps.map (·.2))) := by
  induction ps generalizing a s k with
  | nil =>
    obtain ⟨k, rfl⟩ : ∃ k', k = k' + 1 := ⟨k - 1, by omega⟩
    obtain ⟨_, k', s', h1, h2, h3, h4, h5, _⟩ := loop_lines (n := k) (b := []) hp (by rw [hs, List.append_nil]; rfl) hpos hbp hl ha (.inl rfl)
    rw [h1]
    simp only [List.length_nil] at hk
    obtain ⟨k', rfl⟩ : ∃ j, k' = j + 1 := ⟨k' - 1, by omega⟩
    rw [Env.loop, if_pos (by rw [h3, h4, hs]; exact Nat.le_refl _)]
    exact h5
  | cons p ps ih =>
    obtain ⟨t, d⟩ := p
    obtain ⟨v1, v2⟩ := hv _ (List.mem_cons_self ..)
    replace hv := fun p hp => hv p (List.mem_cons_of_mem _ hp)
    simp only [List.length_cons] at hk
    obtain ⟨k, rfl⟩ : ∃ k', k = k' + 1 := ⟨k - 1, by omega⟩
    obtain ⟨e1, k', s', h1, h2, h3, h4, h5, h6⟩ := loop_lines (n := k) (b := d.line ++ source ps last) hp
      (by rw [hs, source]; simp) hpos hbp v1 ha (.inr ⟨d, _, v2, rfl⟩)
    rw [h1]
    have ho' : OrigOk h s' s'.stack := by unfold OrigOk; rw [h5, h6]; exact ho
    have hsrc : h.src = a ++ t ++ d.line ++ source ps last := by rw [hs, source]; simp
    obtain ⟨j, rfl⟩ : ∃ j, k' = j + 3 := ⟨k' - 3, by omega⟩
    have hend : EndsLine (a ++ t ++ d.line) := by
      cases d with
      | opn n w =>
        have : a ++ t ++ (Dir.opn n w).line = (a ++ t) ++ (c!"#" ++ n ++ c!" " ++ w) ++ c!"\n" := by simp [Dir.line]
        rw [this]
        exact EndsLine.newline _ _
      | cls n =>
        have : a ++ t ++ (Dir.cls n).line = (a ++ t) ++ (c!"#end " ++ n) ++ c!"\n" := by simp [Dir.line]
        rw [this]
        exact EndsLine.newline _ _
    rw [List.map_cons]
    cases d with
    | opn n w =>
      obtain ⟨u, q1, q2, q3, q4, q5⟩ := loop_open hp (k := j) hsrc h3 h4 e1 v2 ho'
      rw [q1]
      have := ih _ u (j + 2) hv hsrc q2 q3 hend q5 (by omega)
      rw [q4, h5] at this
      exact this
    | cls n =>
      rcases loop_close hp (k := j) hsrc h3 h4 e1 v2 ho' with ⟨q1, q2⟩ | ⟨m, ns, q1, q2, q3⟩ | ⟨u, q1, q2, q3, q4, q5⟩
      · rw [q2, ← h5, q1]
        exact ⟨_, rfl⟩
      · rw [q3, ← h5, q1]
        show Agrees _ (if m = n then _ else _)
        rw [if_neg q2]
        exact ⟨_, rfl⟩
      · have := ih _ u (j + 2) hv hsrc q3 q4 hend q5 (by omega)
        rw [q2, ← h5, q1]
        show Agrees _ (if n = n then _ else _)
        rw [if_pos rfl]
        exact this

/-! ### The stack machine and proper nesting -/

theorem run_append (ds es : List Dir) (ns : List Str) : run ns (ds ++ es) = (run ns ds >>= fun ms => run ms es) := by
  induction ds generalizing ns with
  | nil => rfl
  | cons d ds ih =>
    cases d with
    | opn n w => exact ih _
    | cls n =>
      cases ns with
      | nil => rfl
      | cons m ns =>
        show (if m = n then _ else _) = (if m = n then _ else _) >>= _
        split
        · exact ih _
        · rfl

theorem Balanced.run {ds : List Dir} (hb : Balanced ds) (ns : List Str) : run ns ds = .ok ns := by
  induction hb generalizing ns with
  | nil => rfl
  | block n w body rest _ _ h1 h2 =>
    rw [List.cons_append]
    show Parser.run (n :: ns) (body ++ Dir.cls n :: rest) = _
    rw [run_append, h1]
    show (if n = n then _ else _) = _
    rw [if_pos rfl]
    exact h2 ns

theorem Balanced.append {ds es : List Dir} (h1 : Balanced ds) (h2 : Balanced es) : Balanced (ds ++ es) := by
  induction h1 with
  | nil => exact h2
  | block n w body rest hb _ _ ih =>
    have : Dir.opn n w :: body ++ Dir.cls n :: rest ++ es = Dir.opn n w :: body ++ Dir.cls n :: (rest ++ es) := by simp
    rw [this]
    exact .block n w body _ hb ih

theorem Pending.opening {ds : List Dir} {ns : List Str} (hp : Pending ds ns) (n w : Str) : Pending (ds ++ [.opn n w]) (n :: ns) := .opn ds ns n w [] hp .nil

theorem Pending.balanced {ds es : List Dir} {ns : List Str} (hp : Pending ds ns) (he : Balanced es) : Pending (ds ++ es) ns := by
  cases hp with
  | nil _ hb => exact .nil _ (hb.append he)
  | opn before names n w after h1 h2 =>
    rw [List.append_assoc, List.cons_append]
    exact .opn before names n w _ h1 (h2.append he)

theorem Pending.closing {ds : List Dir} {ns : List Str} {n : Str} (hp : Pending ds (n :: ns)) : Pending (ds ++ [.cls n]) ns := by
  cases hp with
  | opn before names _ w after h1 h2 =>
    have : before ++ Dir.opn n w :: after ++ [Dir.cls n] = before ++ (Dir.opn n w :: after ++ Dir.cls n :: []) := by simp
    rw [this]
    exact h1.balanced (.block n w after [] h2 .nil)

theorem Pending.none {ds : List Dir} (hp : Pending ds []) : Balanced ds := by
  cases hp with
  | nil _ hb => exact hb

/-- From any prefix on: the machine accepts with the pending names, or stops at an `#end` that does not match. -/
theorem run_spec (ds : List Dir) (before : List Dir) (ns : List Str) (hp : Pending before ns) :
    match run ns ds with
    | .ok ms => Pending (before ++ ds) ms
    | .error .nothingToEnd => ∃ u n v, ds = u ++ .cls n :: v ∧ Pending (before ++ u) []
    | .error (.wrongEnd n m) => ∃ u v ms, ds = u ++ .cls n :: v ∧ Pending (before ++ u) (m :: ms) ∧ m ≠ n
    | .error _ => False := by
  induction ds generalizing before ns with
  | nil => rw [run, List.append_nil]; exact hp
  | cons d ds ih =>
    have lift : ∀ ms : List Str, Pending (before ++ [d]) ms → run ns (d :: ds) = run ms ds → match run ns (d :: ds) with
        | .ok ms => Pending (before ++ d :: ds) ms
        | .error .nothingToEnd => ∃ u n v, d :: ds = u ++ .cls n :: v ∧ Pending (before ++ u) []
        | .error (.wrongEnd n m) => ∃ u v ms, d :: ds = u ++ .cls n :: v ∧ Pending (before ++ u) (m :: ms) ∧ m ≠ n
        | .error _ => False := by
      intro ms h1 h2
      rw [h2]
      have := ih (before ++ [d]) ms h1
      split at this
      · rwa [List.append_assoc] at this
      · obtain ⟨u, n, v, h3, h4⟩ := this
        exact ⟨d :: u, n, v, by rw [h3]; rfl, by rwa [List.append_assoc] at h4⟩
      · obtain ⟨u, v, ms', h3, h4, h5⟩ := this
        exact ⟨d :: u, v, ms', by rw [h3]; rfl, by rwa [List.append_assoc] at h4, h5⟩
      · exact this
    cases d with
    | opn n w => exact lift _ (hp.opening n w) rfl
    | cls n =>
      cases ns with
      | nil => exact ⟨[], n, ds, rfl, by rwa [List.append_nil]⟩
      | cons m ns =>
        by_cases hm : m = n
        · subst hm
          exact lift ns hp.closing (if_pos rfl)
        · have : run (m :: ns) (.cls n :: ds) = .error (.wrongEnd n m) := if_neg hm
          rw [this]
          exact ⟨[], ds, ns, rfl, by rwa [List.append_nil], hm⟩

theorem Pending.run {ds : List Dir} {ns : List Str} (hp : Pending ds ns) : run [] ds = .ok ns := by
  induction hp with
  | nil ds hb => exact hb.run []
  | opn before names n w after _ h2 ih =>
    rw [run_append, ih]
    exact h2.run (n :: names)

/-! ### Theorems -/

theorem source_length {ps : List (Str × Dir)} {last : Str} : 2 * ps.length ≤ (source ps last).length := by
  induction ps with
  | nil => simp
  | cons p ps ih =>
    obtain ⟨t, d⟩ := p
    have : 2 ≤ d.line.length := by cases d <;> (simp [Dir.line]; try omega)
    simp only [source, List.length_append, List.length_cons]
    omega

/-- The result of `parse` for such a source. -/
theorem parse_run {h : Env} (hp : Plain h) (st : GenVar.Settings) {ps : List (Str × Dir)} {last : Str} (hv : ∀ p ∈ ps, TextLines p.1 ∧ p.2.Valid) (hl : TextLines last)
    (hs : h.src = source ps last) :
    match run [] (ps.map (·.2)) with
    | .ok [] => ∃ cmds, h.parse st = .ok cmds
    | .ok ns => ∃ p, h.parse st = .error (.parse p (.unclosed ns.reverse))
    | .error m => ∃ p, h.parse st = .error (.parse p m) := by
  have hlen := source_length (ps := ps) (last := last)
  have key := loop_run hp hl ps [] { pos := 0, bp := h.src.length, st := st } (3 * h.src.length + 4) hv hs rfl rfl (.inl rfl)
    (by intro q; exact absurd q (by simp)) (by rw [hs]; omega)
  show match run [] (ps.map (·.2)) with
    | .ok [] => ∃ cmds, h.parse st = .ok cmds
    | .ok ns => ∃ p, h.parse st = .error (.parse p (.unclosed ns.reverse))
    | .error m => ∃ p, h.parse st = .error (.parse p m)
  unfold Env.parse
  revert key
  show Agrees _ (run [] _) → _
  cases h.loop (3 * h.src.length + 4) { pos := 0, bp := h.src.length, st := st } with
  | error e =>
    cases run [] (ps.map (·.2)) with
    | ok ns => intro hf; exact hf.elim
    | error m =>
      rintro ⟨p, rfl⟩
      exact ⟨p, rfl⟩
  | ok s =>
    cases run [] (ps.map (·.2)) with
    | error m => intro hf; exact hf.elim
    | ok ns =>
      rintro rfl
      simp only [bind, Except.bind]
      cases hst : s.stack with
      | nil => exact ⟨_, if_pos rfl⟩
      | cons n ns => exact ⟨_, if_neg (by simp)⟩

/-- C35: a source made of lines of text, lines `#name word` that open blocks and lines `#end name` is accepted exactly when the blocks are properly nested. -/
theorem C35_accepts_iff_balanced (h : Env) (hp : Plain h) (st : GenVar.Settings) (ps : List (Str × Dir)) (last : Str) (hv : ∀ p ∈ ps, TextLines p.1 ∧ p.2.Valid)
    (hl : TextLines last) (hs : h.src = source ps last) : (∃ cmds, h.parse st = .ok cmds) ↔ Balanced (ps.map (·.2)) := by
  have h1 := parse_run hp st hv hl hs
  constructor
  · rintro ⟨cmds, hc⟩
    have h2 := run_spec (ps.map (·.2)) [] [] (.nil [] .nil)
    cases hr : run [] (ps.map (·.2)) with
    | error m =>
      rw [hr] at h1
      obtain ⟨p, h1⟩ := h1
      rw [hc] at h1
      cases h1
    | ok ns =>
      rw [hr] at h1 h2
      cases ns with
      | nil =>
        exact Pending.none h2
      | cons n ns =>
        obtain ⟨p, h1⟩ := h1
        rw [hc] at h1
        cases h1
  · intro hb
    rw [hb.run] at h1
    exact h1

/-- C35: what is wrong is named. Either an `#end` has another name than the innermost open block, and the message has both names;
or an `#end` comes when no block is open; or blocks are still open at the end of the source, and the message names them all, the outermost first. -/
theorem C35_unbalanced_is_named (h : Env) (hp : Plain h) (st : GenVar.Settings) (ps : List (Str × Dir)) (last : Str) (hv : ∀ p ∈ ps, TextLines p.1 ∧ p.2.Valid)
    (hl : TextLines last) (hs : h.src = source ps last) (hb : ¬ Balanced (ps.map (·.2))) :
    ∃ pos msg, h.parse st = .error (.parse pos msg) ∧
      ((∃ n m u v ms, msg = .wrongEnd n m ∧ ps.map (·.2) = u ++ .cls n :: v ∧ Pending u (m :: ms) ∧ m ≠ n) ∨
       (∃ n u v, msg = .nothingToEnd ∧ ps.map (·.2) = u ++ .cls n :: v ∧ Pending u []) ∨
       (∃ ns, msg = .unclosed ns.reverse ∧ ns ≠ [] ∧ Pending (ps.map (·.2)) ns)) := by
  have h1 := parse_run hp st hv hl hs
  have h2 := run_spec (ps.map (·.2)) [] [] (.nil [] .nil)
  cases hr : run [] (ps.map (·.2)) with
  | ok ns =>
    rw [hr] at h1 h2
    cases ns with
    | nil =>
      exact absurd (Pending.none h2) hb
    | cons n ns =>
      obtain ⟨p, h1⟩ := h1
      exact ⟨p, _, h1, .inr (.inr ⟨n :: ns, rfl, by simp, h2⟩)⟩
  | error m =>
    rw [hr] at h1 h2
    obtain ⟨p, h1⟩ := h1
    refine ⟨p, m, h1, ?_⟩
    cases m with
    | nothingToEnd =>
      obtain ⟨u, n, v, h3, h4⟩ := h2
      exact .inr (.inl ⟨n, u, v, rfl, h3, h4⟩)
    | wrongEnd n m =>
      obtain ⟨u, v, ms, h3, h4, h5⟩ := h2
      exact .inl ⟨n, m, u, v, ms, rfl, h3, h4, h5⟩
    | _ => exact h2.elim

/-- A source with a nested block that meets the hypotheses. -/
def blocksDemo : List (Str × Dir) :=
  [(c!"one\n", .opn c!"if" c!"x"), ([], .opn c!"def" c!"f"), (c!"  two\n  ", .cls c!"def"), ([], .cls c!"if")]

example : Plain (demoEnv (source blocksDemo c!"end\n")) := ⟨rfl, fun _ => rfl, simpleTok_words⟩
example : ∀ p ∈ blocksDemo, TextLines p.1 ∧ p.2.Valid := by
  intro p hp
  simp only [blocksDemo, List.mem_cons, List.not_mem_nil, or_false] at hp
  rcases hp with rfl | rfl | rfl | rfl
  · exact ⟨⟨by decide, c!"one\n", [], rfl, .inr rfl, by simp⟩, by decide, ⟨_, _, rfl, by decide, by decide⟩, by decide, by decide⟩
  · exact ⟨⟨by decide, [], [], rfl, .inl rfl, by simp⟩, by decide, ⟨_, _, rfl, by decide, by decide⟩, by decide, by decide⟩
  · exact ⟨⟨by decide, c!"  two\n", c!"  ", rfl, .inr rfl, by decide⟩, (by decide : c!"def" ∈ blockNames)⟩
  · exact ⟨⟨by decide, [], [], rfl, .inl rfl, by simp⟩, (by decide : c!"if" ∈ blockNames)⟩
example : Balanced (blocksDemo.map (·.2)) := .block _ _ [.opn c!"def" c!"f", .cls c!"def"] [] (.block _ _ [] [] .nil .nil) .nil
example : source blocksDemo c!"end\n" = c!"one\n#if x\n#def f\n  two\n  #end def\n#end if\nend\n" := rfl
example : Pending [.opn c!"if" c!"x", .opn c!"for" c!"y", .cls c!"for"] [c!"if"] := .opn [] [] _ _ _ (.nil _ .nil) (.block _ _ [] [] .nil .nil)

end Cheetah.Parser
