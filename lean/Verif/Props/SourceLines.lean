import Verif.Props.SourceReach
import Verif.Props.Driver
import Verif.Props.Directives
/-
How the lines of a generated method are read: what Python makes of the text of a line, for C70 and C71.
-/
namespace Cheetah.EndToEnd
open Parser (Ex Own headWord identChar ownOf cut numbered Word Dotted)
open Compile (Lang Line)
open Driver (Meth)
variable {L : Lang}

/-! ### Specification -/

/-- Python's reading of what an author writes, left open: expressions, simple statements, variables to assign to, what stands
behind `except`, functions with the arguments they have beside the text they are called with, names of filters, and expressions for
filter classes. -/
structure Reading (L : Lang) where
  expr : Str → L.E
  stmt : Str → L.S
  tgt : Str → L.Tgt
  exc : Str → L.M
  fn : Str → Str → L.Fn
  filt : Str → L.FName
  klass : Str → L.FName

/-- `_captureCollector` or `_callCollector`. -/
def kindOf (call : Bool) : Compile.Kind := if call then .call else .capture

/-- A line that the compiler writes around the body of a `#capture`, `#call` or `#filter`. `filterName` matters only together
with the lines that follow. -/
def ownLine (rd : Reading L) : Own → Compile.Simple L
  | .saveTrans n => .saveTrans n
  | .saveBuffering n => .saveBuffering n
  | .setBuffering => .setBuffering
  | .newCollector call n => .newCollector (kindOf call) n
  | .bindCollector call n => .bindCollector (kindOf call) n
  | .restoreTrans n => .restoreTrans n
  | .bindWrite => .bindWrite
  | .restoreBuffering n => .restoreBuffering n
  | .setArgVal n => .setArgVal n
  | .delTrans n => .del (.origTrans n)
  | .delBuffering n => .del (.wasBuffering n)
  | .delCollector call n => .del (.collector (kindOf call) n)
  | .delArgVal n => .del (.callArgVal n)
  | .saveFilter n => .saveFilter n
  | .initialFilter => .initialFilter
  | .restoreFilter n => .restoreFilter n
  | .filterClass e => .setFilter (rd.klass e)
  | .filterName _ => .pass_
  | .capture x n => .captureInto (rd.tgt x) n
  | .newKws n => .newKws n
  | .noteArg n x => .noteArg n x
  | .setKw n x => .setKw n x
  | .delKws n => .del (.callKws n)

/-- The expression of a placeholder, or the call of a function with the text of a `#call`: `f(_callArgVal<n>)` or
`f(_callArgVal<n>, args)`, or with the texts of its `#arg`s: `f(**_callKws<n>)` or `f(args, **_callKws<n>)`. -/
def readExpr (rd : Reading L) (e : Str) : Compile.PE L :=
  match cut c!"(_callArgVal" e with
  | none =>
    match cut c!"**_callKws" e with
    | none => .user (rd.expr e)
    | some (u, r) =>
      match cut c!")(" u with
      | none => .user (rd.expr e)
      | some (f, as) => .callKw (rd.fn (f ++ c!")") (as.take (as.length - 2))) (parseDecimal (r.takeWhile isDigit))
  | some (f, r) => .call (rd.fn f ((r.dropWhile isDigit).drop 2).dropLast) (parseDecimal (r.takeWhile isDigit))

/-- Python's reading of a line that is none of these: the statements that begin with a keyword, the calls of `write`, the assignments to
`_v`; any other line is a simple statement. -/
def readPlain (rd : Reading L) (l : Str) : Line L :=
  let w := headWord l
  if w = c!"write" then .simple (.writeLit (l.drop 6).dropLast)
  else if w = c!"_v" then .simple (.setV (readExpr rd (l.drop 5)))
  else if w = c!"if" then
    if l.getLast? = some ':' then .opens (.if_ (rd.expr (l.drop 3).dropLast)) else .simple (.writeV true)
  else if w = c!"while" then .opens (.while_ (rd.expr (l.drop 6).dropLast))
  else if w = c!"for" then
    let x := headWord (l.drop 4)
    let e := (l.drop (x.length + 8)).dropLast
    if startsWith x c!"__i" then .opens (.forRange (parseDecimal (x.drop 3)) (rd.expr (e.drop 6).dropLast))
    else .opens (.for_ (rd.tgt x) (rd.expr e))
  else if w = c!"elif" then .conts (.elif (rd.expr (l.drop 5).dropLast))
  else if w = c!"else" then .conts .else_
  else if w = c!"try" then .opens .try_
  else if w = c!"except" then
    if l.getLast? = some ':' then .conts (.except_ (rd.exc (l.drop 6).dropLast)) else .exceptNotFound
  else if w = c!"finally" then .conts .finally_
  else if w = c!"break" then .simple .break_
  else if w = c!"continue" then .simple .continue_
  else if w = c!"return" then .simple .ret
  else .simple (.user (rd.stmt l))

/-- Python's reading of a line. -/
def readLine (rd : Reading L) (l : Str) : Line L :=
  match ownOf l with
  | some o => .simple (ownLine rd o)
  | none => readPlain rd l

/-- The four lines that choose the filter `x`, behind the line `filterName = 'x'` at the same level. -/
def choice (n : Nat) (x : Str) : List (Nat × Str) :=
  [(n, c!"if \"" ++ x ++ c!"\" in self._CHEETAH__filters:"),
   (n + 1, c!"_filter = self._CHEETAH__currentFilter = self._CHEETAH__filters[filterName]"),
   (n, c!"else:"),
   (n + 1, c!"_filter = self._CHEETAH__currentFilter = \\\n\t\t\tself._CHEETAH__filters[filterName] = getattr(self._CHEETAH__filtersLib, filterName)(self).filter")]

/-- The filter that the line and the next four choose. -/
def chosen (n : Nat) (l : Str) (rest : List (Nat × Str)) : Option Str :=
  match ownOf l with
  | some (.filterName q) =>
    let x := (q.drop 1).dropLast
    if q = c!"'" ++ x ++ c!"'" ∧ rest.take 4 = choice n x then some x else none
  | _ => none

/-- The lines behind the first `k`: each by itself, but for those that choose a filter by its name. -/
def readFrom (rd : Reading L) : Nat → List (Nat × Str) → List (Nat × Line L)
  | _, [] => []
  | k + 1, _ :: rest => readFrom rd k rest
  | 0, (n, l) :: rest =>
    match chosen n l rest with
    | some x => (n, .simple (.setFilter (rd.filt x))) :: readFrom rd 4 rest
    | none => (n, readLine rd l) :: readFrom rd 0 rest

/-- Python's reading of the lines of a method. -/
def readLines (rd : Reading L) (ls : List (Nat × Str)) : List (Nat × Line L) := readFrom rd 0 ls

/-! ### Which lines are the compiler's own -/

/-- The texts differ at some place that both have. -/
def clash : Str → Str → Bool
  | a :: s, b :: t => a != b || clash s t
  | _, _ => false

theorem strip_clash {p q : Str} (s : Str) (h : clash p q = true) : stripPrefix? q (p ++ s) = none := by
  induction p generalizing q with
  | nil => simp [clash] at h
  | cons a p ih =>
    cases q with
    | nil => simp [clash] at h
    | cons b q =>
      simp only [clash, Bool.or_eq_true, bne_iff_ne] at h
      rw [List.cons_append, stripPrefix?]
      split
      · next e => exact ih (h.resolve_left fun n => n e.symm)
      · rfl

theorem strip_hit (p s : Str) : stripPrefix? p (p ++ s) = some s := by
  induction p with
  | nil => simp [stripPrefix?]
  | cons a p ih => simp [stripPrefix?, ih]

theorem strip_some {p s r : Str} (h : stripPrefix? p s = some r) : s = p ++ r := by
  induction p generalizing s with
  | nil => simpa [stripPrefix?] using h
  | cons a p ih =>
    cases s with
    | nil => simp [stripPrefix?] at h
    | cons b s =>
      simp only [stripPrefix?] at h
      split at h
      · next hab => rw [hab, ih h]; rfl
      · cases h

theorem numbered_clash {p q a : Str} (s : Str) (h : clash a p = true) : numbered p q (a ++ s) = none := by
  rw [numbered, strip_clash s h]

theorem between_clash {p q a : Str} (s : Str) (h : clash a p = true) : Parser.between p q (a ++ s) = none := by
  rw [Parser.between, strip_clash s h]

theorem ne_clash {p a : Str} (s : Str) (h : clash a p = true) : a ++ s ≠ p := by
  intro e
  have := strip_clash s h
  rw [e] at this
  have h2 := strip_hit p []
  rw [List.append_nil] at h2
  rw [h2] at this
  cases this

theorem take_digits {n : Nat} {q : Str} (hq : ∀ c, q.head? = some c → isDigit c = false) :
    (decimal n ++ q).takeWhile isDigit = decimal n ∧ (decimal n ++ q).dropWhile isDigit = q := by
  rw [List.takeWhile_append_of_pos (decimal_digits n), List.dropWhile_append_of_pos (decimal_digits n)]
  cases q with
  | nil => simp
  | cons c q => simp [hq c rfl]

theorem numbered_hit {p q : Str} (n : Nat) (hq : ∀ c, q.head? = some c → isDigit c = false) : numbered p q (p ++ decimal n ++ q) = some n := by
  obtain ⟨h1, h2⟩ := take_digits (n := n) hq
  rw [numbered, List.append_assoc, strip_hit]
  simp only [h1, h2]
  simp [decimal_ne_nil, parse_decimal]

theorem numbered_some {p q l : Str} {n : Nat} (h : numbered p q l = some n) : ∃ d, l = p ++ d ++ q ∧ d ≠ [] ∧ ∀ c ∈ d, isDigit c = true := by
  unfold numbered at h
  split at h
  · cases h
  · next r hr =>
    split at h
    · next hd =>
      refine ⟨r.takeWhile isDigit, ?_, hd.1, fun c hc => List.all_eq_true.1 List.all_takeWhile c hc⟩
      rw [strip_some hr, List.append_assoc]
      conv_lhs => rw [← List.takeWhile_append_dropWhile (p := isDigit) (l := r), hd.2]
    · cases h

/-- What the compiler's own lines begin with, but for those that end a `#capture`. -/
def ownStarts : List Str :=
  [c!"_orig_trans", c!"_wasBuffering", c!"self._CHEETAH__isBuffering = True", c!"trans = _captureCollector", c!"trans = _callCollector",
   c!"write = _captureCollector", c!"write = _callCollector", c!"trans = _orig_trans", c!"write = trans.response().write",
   c!"self._CHEETAH__isBuffering = _wasBuffering", c!"_callArgVal", c!"del _orig_trans", c!"del _wasBuffering", c!"del _captureCollector",
   c!"del _callCollector", c!"del _callArgVal", c!"_orig_filter", c!"_filter = self._CHEETAH__initialFilter",
   c!"_filter = self._CHEETAH__currentFilter = _orig_filter", c!"_filter = self._CHEETAH__currentFilter = ", c!"filterName = ",
   c!"_callKws", c!"_currentCallArgname", c!"del _callKws"]

theorem own_none {p : Str} (s : Str) (h : ∀ q ∈ ownStarts, clash p q = true)
    (hw : headWord (p ++ s) ∈ Parser.reserved ∨ ∀ r, p ++ s ≠ headWord (p ++ s) ++ ' ' :: r) : ownOf (p ++ s) = none := by
  have hcap : Parser.captureLine (p ++ s) = none := by
    unfold Parser.captureLine
    split
    · rfl
    · next hr =>
      cases hn : numbered (headWord (p ++ s) ++ c!" = _captureCollector") c!".response().getvalue()" (p ++ s) with
      | none => rfl
      | some n =>
        exfalso
        obtain ⟨d, hd, _⟩ := numbered_some hn
        rcases hw with hw | hw
        · exact hr hw
        · exact hw (c!"= _captureCollector" ++ d ++ c!".response().getvalue()") (hd.trans (by simp))
  simp only [ownStarts, List.mem_cons, List.not_mem_nil, or_false, forall_eq_or_imp, forall_eq] at h
  obtain ⟨h1, h2, h3, h4, h5, h6, h7, h8, h9, h10, h11, h12, h13, h14, h15, h16, h17, h18, h19, h20, h21, h22, h23, h24⟩ := h
  have ha : Parser.argValLine (p ++ s) = none := by rw [Parser.argValLine, strip_clash s h11]
  have hb : Parser.noteLine (p ++ s) = none := by rw [Parser.noteLine, strip_clash s h23]
  have hd : Parser.kwLine (p ++ s) = none := by rw [Parser.kwLine, strip_clash s h22]
  simp only [ownOf, Parser.ownForms, numbered_clash s h1, numbered_clash s h2, if_neg (ne_clash s h3), numbered_clash s h4, numbered_clash s h5, numbered_clash s h6, numbered_clash s h7,
    numbered_clash s h8, if_neg (ne_clash s h9), numbered_clash s h10, ha, numbered_clash s h12, numbered_clash s h13, numbered_clash s h14, numbered_clash s h15, numbered_clash s h16,
    numbered_clash s h17, if_neg (ne_clash s h18), numbered_clash s h19, between_clash s h20, between_clash s h21, numbered_clash s h22, hb, hd, numbered_clash s h24, hcap, Option.map_none, List.findSome?]
  rfl

theorem own_reserved {p l : Str} (s : Str) (hl : l = p ++ s) (h : ∀ q ∈ ownStarts, clash p q = true) (hw : headWord l ∈ Parser.reserved) : ownOf l = none := by
  subst hl
  exact own_none s h (.inl hw)

theorem readLine_plain {rd : Reading L} {l : Str} (h : ownOf l = none) : readLine rd l = readPlain rd l := by rw [readLine, h]

theorem readLine_own {rd : Reading L} {l : Str} {o : Own} (h : ownOf l = some o) : readLine rd l = .simple (ownLine rd o) := by rw [readLine, h]

/-! ### Reading single lines -/

theorem headWord_stop {w r : Str} {c : Char} (hw : ∀ d ∈ w, identChar d = true) (hc : identChar c = false) : headWord (w ++ c :: r) = w := by
  unfold headWord
  rw [List.takeWhile_append_of_pos (by simpa using hw), List.takeWhile_cons_of_neg (by simp [hc]), List.append_nil]

theorem getLast?_colon (s : Str) : (s ++ c!":").getLast? = some ':' := by simp

section
variable (rd : Reading L) {tok : Str → Option Nat} {e : Ex}

theorem read_write (lit : Str) : readLine rd (c!"write(" ++ lit ++ c!")") = .simple (.writeLit lit) := by
  have : headWord (c!"write(" ++ lit ++ c!")") = c!"write" := headWord_stop (w := c!"write") (by decide) (by decide)
  rw [readLine_plain (own_reserved (p := c!"write(") (lit ++ c!")") (by simp) (by decide) (by rw [this]; decide))]
  simp only [readPlain, this]
  simp

theorem read_v (e : Str) : readLine rd (c!"_v = " ++ e) = .simple (.setV (readExpr rd e)) := by
  have : headWord (c!"_v = " ++ e) = c!"_v" := headWord_stop (w := c!"_v") (by decide) (by decide)
  rw [readLine_plain (own_reserved (p := c!"_v = ") (e) (by simp) (by decide) (by rw [this]; decide))]
  simp only [readPlain, this]
  simp

theorem read_show (fa : Str) : readLine rd (c!"if _v is not None: write(_filter(_v" ++ fa ++ c!"))") = .simple (.writeV true) := by
  have : headWord (c!"if _v is not None: write(_filter(_v" ++ fa ++ c!"))") = c!"if" := headWord_stop (w := c!"if") (by decide) (by decide)
  have h2 : (c!"if _v is not None: write(_filter(_v" ++ fa ++ c!"))").getLast? = some ')' := by
    rw [Parser.getLast?_app (by simp)]; rfl
  rw [readLine_plain (own_reserved (p := c!"if _v") (c!" is not None: write(_filter(_v" ++ fa ++ c!"))") (by simp) (by decide) (by rw [this]; decide))]
  simp only [readPlain, this, h2]
  simp

theorem read_if (e : Str) : readLine rd (c!"if " ++ e ++ c!":") = .opens (.if_ (rd.expr e)) := by
  have : headWord (c!"if " ++ e ++ c!":") = c!"if" := headWord_stop (w := c!"if") (by decide) (by decide)
  rw [readLine_plain (own_reserved (p := c!"if ") (e ++ c!":") (by simp) (by decide) (by rw [this]; decide))]
  simp only [readPlain, this, getLast?_colon]
  simp

theorem read_while (e : Str) : readLine rd (c!"while " ++ e ++ c!":") = .opens (.while_ (rd.expr e)) := by
  have : headWord (c!"while " ++ e ++ c!":") = c!"while" := headWord_stop (w := c!"while") (by decide) (by decide)
  rw [readLine_plain (own_reserved (p := c!"while ") (e ++ c!":") (by simp) (by decide) (by rw [this]; decide))]
  simp only [readPlain, this]
  simp

theorem read_for {x : Str} (hx : ∀ d ∈ x, identChar d = true) (h : startsWith x c!"__i" = false) (e : Str) :
    readLine rd (c!"for " ++ x ++ c!" in " ++ e ++ c!":") = .opens (.for_ (rd.tgt x) (rd.expr e)) := by
  have h1 : headWord (c!"for " ++ x ++ c!" in " ++ e ++ c!":") = c!"for" := by
    simpa using headWord_stop (w := c!"for") (r := x ++ (c!" in " ++ (e ++ c!":"))) (c := ' ') (by decide) (by decide)
  have h2 : headWord ((c!"for " ++ x ++ c!" in " ++ e ++ c!":").drop 4) = x := by
    simpa using headWord_stop (w := x) (r := c!"in " ++ e ++ c!":") (c := ' ') hx (by decide)
  have h3 : ((c!"for " ++ x ++ c!" in " ++ e ++ c!":").drop (x.length + 8)).dropLast = e := by
    have : c!"for " ++ x ++ c!" in " ++ e ++ c!":" = (c!"for " ++ x ++ c!" in ") ++ (e ++ c!":") := by simp
    rw [this, List.drop_append_of_le_length (by simp), List.drop_eq_nil_of_le (by simp)]
    simp
  rw [readLine_plain (own_reserved (p := c!"for ") (x ++ c!" in " ++ e ++ c!":") (by simp) (by decide) (by rw [h1]; decide))]
  simp only [readPlain, h1, h2, h3, h]
  simp

theorem digit_ident {c : Char} (h : isDigit c = true) : identChar c = true := by
  unfold identChar Char.isAlphanum Char.isDigit
  unfold isDigit at h
  simp only [Bool.and_eq_true, Bool.or_eq_true, decide_eq_true_eq, ge_iff_le, UInt32.le_iff_toNat_le] at h ⊢
  left; right
  exact h

theorem read_repeat (n : Nat) (e : Str) : readLine rd (c!"for __i" ++ decimal n ++ c!" in range(" ++ e ++ c!"):") = .opens (.forRange n (rd.expr e)) := by
  have hd : ∀ d ∈ c!"__i" ++ decimal n, identChar d = true := by
    intro d hd
    rcases List.mem_append.1 hd with hd | hd
    · clear * - hd; revert d; decide
    · exact digit_ident (decimal_digits n d hd)
  have h1 : headWord (c!"for __i" ++ decimal n ++ c!" in range(" ++ e ++ c!"):") = c!"for" := by
    simpa using headWord_stop (w := c!"for") (r := c!"__i" ++ (decimal n ++ (c!" in range(" ++ (e ++ c!"):")))) (c := ' ') (by decide) (by decide)
  have h2 : headWord ((c!"for __i" ++ decimal n ++ c!" in range(" ++ e ++ c!"):").drop 4) = c!"__i" ++ decimal n := by
    simpa using headWord_stop (w := c!"__i" ++ decimal n) (r := c!"in range(" ++ e ++ c!"):") (c := ' ') hd (by decide)
  have h3 : ((c!"for __i" ++ decimal n ++ c!" in range(" ++ e ++ c!"):").drop ((c!"__i" ++ decimal n).length + 8)).dropLast = c!"range(" ++ e ++ c!")" := by
    have : c!"for __i" ++ decimal n ++ c!" in range(" ++ e ++ c!"):" = (c!"for __i" ++ decimal n ++ c!" in ") ++ ((c!"range(" ++ e ++ c!")") ++ c!":") := by simp
    rw [this, List.drop_append_of_le_length (by simp), List.drop_eq_nil_of_le (by simp), List.nil_append, List.dropLast_concat]
  have h4 : startsWith (c!"__i" ++ decimal n) c!"__i" = true := by simp [startsWith, stripPrefix?]
  rw [readLine_plain (own_reserved (p := c!"for ") (c!"__i" ++ decimal n ++ c!" in range(" ++ e ++ c!"):") (by simp) (by decide) (by rw [h1]; decide))]
  simp only [readPlain, h1, h2, h3, h4]
  simp [parse_decimal]

theorem read_elif (e : Str) : readLine rd (c!"elif " ++ e ++ c!":") = .conts (.elif (rd.expr e)) := by
  have : headWord (c!"elif " ++ e ++ c!":") = c!"elif" := headWord_stop (w := c!"elif") (by decide) (by decide)
  rw [readLine_plain (own_reserved (p := c!"elif ") (e ++ c!":") (by simp) (by decide) (by rw [this]; decide))]
  simp only [readPlain, this]
  simp

theorem read_except (e : Str) (he : e = [] ∨ ∃ r, e = ' ' :: r) : readLine rd (c!"except" ++ e ++ c!":") = .conts (.except_ (rd.exc e)) := by
  have : headWord (c!"except" ++ e ++ c!":") = c!"except" := by
    rcases he with rfl | ⟨r, rfl⟩
    · decide
    · rw [List.append_assoc]
      exact headWord_stop (w := c!"except") (by decide) (by decide)
  rw [readLine_plain (own_reserved (p := c!"except") (e ++ c!":") (by simp) (by decide) (by rw [this]; decide))]
  simp only [readPlain, this, getLast?_colon]
  simp

theorem read_try : readLine rd c!"try:" = .opens .try_ := by
  have : headWord c!"try:" = c!"try" := by decide
  rw [readLine_plain (own_reserved (p := c!"try:") ([]) (by simp) (by decide) (by rw [this]; decide))]
  simp only [readPlain, this]
  simp

theorem read_notFound : readLine rd c!"except NotFound: pass" = .exceptNotFound := by
  have : headWord c!"except NotFound: pass" = c!"except" := by decide
  rw [readLine_plain (own_reserved (p := c!"except") (c!" NotFound: pass") (by simp) (by decide) (by rw [this]; decide))]
  simp only [readPlain, this]
  simp

theorem read_stop : readLine rd Meth.stopLine = .simple .ret := by
  have : headWord Meth.stopLine = c!"return" := by decide
  rw [readLine_plain (own_reserved (p := c!"return") (Meth.stopLine.drop 6) (by rfl) (by decide) (by rw [this]; decide))]
  simp only [readPlain, this]
  simp

theorem read_user {l : Str} (h : headWord l ∉ Parser.reserved) (ho : ownOf l = none) : readLine rd l = .simple (.user (rd.stmt l)) := by
  simp only [Parser.reserved, List.mem_cons, List.not_mem_nil, or_false, not_or] at h
  rw [readLine_plain ho]
  simp [readPlain, h]

theorem read_apart {e : Str} (h : Parser.Apart e) : readExpr rd e = .user (rd.expr e) := by
  rw [readExpr, h.1]
  dsimp only
  rw [h.2]

end

/-! ### Reading the compiler's own lines -/

section
variable (rd : Reading L)

theorem own_at {l : Str} {o : Own} (k : Nat) (h1 : ((Parser.ownForms l).take k).all Option.isNone = true) (h2 : (Parser.ownForms l)[k]? = some (some o)) : ownOf l = some o := by
  rw [ownOf]
  generalize Parser.ownForms l = fs at h1 h2
  induction fs generalizing k with
  | nil => simp at h2
  | cons f fs ih =>
    cases k with
    | zero =>
      simp at h2
      simp [h2]
    | succ k =>
      simp only [List.take_succ_cons, List.all_cons, Bool.and_eq_true, Option.isNone_iff_eq_none] at h1
      rw [h1.1]
      simpa using ih k h1.2 (by simpa using h2)

theorem numbered_end {p : Str} (n : Nat) : numbered p [] (p ++ decimal n) = some n := by
  simpa using numbered_hit (p := p) (q := []) n (by simp)

theorem read_saveTrans (n : Nat) : readLine rd (c!"_orig_trans" ++ decimal n ++ c!" = trans") = .simple (.saveTrans n) :=
  readLine_own (o := .saveTrans n) (own_at 0 rfl (by simp only [Parser.ownForms, List.getElem?_cons_zero, List.getElem?_cons_succ]; rw [numbered_hit n (by decide)]; rfl))

theorem read_saveBuffering (n : Nat) : readLine rd (c!"_wasBuffering" ++ decimal n ++ c!" = self._CHEETAH__isBuffering") = .simple (.saveBuffering n) :=
  readLine_own (o := .saveBuffering n) (own_at 1 rfl (by simp only [Parser.ownForms, List.getElem?_cons_zero, List.getElem?_cons_succ]; rw [numbered_hit n (by decide)]; rfl))

theorem read_newCapture (n : Nat) : readLine rd (c!"trans = _captureCollector" ++ decimal n ++ c!" = DummyTransaction()") = .simple (.newCollector .capture n) :=
  readLine_own (o := .newCollector false n) (own_at 3 rfl (by simp only [Parser.ownForms, List.getElem?_cons_zero, List.getElem?_cons_succ]; rw [numbered_hit n (by decide)]; rfl))

theorem read_newCall (n : Nat) : readLine rd (c!"trans = _callCollector" ++ decimal n ++ c!" = DummyTransaction()") = .simple (.newCollector .call n) :=
  readLine_own (o := .newCollector true n) (own_at 4 rfl (by simp only [Parser.ownForms, List.getElem?_cons_zero, List.getElem?_cons_succ]; rw [numbered_hit n (by decide)]; rfl))

theorem read_bindCapture (n : Nat) : readLine rd (c!"write = _captureCollector" ++ decimal n ++ c!".response().write") = .simple (.bindCollector .capture n) :=
  readLine_own (o := .bindCollector false n) (own_at 5 rfl (by simp only [Parser.ownForms, List.getElem?_cons_zero, List.getElem?_cons_succ]; rw [numbered_hit n (by decide)]; rfl))

theorem read_bindCall (n : Nat) : readLine rd (c!"write = _callCollector" ++ decimal n ++ c!".response().write") = .simple (.bindCollector .call n) :=
  readLine_own (o := .bindCollector true n) (own_at 6 rfl (by simp only [Parser.ownForms, List.getElem?_cons_zero, List.getElem?_cons_succ]; rw [numbered_hit n (by decide)]; rfl))

theorem read_restoreTrans (n : Nat) : readLine rd (c!"trans = _orig_trans" ++ decimal n) = .simple (.restoreTrans n) :=
  readLine_own (o := .restoreTrans n) (own_at 7 rfl (by simp only [Parser.ownForms, List.getElem?_cons_zero, List.getElem?_cons_succ]; rw [numbered_end n]; rfl))

theorem read_restoreBuffering (n : Nat) : readLine rd (c!"self._CHEETAH__isBuffering = _wasBuffering" ++ decimal n ++ c!" ") = .simple (.restoreBuffering n) :=
  readLine_own (o := .restoreBuffering n) (own_at 9 rfl (by simp only [Parser.ownForms, List.getElem?_cons_zero, List.getElem?_cons_succ]; rw [numbered_hit n (by decide)]; rfl))

theorem read_delTrans (n : Nat) : readLine rd (c!"del _orig_trans" ++ decimal n) = .simple (.del (.origTrans n)) :=
  readLine_own (o := .delTrans n) (own_at 11 rfl (by simp only [Parser.ownForms, List.getElem?_cons_zero, List.getElem?_cons_succ]; rw [numbered_end n]; rfl))

theorem read_delBuffering (n : Nat) : readLine rd (c!"del _wasBuffering" ++ decimal n) = .simple (.del (.wasBuffering n)) :=
  readLine_own (o := .delBuffering n) (own_at 12 rfl (by simp only [Parser.ownForms, List.getElem?_cons_zero, List.getElem?_cons_succ]; rw [numbered_end n]; rfl))

theorem read_delCapture (n : Nat) : readLine rd (c!"del _captureCollector" ++ decimal n) = .simple (.del (.collector .capture n)) :=
  readLine_own (o := .delCollector false n) (own_at 13 rfl (by simp only [Parser.ownForms, List.getElem?_cons_zero, List.getElem?_cons_succ]; rw [numbered_end n]; rfl))

theorem read_delCall (n : Nat) : readLine rd (c!"del _callCollector" ++ decimal n) = .simple (.del (.collector .call n)) :=
  readLine_own (o := .delCollector true n) (own_at 14 rfl (by simp only [Parser.ownForms, List.getElem?_cons_zero, List.getElem?_cons_succ]; rw [numbered_end n]; rfl))

theorem read_delArgVal (n : Nat) : readLine rd (c!"del _callArgVal" ++ decimal n) = .simple (.del (.callArgVal n)) :=
  readLine_own (o := .delArgVal n) (own_at 15 rfl (by simp only [Parser.ownForms, List.getElem?_cons_zero, List.getElem?_cons_succ]; rw [numbered_end n]; rfl))

theorem read_saveFilter (n : Nat) : readLine rd (c!"_orig_filter" ++ decimal n ++ c!" = _filter") = .simple (.saveFilter n) :=
  readLine_own (o := .saveFilter n) (own_at 16 rfl (by simp only [Parser.ownForms, List.getElem?_cons_zero, List.getElem?_cons_succ]; rw [numbered_hit n (by decide)]; rfl))

theorem read_restoreFilter (n : Nat) : readLine rd (c!"_filter = self._CHEETAH__currentFilter = _orig_filter" ++ decimal n) = .simple (.restoreFilter n) :=
  readLine_own (o := .restoreFilter n) (own_at 18 rfl (by simp only [Parser.ownForms, List.getElem?_cons_zero, List.getElem?_cons_succ]; rw [numbered_end n]; rfl))

theorem read_setBuffering : readLine rd c!"self._CHEETAH__isBuffering = True" = .simple .setBuffering := readLine_own (o := .setBuffering) (own_at 2 rfl rfl)

theorem read_bindWrite : readLine rd c!"write = trans.response().write" = .simple .bindWrite := readLine_own (o := .bindWrite) (own_at 8 rfl rfl)

theorem read_initialFilter : readLine rd c!"_filter = self._CHEETAH__initialFilter" = .simple .initialFilter := readLine_own (o := .initialFilter) (own_at 17 rfl rfl)

theorem read_setArgVal (n : Nat) : readLine rd (c!"_callArgVal" ++ decimal n ++ c!" = _callCollector" ++ decimal n ++ c!".response().getvalue()") = .simple (.setArgVal n) := by
  refine readLine_own (o := .setArgVal n) (own_at 10 rfl ?_)
  simp only [Parser.ownForms, List.getElem?_cons_zero, List.getElem?_cons_succ, Option.some.injEq]
  obtain ⟨h1, h2⟩ := take_digits (n := n) (q := c!" = _callCollector" ++ decimal n ++ c!".response().getvalue()") (by simp [isDigit])
  rw [Parser.argValLine]
  simp only [List.append_assoc, strip_hit] at h1 h2 ⊢
  rw [h1, h2, if_pos (by simp), parse_decimal]

theorem read_klass (e : Str) (he : ∀ c, e.head? = some c → c ≠ '_') (hne : e ≠ []) :
    readLine rd (c!"_filter = self._CHEETAH__currentFilter = " ++ e ++ c!"(self).filter") = .simple (.setFilter (rd.klass e)) := by
  obtain ⟨c, r, rfl⟩ : ∃ c r, e = c :: r := by cases e with | nil => exact absurd rfl hne | cons c r => exact ⟨c, r, rfl⟩
  have hc := he c rfl
  have hcl : clash (c!"_filter = self._CHEETAH__currentFilter = " ++ [c]) c!"_filter = self._CHEETAH__currentFilter = _orig_filter" = true := by
    have : (c == '_') = false := by simpa using hc
    simp [clash, hc]
  have h18 : numbered c!"_filter = self._CHEETAH__currentFilter = _orig_filter" [] (c!"_filter = self._CHEETAH__currentFilter = " ++ (c :: r) ++ c!"(self).filter") = none := by
    rw [show c!"_filter = self._CHEETAH__currentFilter = " ++ (c :: r) ++ c!"(self).filter" = (c!"_filter = self._CHEETAH__currentFilter = " ++ [c]) ++ (r ++ c!"(self).filter") by simp]
    exact numbered_clash _ hcl
  refine readLine_own (o := .filterClass (c :: r)) (own_at 19 ?_ ?_)
  · rw [Parser.ownForms, h18]; rfl
  · simp only [Parser.ownForms, List.getElem?_cons_zero, List.getElem?_cons_succ, Option.some.injEq]
    rw [Parser.between, List.append_assoc, strip_hit]
    simp

theorem own_filterName (q : Str) : ownOf (c!"filterName = " ++ q) = some (.filterName q) := by
  refine own_at 20 rfl ?_
  simp only [Parser.ownForms, List.getElem?_cons_zero, List.getElem?_cons_succ, Option.some.injEq]
  rw [Parser.between, strip_hit]
  simp

theorem numbered_last {p q l : Str} {n : Nat} (h : numbered p q l = some n) (c : Char) (hc : l.getLast? = some c) :
    (q = [] → isDigit c = true) ∧ (q ≠ [] → q.getLast? = some c) := by
  obtain ⟨d, rfl, h1, h2⟩ := numbered_some h
  constructor
  · rintro rfl
    rw [List.append_nil, Parser.getLast?_app h1] at hc
    exact h2 c (List.mem_of_getLast? hc)
  · intro hq
    rwa [Parser.getLast?_app hq] at hc

theorem between_some {p q l y : Str} (h : Parser.between p q l = some y) : l = p ++ y ++ q := by
  unfold Parser.between at h
  split at h
  · cases h
  · next r hr =>
    split at h
    · next hd =>
      injection h with h
      rw [strip_some hr, ← h, List.append_assoc]
      conv_lhs => rw [← List.take_append_drop (r.length - q.length) r, hd]
    · cases h

theorem between_hit (p q x : Str) : Parser.between p q (p ++ x ++ q) = some x := by
  rw [Parser.between, List.append_assoc, strip_hit]
  simp

theorem read_newKws (n : Nat) : readLine rd (c!"_callKws" ++ decimal n ++ c!" = {}") = .simple (.newKws n) :=
  readLine_own (o := .newKws n) (own_at 21 rfl (by simp only [Parser.ownForms, List.getElem?_cons_zero, List.getElem?_cons_succ]; rw [numbered_hit n (by decide)]; rfl))

theorem read_noteArg (n : Nat) (x : Str) : readLine rd (c!"_currentCallArgname" ++ decimal n ++ c!" = " ++ (c!"'" ++ x ++ c!"'")) = .simple (.noteArg n x) := by
  refine readLine_own (o := .noteArg n x) (own_at 22 rfl ?_)
  simp only [Parser.ownForms, List.getElem?_cons_zero, List.getElem?_cons_succ, Option.some.injEq]
  obtain ⟨h1, h2⟩ := take_digits (n := n) (q := c!" = '" ++ x ++ c!"'") (by simp [isDigit])
  rw [show c!"_currentCallArgname" ++ decimal n ++ c!" = " ++ (c!"'" ++ x ++ c!"'") = c!"_currentCallArgname" ++ (decimal n ++ (c!" = '" ++ x ++ c!"'")) by simp, Parser.noteLine, strip_hit]
  dsimp only
  rw [h1, h2, between_hit, parse_decimal]
  rfl

theorem read_setKw (n : Nat) (x : Str) : readLine rd (c!"_callKws" ++ decimal n ++ c!"[" ++ (c!"'" ++ x ++ c!"'") ++ c!"] = _callCollector" ++ decimal n ++ c!".response().getvalue()") = .simple (.setKw n x) := by
  obtain ⟨h1, h2⟩ := take_digits (n := n) (q := c!"['" ++ x ++ (c!"'] = _callCollector" ++ decimal n ++ c!".response().getvalue()")) (by simp [isDigit])
  have e : c!"_callKws" ++ decimal n ++ c!"[" ++ (c!"'" ++ x ++ c!"'") ++ c!"] = _callCollector" ++ decimal n ++ c!".response().getvalue()" =
      c!"_callKws" ++ (decimal n ++ (c!"['" ++ x ++ (c!"'] = _callCollector" ++ decimal n ++ c!".response().getvalue()"))) := by simp
  rw [e]
  have h21 : numbered c!"_callKws" c!" = {}" (c!"_callKws" ++ (decimal n ++ (c!"['" ++ x ++ (c!"'] = _callCollector" ++ decimal n ++ c!".response().getvalue()")))) = none := by
    rw [numbered, strip_hit]
    dsimp only
    rw [h2, if_neg]
    simp
  refine readLine_own (o := .setKw n x) (own_at 23 ?_ ?_)
  · rw [Parser.ownForms, h21]; rfl
  · simp only [Parser.ownForms, List.getElem?_cons_zero, List.getElem?_cons_succ, Option.some.injEq]
    rw [Parser.kwLine, strip_hit]
    dsimp only
    rw [h1, h2, between_hit, parse_decimal]
    rfl

theorem read_delKws (n : Nat) : readLine rd (c!"del _callKws" ++ decimal n) = .simple (.del (.callKws n)) :=
  readLine_own (o := .delKws n) (own_at 24 rfl (by simp only [Parser.ownForms, List.getElem?_cons_zero, List.getElem?_cons_succ]; rw [numbered_end n]; rfl))

theorem word_split {x y r s : Str} (hx : ∀ d ∈ x, identChar d = true) (hy : ∀ d ∈ y, identChar d = true) (h : x ++ ' ' :: r = y ++ ' ' :: s) : x = y ∧ r = s := by
  have h1 := headWord_stop (w := x) (r := r) (c := ' ') hx (by decide)
  have h2 := headWord_stop (w := y) (r := s) (c := ' ') hy (by decide)
  rw [h, h2] at h1
  subst h1
  simpa using h

theorem read_capture {x : Str} (hw : Word x) (h1 : x ∉ Parser.reserved) (h2 : x ∉ [c!"trans", c!"_filter", c!"filterName"]) (n : Nat) :
    readLine rd (x ++ c!" = _captureCollector" ++ decimal n ++ c!".response().getvalue()") = .simple (.captureInto (rd.tgt x) n) := by
  obtain ⟨l, hl⟩ : ∃ l, l = x ++ c!" = _captureCollector" ++ decimal n ++ c!".response().getvalue()" := ⟨_, rfl⟩
  have hl2 : l = x ++ ' ' :: (c!"= _captureCollector" ++ decimal n ++ c!".response().getvalue()") := by rw [hl]; simp
  have hlast : l.getLast? = some ')' := by rw [hl, Parser.getLast?_app (by simp)]; rfl
  have hhead : headWord l = x := by rw [hl2]; exact headWord_stop hw.all (by decide)
  rw [← hl]
  -- a line that ends otherwise
  have last : ∀ p q : Str, q.getLast? ≠ some ')' → numbered p q l = none := by
    intro p q hq
    cases h : numbered p q l with
    | none => rfl
    | some k =>
      exfalso
      obtain ⟨a, b⟩ := numbered_last h ')' hlast
      by_cases hq0 : q = []
      · exact absurd (a hq0) (by decide)
      · exact hq (b hq0)
  -- a line with another word in front
  have other : ∀ (y p : Str), (∀ d ∈ y, identChar d = true) → x ≠ y → stripPrefix? (y ++ ' ' :: p) l = none := by
    intro y p hy hne
    cases h : stripPrefix? (y ++ ' ' :: p) l with
    | none => rfl
    | some k =>
      exfalso
      have := strip_some h
      rw [hl2, show (y ++ ' ' :: p) ++ k = y ++ ' ' :: (p ++ k) by simp] at this
      exact hne (word_split hw.all hy this).1
  have neq : ∀ y : Str, y.getLast? ≠ some ')' → l ≠ y := fun y hy e => hy (e ▸ hlast)
  have hne : x ≠ c!"trans" ∧ x ≠ c!"_filter" ∧ x ≠ c!"filterName" := by simpa using h2
  have f3 : numbered c!"trans = _captureCollector" c!" = DummyTransaction()" l = none := by
    rw [numbered, show stripPrefix? c!"trans = _captureCollector" l = none from other c!"trans" c!"= _captureCollector" (by decide) hne.1]
  have f4 : numbered c!"trans = _callCollector" c!" = DummyTransaction()" l = none := by
    rw [numbered, show stripPrefix? c!"trans = _callCollector" l = none from other c!"trans" c!"= _callCollector" (by decide) hne.1]
  have f10 : Parser.argValLine l = none := by
    unfold Parser.argValLine
    split
    · rfl
    · next r hr =>
      rw [if_neg]
      intro hd
      have h3 := strip_some hr
      have h4 : l = (c!"_callArgVal" ++ r.takeWhile isDigit) ++ ' ' :: (c!"= _callCollector" ++ r.takeWhile isDigit ++ c!".response().getvalue()") := by
        rw [h3]
        conv_lhs => rw [← List.takeWhile_append_dropWhile (p := isDigit) (l := r), hd]
        simp
      have h5 := (word_split hw.all (by
        intro d hd
        rcases List.mem_append.1 hd with hd | hd
        · clear * - hd; revert d; decide
        · exact digit_ident (List.all_eq_true.1 List.all_takeWhile d hd)) (hl2.symm.trans h4)).2
      simp at h5
  have f19 : Parser.between c!"_filter = self._CHEETAH__currentFilter = " c!"(self).filter" l = none := by
    rw [Parser.between, show stripPrefix? c!"_filter = self._CHEETAH__currentFilter = " l = none from other c!"_filter" c!"= self._CHEETAH__currentFilter = " (by decide) hne.2.1]
  have f20 : Parser.between c!"filterName = " [] l = none := by
    rw [Parser.between, show stripPrefix? c!"filterName = " l = none from other c!"filterName" c!"= " (by decide) hne.2.2]
  have f22 : Parser.noteLine l = none := by
    unfold Parser.noteLine
    split
    · rfl
    · next r hr =>
      cases hb : Parser.between c!" = '" c!"'" (r.dropWhile isDigit) with
      | none => rfl
      | some y =>
        exfalso
        have h3 := between_some hb
        have h4 := strip_some hr
        rw [← List.takeWhile_append_dropWhile (p := isDigit) (l := r), h3] at h4
        rw [h4, ← List.append_assoc, ← List.append_assoc, Parser.getLast?_app (by simp)] at hlast
        simp at hlast
  have f23 : Parser.kwLine l = none := by
    unfold Parser.kwLine
    split
    · rfl
    · next r hr =>
      cases hb : Parser.between c!"['" (c!"'] = _callCollector" ++ r.takeWhile isDigit ++ c!".response().getvalue()") (r.dropWhile isDigit) with
      | none => rfl
      | some y =>
        exfalso
        have h3 := between_some hb
        have h4 := strip_some hr
        rw [← List.takeWhile_append_dropWhile (p := isDigit) (l := r), h3] at h4
        have h5 : headWord l = c!"_callKws" ++ r.takeWhile isDigit := by
          have := headWord_stop (w := c!"_callKws" ++ r.takeWhile isDigit) (c := '[')
            (r := '\'' :: (y ++ (c!"'] = _callCollector" ++ r.takeWhile isDigit ++ c!".response().getvalue()"))) (by
            intro d hd
            rcases List.mem_append.1 hd with hd | hd
            · clear * - hd; revert d; decide
            · exact digit_ident (List.all_eq_true.1 List.all_takeWhile d hd)) (by decide)
          rw [← this, h4]
          simp
        rw [hhead] at h5
        rw [hl2, h5] at h4
        have h6 := List.append_cancel_left (as := c!"_callKws" ++ r.takeWhile isDigit) (h4.trans (by simp only [List.append_assoc]; rfl))
        simp at h6
  have f21 : Parser.captureLine l = some (.capture x n) := by
    rw [Parser.captureLine, hhead, if_neg h1, hl, numbered_hit n (by decide)]
    rfl
  refine readLine_own (o := .capture x n) (own_at 25 ?_ ?_)
  · simp only [Parser.ownForms]
    rw [last _ c!" = trans" (by decide), last _ c!" = self._CHEETAH__isBuffering" (by decide), if_neg (neq _ (by decide)), f3, f4, last c!"write = _captureCollector" c!".response().write" (by decide),
      last c!"write = _callCollector" c!".response().write" (by decide), last c!"trans = _orig_trans" [] (by decide), if_neg (neq _ (by decide)), last _ c!" " (by decide), f10,
      last c!"del _orig_trans" [] (by decide), last c!"del _wasBuffering" [] (by decide), last c!"del _captureCollector" [] (by decide), last c!"del _callCollector" [] (by decide),
      last c!"del _callArgVal" [] (by decide), last _ c!" = _filter" (by decide), if_neg (neq _ (by decide)), last c!"_filter = self._CHEETAH__currentFilter = _orig_filter" [] (by decide), f19, f20,
      last c!"_callKws" c!" = {}" (by decide), f22, f23, last c!"del _callKws" [] (by decide)]
    rfl
  · simp only [Parser.ownForms, List.getElem?_cons_zero, List.getElem?_cons_succ, f21]

/-! ### Calls -/

theorem cut_skip {c : Char} {p : Str} (u : Str) (s : Str) (h : c ∉ u) : cut (c :: p) (u ++ s) = (cut (c :: p) s).map fun x => (u ++ x.1, x.2) := by
  induction u with
  | nil => simp
  | cons d u ih =>
    have hd : c ≠ d := fun e => h (by simp [e])
    rw [List.cons_append, cut, stripPrefix?, if_neg hd]
    simp only
    rw [ih fun e => h (List.mem_cons_of_mem _ e)]
    cases cut (c :: p) s <;> rfl

theorem cut_hit (p s : Str) (hp : p ≠ []) : cut p (p ++ s) = some ([], s) := by
  cases p with
  | nil => exact absurd rfl hp
  | cons c p => rw [List.cons_append, cut, ← List.cons_append, strip_hit]

theorem dotted_chars {w : Str} (h : Dotted w) : ∀ c ∈ w, identChar c = true ∨ c = '.' := by
  induction h with
  | one w h => exact fun c hc => .inl (h.all c hc)
  | more u w h _ ih =>
    intro c hc
    rcases List.mem_append.1 hc with hc | hc
    · exact .inl (h.all c hc)
    · rcases List.mem_cons.1 hc with rfl | hc
      · exact .inr rfl
      · exact ih c hc

theorem strip_sep {p : Str} {z : Char} (u t : Str) (hz : z ∉ p) : stripPrefix? p (u ++ z :: t) = (stripPrefix? p u).map (· ++ z :: t) := by
  induction p generalizing u with
  | nil => simp [stripPrefix?]
  | cons a p ih =>
    have ha : a ≠ z := fun e => hz (by simp [e])
    cases u with
    | nil => simp [stripPrefix?, ha]
    | cons b u =>
      simp only [List.cons_append, stripPrefix?]
      split
      · exact ih u fun e => hz (List.mem_cons_of_mem _ e)
      · rfl

/-- What does not stand before a separator is looked for behind it. -/
theorem cut_sep {p : Str} {z : Char} (u t : Str) (hp : p ≠ []) (hz : z ∉ p) (h : cut p u = none) : cut p (u ++ z :: t) = (cut p t).map fun x => (u ++ z :: x.1, x.2) := by
  induction u with
  | nil =>
    have := strip_sep [] t hz
    cases p with
    | nil => exact absurd rfl hp
    | cons a p =>
      simp only [List.nil_append, stripPrefix?, Option.map_none] at this
      rw [List.nil_append, cut, stripPrefix?, this]
      rfl
  | cons c u ih =>
    have hs := strip_sep (c :: u) t hz
    rw [cut] at h
    cases hc : stripPrefix? p (c :: u) with
    | some r => rw [hc] at h; simp at h
    | none =>
      rw [hc] at h hs
      simp only [Option.map_eq_none_iff, Option.map_none] at h hs
      rw [List.cons_append] at hs ⊢
      rw [cut, hs]
      simp only
      rw [ih h]
      cases cut p t <;> rfl

theorem cut_skip_none {c : Char} {p : Str} (u : Str) (h : c ∉ u) : cut (c :: p) u = none := by
  have := cut_skip (p := p) u [] h
  simpa [cut] using this

theorem read_callKw {f : Str} (hf : Dotted f) (n : Nat) (as : Str) (ha : Parser.Apart ('(' :: as)) :
    readExpr rd (c!"VFFSL(SL,\"" ++ f ++ c!"\",False)" ++ c!"(" ++ (if as = [] then [] else as ++ c!", ") ++ c!"**_callKws" ++ decimal n ++ c!")") =
      .callKw (rd.fn (c!"VFFSL(SL,\"" ++ f ++ c!"\",False)") as) n := by
  have hno : ∀ c, c ∈ c!"(*)" → c ∉ f := by
    intro c hc h
    have := dotted_chars hf c h
    simp at hc
    rcases hc with rfl | rfl | rfl <;> revert this <;> decide
  obtain ⟨r, hr⟩ : ∃ r, r = decimal n ++ c!")" := ⟨_, rfl⟩
  obtain ⟨a2, ha2⟩ : ∃ a2, a2 = if as = [] then [] else as ++ c!", " := ⟨_, rfl⟩
  have e0 : c!"VFFSL(SL,\"" ++ f ++ c!"\",False)" ++ c!"(" ++ (if as = [] then [] else as ++ c!", ") ++ c!"**_callKws" ++ decimal n ++ c!")" =
      c!"VFFSL" ++ ('(' :: ((c!"SL,\"" ++ f ++ c!"\",False)") ++ ('(' :: (a2 ++ (c!"**_callKws" ++ r))))) := by rw [hr, ← ha2]; simp
  have hn1 : '(' ∉ c!"SL,\"" ++ f ++ c!"\",False)" := by simp [hno '(' (by decide)]
  have hn2 : '*' ∉ c!"SL,\"" ++ f ++ c!"\",False)" := by simp [hno '*' (by decide)]
  have hrd : '(' ∉ r := by
    rw [hr]
    simp only [List.mem_append, not_or]
    exact ⟨fun h => absurd (decimal_digits n '(' h) (by decide), by decide⟩
  -- no single argument
  have c1 : cut c!"(_callArgVal" ('(' :: (a2 ++ (c!"**_callKws" ++ r))) = none := by
    by_cases has : as = []
    · rw [ha2, if_pos has, cut]
      rw [show stripPrefix? c!"(_callArgVal" ('(' :: ([] ++ (c!"**_callKws" ++ r))) = none by simp [stripPrefix?]]
      simp only
      rw [cut_skip_none _ (by simp [hrd])]
      rfl
    · rw [ha2, if_neg has, show '(' :: ((as ++ c!", ") ++ (c!"**_callKws" ++ r)) = ('(' :: as) ++ ',' :: (' ' :: (c!"**_callKws" ++ r)) by simp,
        cut_sep _ _ (by simp) (by decide) ha.1, cut_skip_none _ (by simp [hrd])]
      rfl
  have c2 : cut c!"(_callArgVal" (c!"VFFSL" ++ ('(' :: ((c!"SL,\"" ++ f ++ c!"\",False)") ++ ('(' :: (a2 ++ (c!"**_callKws" ++ r)))))) = none := by
    rw [cut_skip _ _ (by decide), cut]
    rw [show stripPrefix? c!"(_callArgVal" ('(' :: ((c!"SL,\"" ++ f ++ c!"\",False)") ++ ('(' :: (a2 ++ (c!"**_callKws" ++ r))))) = none by simp [stripPrefix?]]
    simp only
    rw [cut_skip _ _ hn1, c1]
    rfl
  have hstar : cut c!"**_callKws" as = none := by
    have := ha.2
    rw [cut, show stripPrefix? c!"**_callKws" ('(' :: as) = none by simp [stripPrefix?]] at this
    simpa using this
  have c3 : cut c!"**_callKws" (a2 ++ (c!"**_callKws" ++ r)) = some (a2, r) := by
    by_cases has : as = []
    · rw [ha2, if_pos has]
      exact cut_hit _ _ (by simp)
    · rw [ha2, if_neg has, show (as ++ c!", ") ++ (c!"**_callKws" ++ r) = as ++ ',' :: ([] ++ ' ' :: (c!"**_callKws" ++ r)) by simp, cut_sep _ _ (by simp) (by decide) hstar,
        cut_sep _ _ (by simp) (by decide) rfl, cut_hit _ _ (by simp)]
      simp
  have c4 : cut c!"**_callKws" (c!"VFFSL" ++ ('(' :: ((c!"SL,\"" ++ f ++ c!"\",False)") ++ ('(' :: (a2 ++ (c!"**_callKws" ++ r)))))) =
      some (c!"VFFSL(SL,\"" ++ f ++ c!"\",False)" ++ '(' :: a2, r) := by
    rw [show c!"VFFSL" ++ ('(' :: ((c!"SL,\"" ++ f ++ c!"\",False)") ++ ('(' :: (a2 ++ (c!"**_callKws" ++ r))))) =
      (c!"VFFSL(" ++ (c!"SL,\"" ++ f ++ c!"\",False)")) ++ '(' :: (a2 ++ (c!"**_callKws" ++ r)) by simp,
      cut_sep _ _ (by simp) (by decide) (cut_skip_none _ (by
        intro h
        rcases List.mem_append.1 h with h | h
        · revert h; decide
        · exact hn2 h)), c3]
    simp
  have c5 : cut c!")(" (c!"VFFSL(SL,\"" ++ f ++ c!"\",False)" ++ '(' :: a2) = some (c!"VFFSL(SL,\"" ++ f ++ c!"\",False", a2) := by
    rw [show c!"VFFSL(SL,\"" ++ f ++ c!"\",False)" ++ '(' :: a2 = (c!"VFFSL(SL,\"" ++ f ++ c!"\",False") ++ (c!")(" ++ a2) by simp,
      cut_skip _ _ (by simp [hno ')' (by decide)]), cut_hit _ _ (by simp)]
    simp
  have hd : r.takeWhile isDigit = decimal n := by rw [hr]; exact (take_digits (n := n) (q := c!")") (by simp [isDigit])).1
  have hta : a2.take (a2.length - 2) = as := by
    by_cases has : as = []
    · rw [ha2, if_pos has, has]; rfl
    · rw [ha2, if_neg has]; simp
  rw [e0, readExpr, c2]
  dsimp only
  rw [c4]
  dsimp only
  rw [c5]
  dsimp only
  rw [hd, hta, parse_decimal]
  simp

theorem read_call {f : Str} (hf : Dotted f) (n : Nat) (as : Str) :
    readExpr rd (c!"VFFSL(SL,\"" ++ f ++ c!"\",False)" ++ c!"(_callArgVal" ++ decimal n ++ (if as = [] then [] else c!", " ++ as) ++ c!")") =
      .call (rd.fn (c!"VFFSL(SL,\"" ++ f ++ c!"\",False)") as) n := by
  obtain ⟨r, hr⟩ : ∃ r, r = decimal n ++ ((if as = [] then [] else c!", " ++ as) ++ c!")") := ⟨_, rfl⟩
  have hno : '(' ∉ c!"SL,\"" ++ f ++ c!"\",False)" := by
    simp only [List.mem_append, not_or]
    refine ⟨⟨by decide, fun h => ?_⟩, by decide⟩
    have := dotted_chars hf '(' h
    revert this
    decide
  have hcut : cut c!"(_callArgVal" (c!"VFFSL(SL,\"" ++ f ++ c!"\",False)" ++ c!"(_callArgVal" ++ r) = some (c!"VFFSL(SL,\"" ++ f ++ c!"\",False)", r) := by
    have e : c!"VFFSL(SL,\"" ++ f ++ c!"\",False)" ++ c!"(_callArgVal" ++ r = c!"VFFSL" ++ ('(' :: ((c!"SL,\"" ++ f ++ c!"\",False)") ++ (c!"(_callArgVal" ++ r))) := by simp
    rw [e, cut_skip _ _ (by decide), cut]
    rw [show stripPrefix? c!"(_callArgVal" ('(' :: ((c!"SL,\"" ++ f ++ c!"\",False)") ++ (c!"(_callArgVal" ++ r))) = none by simp [stripPrefix?]]
    simp only
    rw [cut_skip _ _ hno, cut_hit _ _ (by simp)]
    simp
  have hd : ∀ c, ((if as = [] then [] else c!", " ++ as) ++ c!")").head? = some c → isDigit c = false := by
    intro c hc
    split at hc <;> simp at hc <;> subst hc <;> decide
  obtain ⟨d1, d2⟩ := take_digits (n := n) hd
  rw [readExpr, show c!"VFFSL(SL,\"" ++ f ++ c!"\",False)" ++ c!"(_callArgVal" ++ decimal n ++ (if as = [] then [] else c!", " ++ as) ++ c!")" =
    c!"VFFSL(SL,\"" ++ f ++ c!"\",False)" ++ c!"(_callArgVal" ++ r by rw [hr]; simp, hcut]
  simp only
  rw [hr, d1, d2, parse_decimal]
  congr 2
  split
  · next h => simp [h]
  · simp

/-! ### Reading several lines -/

/-- The lines are read in this way, whatever follows them. -/
def Reads (X : List (Nat × Str)) (ls : List (Nat × Line L)) : Prop := ∀ Y, readLines rd (X ++ Y) = ls ++ readLines rd Y

end

section
variable {rd : Reading L}

theorem Reads.nil : Reads rd [] [] := fun _ => rfl

theorem Reads.append {X X' : List (Nat × Str)} {l l' : List (Nat × Line L)} (h : Reads rd X l) (h' : Reads rd X' l') : Reads rd (X ++ X') (l ++ l') := by
  intro Y
  rw [List.append_assoc, h, h', List.append_assoc]

theorem Reads.all {X : List (Nat × Str)} {l : List (Nat × Line L)} (h : Reads rd X l) : readLines rd X = l := by
  have := h []
  simpa [readLines, readFrom] using this

theorem Reads.one {n : Nat} {t : Str} {x : Line L} (h : readLine rd t = x) (hx : x ≠ .simple .pass_ := by simp) : Reads rd [(n, t)] [(n, x)] := by
  intro Y
  have hc : ∀ q, ownOf t ≠ some (.filterName q) := by
    intro q hq
    rw [readLine_own hq] at h
    exact hx h.symm
  have hch : chosen n t Y = none := by
    unfold chosen
    split
    · next q hq => exact absurd hq (hc q)
    · rfl
  show readFrom rd 0 ((n, t) :: Y) = _
  rw [readFrom, hch]
  simp [h, readLines]

/-- The lines that choose a filter by its name. -/
theorem reads_choice (n : Nat) (x : Str) :
    Reads rd ((n, c!"filterName = " ++ (c!"'" ++ x ++ c!"'")) :: choice n x) [(n, .simple (.setFilter (rd.filt x)))] := by
  intro Y
  have h4 : (choice n x ++ Y).take 4 = choice n x := by simp [choice]
  have hx : ((c!"'" ++ x ++ c!"'").drop 1).dropLast = x := by simp
  have hch : chosen n (c!"filterName = " ++ (c!"'" ++ x ++ c!"'")) (choice n x ++ Y) = some x := by
    unfold chosen
    rw [own_filterName]
    simp only [hx, h4]
    simp
  show readFrom rd 0 ((n, c!"filterName = " ++ (c!"'" ++ x ++ c!"'")) :: (choice n x ++ Y)) = _
  rw [readFrom, hch]
  rfl

end

end Cheetah.EndToEnd
