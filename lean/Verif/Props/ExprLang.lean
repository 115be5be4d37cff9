import Verif.Props.ParserBlocks
/-
The expressions of templates: Python tokens, blanks, brackets and placeholders `$name`, and how the
parser translates them.  Property C68.
-/
namespace Cheetah.Parser

/-! ### Specification -/

/-- Expressions: Python tokens, blanks, placeholders with a dotted name `$a.b`, placeholders with call arguments
or a subscript `$a.b(…)`, `$a.b[…]`, a subscript with more brackets right behind it `$a.b[…][…](…)`, such a placeholder with
a further one behind a dot `$a.b(…).c[…][…].d`, keyword arguments `$name=…`, comprehensions `for $a, $b in …`, and brackets. -/
inductive Ex where
  | nil
  | sp (rest : Ex)
  | tok (t : Str) (rest : Ex)
  | var (w : Str) (rest : Ex)
  | post (obj : Option Str) (m : Str) (o : Char) (inside groups rest : Ex)
  | link (obj : Option Str) (m : Str) (o : Char) (inside groups more : Ex)
  | grp (o : Char) (inside rest : Ex)
  | kw (w : Str) (k : Nat) (rest : Ex)
  | comp (names : List Str) (rest : Ex)

/-- The closing bracket. -/
def closing (o : Char) : Char := if o = '(' then ')' else if o = '[' then ']' else '}'

/-- `obj.m`, or `m` alone. -/
def dottedPath : Option Str → Str → Str
  | none, m => m
  | some u, m => u ++ '.' :: m

/-- The names of a comprehension, with or without `$`. -/
def targets (mark : Str) : List Str → Str
  | [] => []
  | [w] => mark ++ w
  | w :: ws => mark ++ w ++ c!", " ++ targets mark ws

/-- What the author writes. Behind a dot, a further part of the placeholder has no `$` of its own. -/
def Ex.src : Ex → Str
  | .nil => []
  | .sp e => ' ' :: e.src
  | .tok t e => t ++ e.src
  | .var w e => '$' :: (w ++ e.src)
  | .post obj m o i gs e => '$' :: (dottedPath obj m ++ o :: (i.src ++ closing o :: (gs.src ++ e.src)))
  | .link obj m o i gs e => '$' :: (dottedPath obj m ++ o :: (i.src ++ closing o :: (gs.src ++ '.' :: e.src.tail)))
  | .grp o i e => o :: (i.src ++ closing o :: e.src)
  | .kw w k e => '$' :: (w ++ (List.replicate k ' ' ++ '=' :: e.src))
  | .comp ns e => c!"for " ++ (targets c!"$" ns ++ ' ' :: e.src)

/-- The look-up of a name before call arguments or a subscript: what has call arguments is not called a second
time. -/
def lookupPy : Option Str → Str → Char → Str
  | none, m, o => c!"VFFSL(SL,\"" ++ m ++ (if o = '(' then c!"\",False)" else c!"\",True)")
  | some u, m, o => c!"VFN(VFFSL(SL,\"" ++ u ++ c!"\",True),\"" ++ m ++ (if o = '(' then c!"\",False)" else c!"\",True)")

/-- The look-up of a name in the value `v`. -/
def lookIn (v w : Str) (call : Bool) : Str := c!"VFN(" ++ v ++ c!",\"" ++ w ++ (if call then c!"\",False)" else c!"\",True)")

/-- The look-up of `obj.m` in the variables or in the value before it. -/
def linkPy : Option Str → Option Str → Str → Char → Str
  | none, obj, m, o => lookupPy obj m o
  | some v, none, m, o => lookIn v m (o == '(')
  | some v, some u, m, o => lookIn (lookIn v u false) m (o == '(')

mutual

/-- What Python gets: a placeholder becomes a look-up of its name, the name of a keyword argument or of a comprehension
loses its `$`, everything else is copied. -/
def Ex.py : Ex → Str
  | .nil => []
  | .sp e => ' ' :: e.py
  | .tok t e => t ++ e.py
  | .var w e => c!"VFFSL(SL,\"" ++ w ++ c!"\",True)" ++ e.py
  | .post obj m o i gs e => lookupPy obj m o ++ o :: (i.py ++ closing o :: (gs.py ++ e.py))
  | .link obj m o i gs e => e.pyIn (lookupPy obj m o ++ o :: (i.py ++ closing o :: gs.py))
  | .grp o i e => o :: (i.py ++ closing o :: e.py)
  | .kw w k e => w ++ (List.replicate k ' ' ++ '=' :: e.py)
  | .comp ns e => c!"for " ++ (targets [] ns ++ ' ' :: e.py)

/-- A further part of a placeholder is looked up in the value `v` of the parts before it. -/
def Ex.pyIn : Ex → Str → Str
  | .var w e, v => lookIn v w false ++ e.py
  | .post obj m o i gs e, v => linkPy (some v) obj m o ++ o :: (i.py ++ closing o :: (gs.py ++ e.py))
  | .link obj m o i gs e, v => e.pyIn (linkPy (some v) obj m o ++ o :: (i.py ++ closing o :: gs.py))
  | _, _ => []

end

/-- A placeholder comes first. -/
def Ex.Named : Ex → Prop
  | .var _ _ => True
  | .post _ _ _ _ _ _ => True
  | .link _ _ _ _ _ _ => True
  | _ => False

/-- Nothing but brackets, one pair behind the other. -/
def Ex.Brackets : Ex → Prop
  | .nil => True
  | .grp _ _ e => e.Brackets
  | _ => False

/-- Identifiers with dots between them. -/
inductive Dotted : Str → Prop
  | one (w : Str) : Word w → Dotted w
  | more (u w : Str) : Word u → Dotted w → Dotted (u ++ '.' :: w)

/-- The first character of a text, or `c` if it is empty. -/
def nextChar (s : Str) (c : Char) : Char := s.headD c

/-- `t` is a token for the tokenizer when `c` follows it, and none with a meaning of its own for the parser:
no bracket, no blank, `$`, `#` or backslash at the start, not `for` and, outside brackets, not `:`. -/
structure IsTok (tok : Str → Option Nat) (t : Str) (top : Bool) (c : Char) : Prop where
  reads : ∀ r, tok (t ++ c :: r) = some t.length
  start : ∃ d r, t = d :: r ∧ d ∉ c!"()[]{} \t\x0c\r\n\\$#"
  free : t ≠ c!"for" ∧ (top = true → t ≠ c!":")
  line : (∀ d ∈ t, d ≠ '\r' ∧ d ≠ '\n') ∧ t.getLast? ≠ some '\\'
  plain : ¬ (t = c!"c" ∧ (c = '\'' ∨ c = '"'))

/-- `then` and `else`, which part an `#if` on one line. -/
def isKey (t : Str) : Bool := strip t = c!"then" || strip t = c!"else"

/-- The words `then` and `else` among the tokens. -/
def Ex.keys : Ex → List Str
  | .nil => []
  | .sp e => e.keys
  | .tok t e => if isKey t then t :: e.keys else e.keys
  | .var _ e => e.keys
  | .post _ _ _ i gs e => i.keys ++ gs.keys ++ e.keys
  | .link _ _ _ i gs e => i.keys ++ gs.keys ++ e.keys
  | .grp _ i e => i.keys ++ e.keys
  | .kw _ _ e => e.keys
  | .comp ns e => if isKey (' ' :: (targets [] ns ++ c!" ")) then (' ' :: (targets [] ns ++ c!" ")) :: e.keys else e.keys

/-- Does an equals sign alone come next? -/
def Ex.assigns : Ex → Prop
  | .sp e => e.assigns
  | .tok t _ => t = c!"="
  | _ => False

/-- Where an expression stands: outside brackets, inside `[…]` or `{…}`, as the arguments of a placeholder, inside other
round brackets. -/
inductive Mode where
  | line | inside | args | round

def Mode.isTop : Mode → Bool
  | .line => true
  | _ => false

instance : Coe Bool Mode := ⟨fun b => bif b then .line else .inside⟩

/-- Inside brackets that belong to no placeholder. -/
def Mode.bracket (o : Char) : Mode := if o = '(' then .round else .inside

/-- Inside the brackets of a placeholder. -/
def Mode.post (o : Char) : Mode := if o = '(' then .args else .inside

/-- Well-formed in its place, when `c` follows. Keyword arguments with `$` stand in the arguments of a placeholder, comprehensions
outside round brackets. Brackets right behind a subscript belong to the placeholder;
behind call arguments they do not. -/
def Ex.Ok (tok : Str → Option Nat) : Ex → Mode → Char → Prop
  | .nil, _, _ => True
  | .sp e, top, c => e.Ok tok top c
  | .tok t e, top, c => IsTok tok t top.isTop (nextChar e.src c) ∧ e.Ok tok top c
  | .var w e, top, c => Dotted w ∧ identChar (nextChar e.src c) = false ∧ nextChar e.src c ∉ c!".([" ∧ ¬ e.assigns ∧ e.Ok tok top c
  | .post obj m o i gs e, top, c => (∀ u, obj = some u → Dotted u) ∧ Word m ∧ o ∈ c!"([" ∧
      (i.Ok tok (Mode.post o) (closing o) ∧ gs.Ok tok false (closing o) ∧ gs.Brackets ∧ (o = '(' → gs = .nil)) ∧
      identStart (nextChar e.src c) = false ∧ (nextChar e.src c ≠ '.' ∧ (o = '[' → nextChar e.src c ∉ c!"([{")) ∧ ¬ e.assigns ∧ e.Ok tok top c
  | .link obj m o i gs e, top, c => (∀ u, obj = some u → Dotted u) ∧ Word m ∧ o ∈ c!"([" ∧
      (i.Ok tok (Mode.post o) (closing o) ∧ gs.Ok tok false (closing o) ∧ gs.Brackets ∧ (o = '(' → gs = .nil)) ∧ e.Named ∧ e.Ok tok top c
  | .grp o i e, top, c => o ∈ c!"([{" ∧ i.Ok tok (Mode.bracket o) (closing o) ∧ e.Ok tok top c
  | .kw w _ e, top, c => top = .args ∧ Word w ∧ IsTok tok c!"=" false (nextChar e.src c) ∧ e.Ok tok top c
  | .comp ns e, top, c => (top = .line ∨ top = .inside) ∧ (ns ≠ [] ∧ ∀ w ∈ ns, Word w) ∧ IsTok tok c!"," false ' ' ∧ (∀ r, tok (c!"for " ++ r) = some 3) ∧
      (∃ f, e = .tok c!"in" f) ∧ e.Ok tok top c

/-- The tokenizer reads a bracket as a token. -/
def TokBrackets (tok : Str → Option Nat) : Prop := ∀ o r, o ∈ c!"([{" → tok (o :: r) = some 1

/-- Name look-up through the search list, with automatic calling and the caller's variables: the default. -/
def fullSt : GenVar.Settings := ⟨true, true, true, true⟩

/-! ### Reading names -/

theorem Dotted.head {w : Str} (h : Dotted w) : ∃ c r, w = c :: r ∧ identStart c = true := by
  cases h with
  | one _ h => obtain ⟨c, r, rfl, h1, _⟩ := h; exact ⟨c, r, rfl, h1⟩
  | more u w h _ => obtain ⟨c, r, rfl, h1, _⟩ := h; exact ⟨c, _, rfl, h1⟩

variable {x : Px}

theorem dottedLoop_at (hx : Std x.toCx) {w : Str} (hw : Dotted w) {c : Char} {r : Str} (hc : identChar c = false) (hd : c ≠ '.') :
    ∀ (n : Nat) (a : Str), w.length < n → x.src = a ++ w ++ c :: r → x.dottedLoop n a.length = .ok (w, (a ++ w).length) := by
  induction hw with
  | one w hw =>
    intro n a hn h
    have hid := identifier_word hx h hw hc
    obtain ⟨d, w', hw', hd', _⟩ := id hw
    obtain ⟨n, rfl⟩ : ∃ k, n = k + 1 := ⟨n - 1, by omega⟩
    have hend : x.dottedLoop n (a ++ w).length = .ok ([], (a ++ w).length) := by
      cases n with
      | zero => rfl
      | succ n =>
        rw [Px.dottedLoop, peek_head hx h]
        simp only [List.head?_cons, hc, Bool.false_eq_true, if_false, hd, false_and]
    rw [Px.dottedLoop, peek_head hx (b := w ++ c :: r) (by rw [h]; simp), hw']
    simp only [List.cons_append, List.head?_cons, identStart_char hd', if_true]
    rw [← hw', hid]
    simp only [bind, Except.bind, hend, List.append_nil]
  | more u w hu hw ih =>
    intro n a hn h
    rw [List.length_append, List.length_cons] at hn
    have hdot : identChar '.' = false := by decide
    have h1 : x.src = a ++ u ++ '.' :: (w ++ c :: r) := by rw [h]; simp
    have hid := identifier_word hx h1 hu hdot
    obtain ⟨d, u', hu', hd', _⟩ := id hu
    obtain ⟨n, rfl⟩ : ∃ k, n = k + 2 := ⟨n - 2, by omega⟩
    have h2 : x.src = (a ++ u ++ c!".") ++ w ++ c :: r := by rw [h]; simp
    have hrec := ih n (a ++ u ++ c!".") (by rw [hu', List.length_cons] at hn; omega) h2
    obtain ⟨e, w', hw', he⟩ := hw.head
    have hlen : (a ++ u).length + 1 = (a ++ u ++ c!".").length := by simp only [List.length_append, List.length_cons, List.length_nil]
    have hpk : x.peek (a ++ u ++ c!".").length = some e := by
      rw [peek_head hx (b := w ++ c :: r) (by rw [h2]; simp), hw']
      rfl
    have hstep : x.dottedLoop (n + 1) (a ++ u).length = .ok ('.' :: w, (a ++ (u ++ '.' :: w)).length) := by
      rw [Px.dottedLoop, peek_head hx h1]
      simp only [List.head?_cons, hdot, Bool.false_eq_true, if_false, hpk, Option.any_some, he, and_self, if_true, hlen, hrec, bind, Except.bind]
      simp only [List.append_assoc, List.cons_append, List.nil_append]
    rw [Px.dottedLoop, peek_head hx (b := u ++ '.' :: (w ++ c :: r)) (by rw [h1]; simp), hu']
    simp only [List.cons_append, List.head?_cons, identStart_char hd', if_true]
    simp only [hid, bind, Except.bind, hstep]
    rw [hu']
    simp

theorem dottedName_at (hx : Std x.toCx) {w : Str} (hw : Dotted w) {a r : Str} {c : Char} (hc : identChar c = false) (hd : c ≠ '.')
    (h : x.src = a ++ w ++ c :: r) : x.dottedName a.length = .ok (w, (a ++ w).length) := by
  obtain ⟨e, w', hw', he⟩ := hw.head
  unfold Px.dottedName
  rw [peek!_head hx (c := e) (b := w' ++ c :: r) (by rw [h, hw']; simp)]
  simp only [bind, Except.bind, he, if_true]
  exact dottedLoop_at hx hw hc hd _ a (by rw [hx.bp, h]; simp) h

theorem nameChunks_at (hx : Std x.toCx) {w : Str} (hw : Dotted w) {a r : Str} {c : Char} (hc : identChar c = false) (hd : c ∉ c!".([")
    (h : x.src = a ++ w ++ c :: r) (st : GenVar.Settings) (n : Nat) : x.nameChunks (n + 2) st a.length = .ok ([⟨w, true, []⟩], (a ++ w).length) := by
  simp only [List.mem_cons, List.not_mem_nil, or_false, not_or] at hd
  have hcs : identStart c = false := by
    cases hs : identStart c with
    | false => rfl
    | true => rw [identStart_char hs] at hc; cases hc
  have hpk : x.peek (a ++ w).length = some c := peek_head hx h
  have hend : x.nameChunks (n + 1) st (a ++ w).length = .ok ([], (a ++ w).length) := by
    rw [Px.nameChunks, hpk]
    simp [hcs, hd.1]
  obtain ⟨e, w', hw', he⟩ := hw.head
  have hdot : e ≠ '.' := by rintro rfl; exact absurd he (by decide)
  rw [Px.nameChunks, peek_head hx (b := e :: (w' ++ c :: r)) (by rw [h, hw']; simp)]
  simp only [List.head?_cons, he, hdot, or_false, not_true, if_false, false_and, bind, Except.bind, dottedName_at hx hw hc hd.1 h, hpk, hend,
    Option.some.injEq, hd.2.1, hd.2.2, GenVar.splitChunk, if_true, List.append_nil]

theorem silentAndCache_letter (hx : Std x.toCx) {a r : Str} {d : Char} (h : x.src = a ++ d :: r) (hd : identStart d = true) :
    x.silentAndCache a.length = .ok (false, .none, a.length) := by
  have hle : a.length ≤ x.bp := by rw [hx.bp, h]; simp
  have hsp := letter_no_silence (c := d) (.inl ((identStart_iff d).1 hd))
  have h1 : afterSilent (d :: r) = d :: r := by
    unfold afterSilent
    split
    · rename_i he; injection he with he; exact absurd he hsp
    · rfl
  have h2 : Interval.readToken (d :: r) = (.none, d :: r) := by
    have hstar : d ≠ '*' := by rintro rfl; exact absurd hd (by decide)
    unfold Interval.readToken Interval.matchRefresh
    split
    · rename_i he
      split at he
      · rename_i he2; injection he2 with he2; exact absurd he2 hstar
      · cases he
    · split
      · rename_i he2; injection he2 with he2; exact absurd he2 hstar
      · rfl
  unfold Px.silentAndCache
  simp only [rest_after h, h1, h2, Nat.sub_self, Nat.add_zero, hle, if_true, bne_self_eq_false]

theorem varStart_at (hx : Std x.toCx) {a r : Str} {d : Char} (h : x.src = a ++ '$' :: d :: r) (ha : a.getLast? ≠ some '\\')
    (hd : identStart d = true ∨ isOpen d = true) : x.varStart false a.length = .ok (a ++ c!"$").length := by
  obtain ⟨ns, hcfg⟩ := hx.cfg
  unfold Px.varStart Cx.matchVarTok
  have : headIs (fun c => identStart c || c == '*' || c == '!' || isOpen c) (d :: r) = true := by
    rcases hd with hd | hd <;> simp [headIs, hd]
  rw [if_pos ((unescaped_iff h).2 ha), rest_after h, hcfg]
  simp only [Bool.false_eq_true, if_false, Cfg.std, stripPrefix?, if_true, this]
  exact (goto_le hx (by rw [h]; simp)).trans (by simp)

/-- A name with `$`, in an expression. -/
theorem cheetahVar_at (hx : Std x.toCx) {w : Str} (hw : Dotted w) {a r : Str} {c : Char} (hc : identChar c = false) (hd : c ∉ c!".([")
    (h : x.src = a ++ '$' :: (w ++ c :: r)) (ha : a.getLast? ≠ some '\\') (st : GenVar.Settings) (plain : Bool) (n : Nat) :
    x.cheetahVar (n + 3) st plain false a.length = (genVar st plain [⟨w, true, []⟩] >>= fun v => .ok (v, (a ++ '$' :: w).length)) := by
  obtain ⟨e, w', hw', he⟩ := hw.head
  have h1 : x.src = (a ++ c!"$") ++ w ++ c :: r := by rw [h]; simp
  rw [Px.cheetahVar, varStart_at hx (r := w' ++ c :: r) (d := e) (by rw [h, hw']; rfl) ha (.inl he)]
  simp only [bind, Except.bind, silentAndCache_letter hx (a := a ++ c!"$") (r := w' ++ c :: r) (d := e) (by rw [h, hw']; simp) he,
    nameChunks_at hx hw hc hd h1 st n]
  simp

theorem Dotted.append {u : Str} (hu : Dotted u) {m : Str} (hm : Word m) : Dotted (u ++ '.' :: m) := by
  induction hu with
  | one u hu => exact .more u m hu (.one m hm)
  | more a b ha _ ih => rw [List.append_assoc, List.cons_append]; exact .more a _ ha ih

theorem dottedPath_ok {obj : Option Str} {m : Str} (ho : ∀ u, obj = some u → Dotted u) (hm : Word m) : Dotted (dottedPath obj m) := by
  cases obj with
  | none => exact .one m hm
  | some u => exact (ho u rfl).append hm

theorem rfind_none {c : Char} : ∀ {s : Str}, c ∉ s → GenVar.rfind c s = none := by
  intro s
  induction s with
  | nil => intro _; rfl
  | cons d s ih =>
    intro h
    rw [List.mem_cons, not_or] at h
    rw [GenVar.rfind, ih h.2]
    simp [Ne.symm h.1]

theorem rfind_last {c : Char} {s : Str} (h : c ∉ s) : ∀ u : Str, GenVar.rfind c (u ++ c :: s) = some u.length := by
  intro u
  induction u with
  | nil => rw [List.nil_append, GenVar.rfind, rfind_none h]; simp
  | cons d u ih => rw [List.cons_append, GenVar.rfind, ih]; simp

theorem genVar_var (w : Str) : genVar fullSt false [⟨w, true, []⟩] = .ok (c!"VFFSL(SL,\"" ++ w ++ c!"\",True)") := by
  simp [genVar, GenVar.genCheetahVar, GenVar.genNameMapperVar, GenVar.genFirst, fullSt, GenVar.reprBool]

theorem Word.no_dot {w : Str} (h : Word w) : '.' ∉ w := by
  obtain ⟨c, r, rfl, h1, h2⟩ := h
  have hd : identChar '.' = false := by decide
  intro hm
  rcases List.mem_cons.1 hm with rfl | hm
  · rw [identStart_char h1] at hd; cases hd
  · rw [h2 _ hm] at hd; cases hd

theorem genVar_post {obj : Option Str} {m : Str} {o : Char} (hobj : ∀ u, obj = some u → Dotted u) (hm : Word m) (rest : Str) :
    genVar fullSt false (GenVar.splitChunk (dottedPath obj m) (o :: rest)) = .ok (lookupPy obj m o ++ o :: rest) := by
  cases obj with
  | none =>
    have : GenVar.rfind '.' m = none := rfind_none hm.no_dot
    by_cases hp : o = '('
    · subst hp
      simp [genVar, GenVar.splitChunk, dottedPath, this, GenVar.genCheetahVar, GenVar.genNameMapperVar, GenVar.genFirst, fullSt, GenVar.reprBool, lookupPy]
    · simp [genVar, GenVar.splitChunk, dottedPath, this, GenVar.genCheetahVar, GenVar.genNameMapperVar, GenVar.genFirst, fullSt, GenVar.reprBool, lookupPy, hp]
  | some u =>
    have : GenVar.rfind '.' (u ++ '.' :: m) = some u.length := rfind_last hm.no_dot u
    have hne : u ≠ [] := by obtain ⟨c, r, rfl, _⟩ := (hobj u rfl).head; exact List.cons_ne_nil _ _
    by_cases hp : o = '('
    · subst hp
      simp [genVar, GenVar.splitChunk, dottedPath, this, hne, GenVar.genCheetahVar, GenVar.genNameMapperVar, GenVar.genFirst, GenVar.genMore, fullSt, GenVar.reprBool, lookupPy]
    · simp [genVar, GenVar.splitChunk, dottedPath, this, hne, GenVar.genCheetahVar, GenVar.genNameMapperVar, GenVar.genFirst, GenVar.genMore, fullSt, GenVar.reprBool, lookupPy, hp]

/-! ### The steps of the loops -/

/-- One Python token. -/
theorem exprParts_tok (hx : Std x.toCx) (st : GenVar.Settings) {brk : List Str} {enc : List (Char × Nat)} {en top : Bool} {a t r : Str} {c : Char} (n : Nat)
    (h : x.src = a ++ t ++ c :: r) (ht : IsTok x.tok t top c) (henc : enc = [] → en = false) (hbrk : enc = [] → t ∉ brk) :
    x.exprParts (n + 1) st en brk enc a.length =
      if headIs identStart t then
        if x.peek ((a ++ t).length + (x.ws (a ++ t).length).length) = some '(' then
          (x.callArgs n st [('(', (a ++ t).length + (x.ws (a ++ t).length).length)] ((a ++ t).length + (x.ws (a ++ t).length).length + 1)) >>= fun (s, q3) =>
          (x.exprParts n st en brk enc q3) >>= fun (bs, q) => .ok (t :: x.ws (a ++ t).length :: ('(' :: s) :: bs, q)
        else x.exprParts n st en brk enc ((a ++ t).length + (x.ws (a ++ t).length).length) >>= fun (bs, q) => .ok (t :: x.ws (a ++ t).length :: bs, q)
      else x.exprParts n st en brk enc (a ++ t).length >>= fun (bs, q) => .ok (t :: bs, q) := by
  have htk := pyTok_at h hx.bp (ht.reads r)
  rw [← List.length_append] at htk
  have hpk : x.peek (a ++ t).length = some c := peek_head hx h
  obtain ⟨d, t', ht', hd⟩ := ht.start
  have h' : x.src = a ++ d :: (t' ++ c :: r) := by rw [h, ht']; simp
  obtain ⟨h1, h2, h3, h4, h5, h6⟩ := not_special (c := d) (by simp at hd ⊢; tauto)
  have hcfg := hx.cfg
  obtain ⟨ns, hcfg⟩ := hx.cfg
  obtain ⟨v1, v2⟩ := novar_at (x := x.toCx) h' (by rw [hcfg]; rfl) h6
  have hde : x.matchTok x.cfg.dirEnd a.length = none := matchTok_none h' (by rw [hcfg]; simp [Cfg.std] at hd ⊢; tauto) (by rw [hcfg]; simp [Cfg.std])
  have hen : ¬ (en = true ∧ enc = []) := by rintro ⟨h1, h2⟩; rw [henc h2] at h1; cases h1
  have hb : ¬ (enc = [] ∧ t ∈ brk) := by rintro ⟨h1, h2⟩; exact hbrk h1 h2
  have hc : ¬ (t = c!"c" ∧ (some c = some '\'' ∨ some c = some '"')) := by
    rintro ⟨h1, h2⟩; exact ht.plain ⟨h1, by simpa using h2⟩
  conv_lhs => unfold Px.exprParts
  rw [peek_head hx h']
  simp only [List.head?_cons, h1, h2, h3, h4, h5, hde, v1, v2, htk, hen, hb, ht.free.1, bind, Except.bind, Px.transform, hpk, hc, Bool.false_eq_true, if_false,
    Option.isSome_none, false_and]

/-- Blanks. -/
theorem exprParts_blanks (hx : Std x.toCx) (st : GenVar.Settings) {brk : List Str} {enc : List (Char × Nat)} {en : Bool} {a w r : Str} (n : Nat)
    (h : x.src = a ++ ' ' :: w ++ r) (hw : ∀ c ∈ w, c = ' ') (hr : ∀ c, r.head? = some c → c ∉ c!" \t\x0c") (henc : enc = [] → en = false) :
    x.exprParts (n + 1) st en brk enc a.length =
      (x.exprParts n st en brk enc (a ++ ' ' :: w).length >>= fun (bs, q) => .ok ((' ' :: w) :: bs, q)) := by
  have hws : x.ws a.length = ' ' :: w := ws_at h hx.bp (by
    intro c hc
    rcases List.mem_cons.1 hc with rfl | hc
    · simp
    · rw [hw c hc]; simp) hr
  have hen : ¬ (en = true ∧ enc = []) := by rintro ⟨h1, h2⟩; rw [henc h2] at h1; cases h1
  conv_lhs => unfold Px.exprParts
  rw [peek_head hx (b := ' ' :: w ++ r) (by rw [h]; simp)]
  simp only [List.cons_append, List.head?_cons, hws, hen, if_false, show isOpen ' ' = false from rfl, show isClose ' ' = false from rfl, show isWs ' ' = true from rfl,
    Bool.false_eq_true, if_true, List.length_append]

/-- A placeholder. -/
theorem exprParts_var (hx : Std x.toCx) (st : GenVar.Settings) {brk : List Str} {enc : List (Char × Nat)} {en : Bool} {a r : Str} {d : Char} (n : Nat)
    (h : x.src = a ++ '$' :: d :: r) (hd : identStart d = true) (henc : enc = [] → en = false) :
    x.exprParts (n + 1) st en brk enc a.length =
      (x.cheetahVar n st false false a.length >>= fun (v, q) => x.exprParts n st en brk enc q >>= fun (bs, q) => .ok (v :: bs, q)) := by
  obtain ⟨ns, hcfg⟩ := hx.cfg
  have hde : x.matchTok x.cfg.dirEnd a.length = none := matchTok_none h (by rw [hcfg]; simp [Cfg.std]) (by rw [hcfg]; simp [Cfg.std])
  have hen : ¬ (en = true ∧ enc = []) := by rintro ⟨h1, h2⟩; rw [henc h2] at h1; cases h1
  have hv : x.matchVarInExpr a.length = true := by
    unfold Cx.matchVarInExpr
    rw [rest_after h, hcfg]
    simp [Cfg.std, stripPrefix?, headIs, hd]
  conv_lhs => unfold Px.exprParts
  rw [peek_head hx h]
  simp [isOpen, isClose, isWs, hde, hv, hen]

/-- A placeholder in call arguments. -/
theorem callArgs_var (hx : Std x.toCx) (st : GenVar.Settings) {enc : List (Char × Nat)} {a r : Str} {d : Char} (n : Nat)
    (h : x.src = a ++ '$' :: d :: r) (hd : identStart d = true) :
    x.callArgs (n + 1) st enc a.length =
      (x.cheetahVar n st false false a.length >>= fun (v, q) =>
        if x.peek (q + (x.ws q).length) = some '=' then
          x.pyTok (q + (x.ws q).length) >>= fun (t, q3) =>
          if t = c!"=" then
            x.cheetahVar n st true false a.length >>= fun (v', _) => x.callArgs n st enc q3 >>= fun (s, r) => .ok (v' ++ x.ws q ++ t ++ s, r)
          else x.callArgs n st enc q3 >>= fun (s, r) => .ok (v ++ x.ws q ++ t ++ s, r)
        else x.callArgs n st enc (q + (x.ws q).length) >>= fun (s, r) => .ok (v ++ x.ws q ++ s, r)) := by
  obtain ⟨ns, hcfg⟩ := hx.cfg
  have hv : x.matchVarInExpr a.length = true := by
    unfold Cx.matchVarInExpr
    rw [rest_after h, hcfg]
    simp [Cfg.std, stripPrefix?, headIs, hd]
  conv_lhs => unfold Px.callArgs
  rw [peek_head hx h]
  simp [isClose, isWs, hv]

theorem callArgs_blank (hx : Std x.toCx) (st : GenVar.Settings) {enc : List (Char × Nat)} {a r : Str} (n : Nat) (h : x.src = a ++ ' ' :: r) :
    x.callArgs (n + 1) st enc a.length = (x.callArgs n st enc (a ++ c!" ").length >>= fun (s, q) => .ok (' ' :: s, q)) := by
  conv_lhs => unfold Px.callArgs
  rw [peek_head hx h]
  simp [isClose, isWs]

theorem callArgs_tok (hx : Std x.toCx) (st : GenVar.Settings) {enc : List (Char × Nat)} {top : Bool} {a t r : Str} {c : Char} (n : Nat)
    (h : x.src = a ++ t ++ c :: r) (ht : IsTok x.tok t top c) :
    x.callArgs (n + 1) st enc a.length = (x.callArgs n st enc (a ++ t).length >>= fun (s, q) => .ok (t ++ s, q)) := by
  have htk := pyTok_at h hx.bp (ht.reads r)
  rw [← List.length_append] at htk
  have hpk : x.peek (a ++ t).length = some c := peek_head hx h
  obtain ⟨d, t', ht', hd⟩ := ht.start
  have h' : x.src = a ++ d :: (t' ++ c :: r) := by rw [h, ht']; simp
  obtain ⟨h1, h2, h3, h4, h5, h6⟩ := not_special (c := d) (by simp at hd ⊢; tauto)
  obtain ⟨ns, hcfg⟩ := hx.cfg
  obtain ⟨v1, v2⟩ := novar_at (x := x.toCx) h' (by rw [hcfg]; rfl) h6
  have hc : ¬ (t = c!"c" ∧ (some c = some '\'' ∨ some c = some '"')) := by
    rintro ⟨h1, h2⟩; exact ht.plain ⟨h1, by simpa using h2⟩
  have hb : ¬ (t = c!"{" ∨ t = c!"(" ∨ t = c!"[") := by
    rw [ht']
    simp at hd ⊢
    tauto
  conv_lhs => unfold Px.callArgs
  rw [peek_head hx h']
  simp only [List.head?_cons, h2, h3, h5, v1, v2, htk, bind, Except.bind, Px.transform, hpk, hc, hb, Bool.false_eq_true, if_false, false_or]

theorem callArgs_open (hx : Std x.toCx) (hT : TokBrackets x.tok) (st : GenVar.Settings) {enc : List (Char × Nat)} {a r : Str} {o : Char} (n : Nat)
    (h : x.src = a ++ o :: r) (ho : o ∈ c!"([{") :
    x.callArgs (n + 1) st enc a.length =
      (x.exprParts n st true [] [] a.length >>= fun (e, q) => x.callArgs n st enc q >>= fun (s, q) => .ok (e.flatten ++ s, q)) := by
  have htk := pyTok_at (x := x) (t := [o]) (r := r) (a := a) (by rw [h]; simp) hx.bp (by simpa using hT o r ho)
  obtain ⟨ns, hcfg⟩ := hx.cfg
  have hne : o ≠ '$' := by rintro rfl; simp at ho
  obtain ⟨v1, v2⟩ := novar_at (x := x.toCx) h (by rw [hcfg]; rfl) hne
  conv_lhs => unfold Px.callArgs
  rw [peek_head hx h]
  simp at ho
  rcases ho with rfl | rfl | rfl <;>
    simp [v1, v2, htk, isClose, isWs, bind, Except.bind]

theorem callArgs_close (hx : Std x.toCx) (st : GenVar.Settings) {a r : Str} {p : Nat} (n : Nat) (h : x.src = a ++ ')' :: r) :
    x.callArgs (n + 1) st [('(', p)] a.length = .ok (c!")", (a ++ c!")").length) := by
  conv_lhs => unfold Px.callArgs
  rw [peek_head hx h]
  simp [isClose, closeOf]

/-! ### Whole expressions -/

/-- A bound for the steps. -/
def Ex.size : Ex → Nat
  | .nil => 0
  | .sp e => e.size + 1
  | .tok _ e => e.size + 1
  | .var _ e => e.size + 4
  | .post _ _ _ i gs e => i.size + gs.size + e.size + 6
  | .link _ _ _ i gs e => i.size + gs.size + e.size + 6
  | .grp _ i e => i.size + e.size + 4
  | .kw _ k e => k + e.size + 5
  | .comp ns e => 6 * ns.length + e.size + 8

def pre (ps : List Str) (r : Except Err (List Str × Nat)) : Except Err (List Str × Nat) := r >>= fun (bs, q) => .ok (ps ++ bs, q)

def preS (t : Str) (r : Except Err (Str × Nat)) : Except Err (Str × Nat) := r >>= fun (s, q) => .ok (t ++ s, q)

theorem pre_nil (r : Except Err (List Str × Nat)) : pre [] r = r := by cases r <;> rfl

theorem preS_nil (r : Except Err (Str × Nat)) : preS [] r = r := by cases r <;> rfl

theorem pre_pre (ps qs : List Str) (r : Except Err (List Str × Nat)) : pre ps (pre qs r) = pre (ps ++ qs) r := by
  cases r with
  | error e => rfl
  | ok v => simp [pre, bind, Except.bind]

theorem preS_preS (ps qs : Str) (r : Except Err (Str × Nat)) : preS ps (preS qs r) = preS (ps ++ qs) r := by
  cases r with
  | error e => rfl
  | ok v => simp [preS, bind, Except.bind]

theorem Ex.peel (e : Ex) : ∃ (k : Nat) (f : Ex), e.src = List.replicate k ' ' ++ f.src ∧ e.py = List.replicate k ' ' ++ f.py ∧
    (∀ tok top c, e.Ok tok top c → f.Ok tok top c) ∧ e.size = k + f.size ∧ (f.assigns → e.assigns) ∧ (∀ g, f ≠ .sp g) ∧ e.keys = f.keys := by
  induction e with
  | sp e ih =>
    obtain ⟨k, f, h1, h2, h3, h4, h5, h6, h7⟩ := ih
    refine ⟨k + 1, f, ?_, ?_, h3, ?_, h5, h6, h7⟩
    · rw [Ex.src, h1]; rfl
    · rw [Ex.py, h2]; rfl
    · rw [Ex.size, h4]; omega
  | nil => exact ⟨0, _, rfl, rfl, fun _ _ _ h => h, (Nat.zero_add _).symm, id, fun g => by simp, rfl⟩
  | tok t e => exact ⟨0, _, rfl, rfl, fun _ _ _ h => h, (Nat.zero_add _).symm, id, fun g => by simp, rfl⟩
  | var w e => exact ⟨0, _, rfl, rfl, fun _ _ _ h => h, (Nat.zero_add _).symm, id, fun g => by simp, rfl⟩
  | post u m o i gs e => exact ⟨0, _, rfl, rfl, fun _ _ _ h => h, (Nat.zero_add _).symm, id, fun g => by simp, rfl⟩
  | link u m o i gs e => exact ⟨0, _, rfl, rfl, fun _ _ _ h => h, (Nat.zero_add _).symm, id, fun g => by simp, rfl⟩
  | grp o i e => exact ⟨0, _, rfl, rfl, fun _ _ _ h => h, (Nat.zero_add _).symm, id, fun g => by simp, rfl⟩
  | kw w k e => exact ⟨0, _, rfl, rfl, fun _ _ _ h => h, (Nat.zero_add _).symm, id, fun g => by simp, rfl⟩
  | comp ns e => exact ⟨0, _, rfl, rfl, fun _ _ _ h => h, (Nat.zero_add _).symm, id, fun g => by simp, rfl⟩

theorem Ex.solid {tok : Str → Option Nat} {e : Ex} {top : Mode} {c : Char} (he : e.Ok tok top c) (hs : ∀ g, e ≠ .sp g) (hc : c ∉ c!" \t\x0c") (r : Str) :
    ∀ d, (e.src ++ c :: r).head? = some d → d ∉ c!" \t\x0c" := by
  intro d hd
  cases e with
  | nil =>
    simp only [Ex.src, List.nil_append, List.head?_cons, Option.some.injEq] at hd
    exact hd ▸ hc
  | sp e => exact absurd rfl (hs e)
  | tok t e =>
    obtain ⟨f, t', ht, hf⟩ := he.1.start
    simp only [Ex.src, ht, List.cons_append, List.head?_cons, Option.some.injEq] at hd
    subst hd
    simp at hf ⊢
    tauto
  | var w e =>
    simp only [Ex.src, List.cons_append, List.head?_cons, Option.some.injEq] at hd
    subst hd
    decide
  | post u m o i gs e =>
    simp only [Ex.src, List.cons_append, List.head?_cons, Option.some.injEq] at hd
    subst hd
    decide
  | link u m o i gs e =>
    simp only [Ex.src, List.cons_append, List.head?_cons, Option.some.injEq] at hd
    subst hd
    decide
  | grp o i e =>
    have ho := he.1
    simp only [Ex.src, List.cons_append, List.head?_cons, Option.some.injEq] at hd
    subst hd
    simp at ho ⊢
    rcases ho with rfl | rfl | rfl <;> simp
  | kw w k e =>
    simp only [Ex.src, List.cons_append, List.head?_cons, Option.some.injEq] at hd
    subst hd
    decide
  | comp ns e =>
    simp only [Ex.src, List.cons_append, List.head?_cons, Option.some.injEq] at hd
    subst hd
    decide

/-- Round brackets hold neither keyword arguments with `$` nor comprehensions. -/
theorem Ex.Ok.round {tok : Str → Option Nat} {m : Mode} (hm : m.isTop = false) : ∀ {e : Ex} {c : Char}, e.Ok tok .round c → e.Ok tok m c := by
  intro e
  induction e with
  | nil => exact fun h => h
  | sp e ih => exact fun h => ih h
  | tok t e ih => intro c h; exact ⟨by rw [hm]; exact h.1, ih h.2⟩
  | var w e ih => intro c h; exact ⟨h.1, h.2.1, h.2.2.1, h.2.2.2.1, ih h.2.2.2.2⟩
  | post u m o i gs e _ _ ih => intro c h; exact ⟨h.1, h.2.1, h.2.2.1, h.2.2.2.1, h.2.2.2.2.1, h.2.2.2.2.2.1, h.2.2.2.2.2.2.1, ih h.2.2.2.2.2.2.2⟩
  | link u m o i gs e _ _ ih => intro c h; exact ⟨h.1, h.2.1, h.2.2.1, h.2.2.2.1, h.2.2.2.2.1, ih h.2.2.2.2.2⟩
  | grp o i e _ ih => intro c h; exact ⟨h.1, h.2.1, ih h.2.2⟩
  | kw w k e _ => intro c h; exact absurd h.1 (by simp)
  | comp ns e _ => intro c h; exact absurd h.1 (by simp)

theorem Ex.Ok.bracket {tok : Str → Option Nat} {e : Ex} {o c : Char} (h : e.Ok tok (Mode.bracket o) c) : e.Ok tok .inside c := by
  unfold Mode.bracket at h
  split at h
  · exact h.round rfl
  · exact h

theorem nextChar_spec (s : Str) (c : Char) (r : Str) : ∃ r', s ++ c :: r = nextChar s c :: r' := by
  cases s with
  | nil => exact ⟨r, rfl⟩
  | cons d s => exact ⟨s ++ c :: r, rfl⟩

/-- A text that does not end in a backslash. -/
def NoBs (a : Str) : Prop := a.getLast? ≠ some '\\'

theorem NoBs.append {a u : Str} (ha : NoBs a) (hu : NoBs u) : NoBs (a ++ u) := by
  unfold NoBs at *
  rw [List.getLast?_append]
  cases h : u.getLast? with
  | none => simpa using ha
  | some d => simpa [h] using hu

theorem NoBs.snoc (a : Str) {c : Char} (hc : c ≠ '\\') : NoBs (a ++ [c]) := by
  unfold NoBs
  rw [List.getLast?_concat]
  simpa using hc

theorem NoBs.blanks (k : Nat) : NoBs (List.replicate k ' ') := by
  unfold NoBs
  rw [List.getLast?_replicate]
  split <;> simp

theorem Dotted.noBs {w : Str} (h : Dotted w) : NoBs w := by
  have hword : ∀ {w : Str}, Word w → NoBs w := by
    intro w hw
    obtain ⟨c, r, rfl, h1, h2⟩ := hw
    intro hl
    have hm := List.mem_of_getLast? hl
    have hb : identChar '\\' = false := by decide
    rcases List.mem_cons.1 hm with h | hm
    · rw [← h] at h1; rw [identStart_char h1] at hb; cases hb
    · rw [h2 _ hm] at hb; cases hb
  induction h with
  | one w hw => exact hword hw
  | more u w hu _ ih =>
    have := ((hword hu).append (NoBs.snoc [] (c := '.') (by decide))).append ih
    simpa using this

theorem closing_pair {o : Char} (ho : o ∈ c!"([{") : Pair o (closing o) := by
  simp at ho
  rcases ho with rfl | rfl | rfl
  · exact .round
  · exact .square
  · exact .curly

theorem closing_ne {o : Char} (ho : o ∈ c!"([{") : closing o ≠ '\\' ∧ o ≠ '\\' ∧ isOpen o = true ∧ closing o ∉ c!" \t\x0c([{=" := by
  simp at ho
  rcases ho with rfl | rfl | rfl <;> decide

/-- Reading as parts of an expression. -/
def Parts (x : Px) (e : Ex) : Prop := ∀ (top : Bool) (c : Char) (a r : Str) (en : Bool) (brk : List Str) (enc : List (Char × Nat)) (k : Nat),
  e.Ok x.tok top c → c ∉ c!" \t\x0c([{=" → x.src = a ++ e.src ++ c :: r → NoBs a → (enc = [] → top = true ∧ en = false) → (∀ b ∈ brk, b = c!":") → e.size < k →
  ∃ n ps, k ≤ n + e.size ∧ ps.flatten = e.py ∧ ((ps.filter isKey).Sublist e.keys ∧ ∀ t f, e = .tok t f → ps.head? = some t) ∧
    x.exprParts k fullSt en brk enc a.length = pre ps (x.exprParts n fullSt en brk enc (a ++ e.src).length)

/-- Reading as call arguments. -/
def Args (x : Px) (e : Ex) : Prop := ∀ (c : Char) (a r : Str) (enc : List (Char × Nat)) (k : Nat),
  e.Ok x.tok .args c → c ∉ c!" \t\x0c([{=" → x.src = a ++ e.src ++ c :: r → NoBs a → e.size < k →
  ∃ n, k ≤ n + e.size ∧ x.callArgs k fullSt enc a.length = preS e.py (x.callArgs n fullSt enc (a ++ e.src).length)

/-- Reading the brackets at the start. -/
def Grps (x : Px) (e : Ex) : Prop := ∀ (c : Char) (a r : Str) (k : Nat),
  e.Ok x.tok .args c → c ∉ c!" \t\x0c([{=" → x.src = a ++ e.src ++ c :: r → NoBs a → e.size ≤ k → 0 < k →
  ∃ (ps : List Str) (u : Str) (f : Ex), e.src = u ++ f.src ∧ e.py = ps.flatten ++ f.py ∧ f.Ok x.tok .args c ∧ f.size ≤ e.size ∧ NoBs (a ++ u) ∧
    (∀ o i g, e = .grp o i g → f.size + 4 ≤ e.size) ∧ x.exprParts k fullSt true [] [] a.length = .ok (ps, (a ++ u).length)

theorem exprParts_stop (hx : Std x.toCx) {a r : Str} {d : Char} (n : Nat) (h : x.src = a ++ d :: r) (hd : isOpen d = false) (st : GenVar.Settings) :
    x.exprParts (n + 1) st true [] [] a.length = .ok ([], a.length) := by
  conv_lhs => unfold Px.exprParts
  rw [peek_head hx h]
  simp [hd]

theorem not_key {c : Char} {s : Str} (hc : isSpace c = false ∧ c ≠ 't' ∧ c ≠ 'e') : isKey (c :: s) = false := by
  have h1 : lstrip (c :: s) = c :: s := lstrip_eq_self (by simpa using hc.1)
  have h2 : strip (c :: s) = [] ∨ ∃ r, strip (c :: s) = c :: r := by
    rw [strip, h1, rstrip]
    split <;> simp [hc.1]
  unfold isKey
  rcases h2 with h2 | ⟨r, h2⟩ <;> rw [h2] <;> simp [hc.2]

theorem not_key_blanks (j : Nat) : isKey (List.replicate j ' ') = false := by
  have h : ∀ j, lstrip (List.replicate j ' ') = [] := by
    intro j
    induction j with
    | zero => rfl
    | succ j ih => rw [List.replicate_succ, lstrip, List.dropWhile_cons_of_pos (by decide +kernel)]; exact ih
  unfold isKey strip
  rw [h j]
  rfl

theorem keys_skip {p : Str} (hp : isKey p = false) (ps : List Str) : (p :: ps).filter isKey = ps.filter isKey := by
  simp [hp]

theorem keys_tok {t : Str} {ps l : List Str} (h : (ps.filter isKey).Sublist l) : ((t :: ps).filter isKey).Sublist (if isKey t then t :: l else l) := by
  rw [List.filter_cons]
  by_cases ht : isKey t = true
  · rw [if_pos ht, if_pos ht]; exact h.cons_cons _
  · rw [if_neg ht, if_neg ht]; exact h

/-- Brackets, and then the rest, inside brackets of any kind. -/
theorem bracket_parts (hx : Std x.toCx) {i : Ex} (hi : Parts x i) {a r : Str} {o : Char} (ho : o ∈ c!"([{") (hok : i.Ok x.tok .inside (closing o))
    (h : x.src = a ++ o :: (i.src ++ closing o :: r)) (en : Bool) (brk : List Str) (hbrk : ∀ b ∈ brk, b = c!":") (enc : List (Char × Nat)) (k : Nat) (hk : i.size + 2 < k) :
    ∃ n ps, k ≤ n + i.size + 2 ∧ ps.flatten = o :: (i.py ++ [closing o]) ∧ (ps.filter isKey).Sublist i.keys ∧
      x.exprParts k fullSt en brk enc a.length = pre ps (x.exprParts n fullSt en brk enc (a ++ o :: (i.src ++ [closing o])).length) := by
  obtain ⟨k, rfl⟩ : ∃ j, k = j + 1 := ⟨k - 1, by omega⟩
  obtain ⟨hc1, ho1, ho2, hc2⟩ := closing_ne ho
  have h1 : x.src = (a ++ [o]) ++ i.src ++ closing o :: r := by rw [h]; simp
  obtain ⟨n, ps, hn, hps, hth, heq⟩ := hi false (closing o) (a ++ [o]) r en brk ((o, a.length) :: enc) k hok hc2 h1 (NoBs.snoc a ho1) (by simp) hbrk (by omega)
  obtain ⟨n, rfl⟩ : ∃ j, n = j + 1 := ⟨n - 1, by omega⟩
  refine ⟨n, [o] :: ps ++ [[closing o]], by omega, by simp [hps], ?_, ?_⟩
  · rw [List.cons_append, keys_skip (not_key (c := o) (by simp at ho; rcases ho with rfl | rfl | rfl <;> decide +kernel)), List.filter_append]
    have : List.filter isKey [[closing o]] = [] := keys_skip (not_key (by simp at ho; rcases ho with rfl | rfl | rfl <;> decide +kernel)) []
    rw [this, List.append_nil]
    exact hth.1
  rw [exprParts_open k (peek_head hx h) ho2]
  have hlen : a.length + 1 = (a ++ [o]).length := by simp
  rw [hlen, heq, exprParts_close n (peek_head hx h1) (closing_pair ho)]
  have hlen2 : (a ++ [o] ++ i.src).length + 1 = (a ++ o :: (i.src ++ [closing o])).length := by simp; omega
  rw [hlen2]
  exact (congrArg (pre [[o]]) (pre_pre ps [[closing o]] _)).trans (pre_pre _ _ _)

theorem Ex.size_named {e : Ex} (hn : e.Named) : 4 ≤ e.size := by
  induction e with
  | var w e => rw [Ex.size]; omega
  | post u m o i gs e => rw [Ex.size]; omega
  | link u m o i gs e => rw [Ex.size]; omega
  | _ => exact hn.elim

theorem Ex.noBs {tok : Str → Option Nat} : ∀ (e : Ex) (top : Mode) (c : Char), e.Ok tok top c → NoBs e.src := by
  have brk : ∀ {o : Char}, o ∈ c!"([{" → closing o ≠ '\\' := by
    intro o ho
    simp at ho
    rcases ho with rfl | rfl | rfl <;> decide
  intro e
  induction e with
  | nil => intro _ _ _; unfold NoBs; simp [Ex.src]
  | sp e ih => intro top c h; exact NoBs.append (a := c!" ") (by unfold NoBs; decide) (ih top c h)
  | tok t e ih => intro top c h; exact NoBs.append h.1.line.2 (ih top c h.2)
  | var w e ih => intro top c h; exact NoBs.append (a := '$' :: w) (NoBs.append (a := c!"$") (by unfold NoBs; decide) h.1.noBs) (ih top c h.2.2.2.2)
  | post u m o i gs e _ ihg ih =>
    intro top c h
    have h3 : o ∈ c!"([{" := by have := h.2.2.1; simp at this ⊢; tauto
    have := NoBs.append (NoBs.append (NoBs.snoc ('$' :: (dottedPath u m ++ o :: i.src)) (brk h3)) (ihg _ _ h.2.2.2.1.2.1)) (ih top c h.2.2.2.2.2.2.2)
    simpa [Ex.src] using this
  | link u m o i gs e _ _ ih =>
    intro top c h
    have hsrc : e.src = '$' :: e.src.tail := by
      have := h.2.2.2.2.1
      cases e <;> first | rfl | exact this.elim
    have ht : NoBs e.src.tail := by
      have := ih top c h.2.2.2.2.2
      rw [hsrc] at this
      unfold NoBs at this ⊢
      cases he : e.src.tail with
      | nil => simp
      | cons d s => rw [he] at this; simpa using this
    have := NoBs.append (NoBs.snoc ('$' :: (dottedPath u m ++ o :: (i.src ++ closing o :: gs.src))) (c := '.') (by decide)) ht
    simpa [Ex.src] using this
  | grp o i e _ ih =>
    intro top c h
    have := NoBs.append (NoBs.snoc (o :: i.src) (brk h.1)) (ih top c h.2.2)
    simpa [Ex.src] using this
  | kw w k e ih =>
    intro top c h
    have := NoBs.append (NoBs.snoc ('$' :: (w ++ List.replicate k ' ')) (c := '=') (by decide)) (ih top c h.2.2.2)
    simpa [Ex.src] using this
  | comp ns e ih =>
    intro top c h
    have := NoBs.append (NoBs.snoc (c!"for " ++ targets c!"$" ns) (c := ' ') (by decide)) (ih top c h.2.2.2.2.2)
    simpa [Ex.src] using this

/-- Brackets, one pair behind the other. -/
theorem groups_read (hx : Std x.toCx) (gs : Ex) : (∀ j : Ex, j.size < gs.size → Parts x j) → gs.Brackets → ∀ {top : Mode} {c : Char}, gs.Ok x.tok top c → ∀ {a r : Str}, x.src = a ++ gs.src ++ r →
    (∀ d, r.head? = some d → d ∉ c!"([{") → ∀ k, gs.size < k →
    ∃ ps : List Str, ps.flatten = gs.py ∧ x.exprParts k fullSt true [] [] a.length = .ok (ps, (a ++ gs.src).length) := by
  induction gs with
  | nil =>
    intro _ _ top c _ a r h hr k hk
    obtain ⟨k, rfl⟩ : ∃ j, k = j + 1 := ⟨k - 1, by omega⟩
    refine ⟨[], rfl, ?_⟩
    have h2 : x.src = a ++ r := by rw [h]; simp [Ex.src]
    rw [Ex.src, List.append_nil]
    cases r with
    | nil =>
      conv_lhs => unfold Px.exprParts
      rw [peek_head hx h2]
      rfl
    | cons c r =>
      have hc := hr c rfl
      exact exprParts_stop hx k h2 (by simp at hc; simp [isOpen, hc]) fullSt
  | grp o i e _ ih =>
    intro hP hB top c hok a r h hr k hk
    obtain ⟨ho, hoi, hoe⟩ := hok
    rw [Ex.size] at hk
    have hs : x.src = a ++ o :: (i.src ++ closing o :: (e.src ++ r)) := by rw [h, Ex.src]; simp
    obtain ⟨n, ps, hn, hps, _, heq⟩ := bracket_parts hx (hP i (by rw [Ex.size]; omega)) ho hoi.bracket hs true [] (by simp) [] k (by omega)
    obtain ⟨qs, h1, h2⟩ := ih (fun j hj => hP j (by rw [Ex.size]; omega)) hB hoe (a := a ++ o :: (i.src ++ [closing o])) (r := r) (by rw [hs]; simp) hr n (by omega)
    refine ⟨ps ++ qs, by rw [Ex.py]; simp [hps, h1], ?_⟩
    rw [heq, h2]
    simp [pre, bind, Except.bind, Ex.src]
  | _ => intro _ h; exact h.elim

/-- A part with brackets. -/
theorem link_read (hx : Std x.toCx) {i gs : Ex} (hi : Parts x i) (hA : Args x i) (hG : ∀ j : Ex, j.size < gs.size → Parts x j) {obj : Option Str} {m : Str} {o : Char} (hobj : ∀ u, obj = some u → Dotted u) (hm : Word m) (ho : o ∈ c!"([")
    (hok : i.Ok x.tok (Mode.post o) (closing o) ∧ gs.Ok x.tok false (closing o) ∧ gs.Brackets ∧ (o = '(' → gs = .nil)) {a r : Str} (h : x.src = a ++ (dottedPath obj m ++ o :: (i.src ++ closing o :: gs.src)) ++ r)
    (hr : o = '[' → ∀ c, r.head? = some c → c ∉ c!"([{") (k : Nat) (hk : i.size + gs.size + 2 < k) :
    x.nameChunks (k + 1) fullSt a.length = (x.nameChunks k fullSt (a ++ (dottedPath obj m ++ o :: (i.src ++ closing o :: gs.src))).length) >>= fun (cs, q) =>
      .ok (GenVar.splitChunk (dottedPath obj m) (o :: (i.py ++ closing o :: gs.py)) ++ cs, q) := by
  have hw := dottedPath_ok hobj hm
  generalize hW : dottedPath obj m = w at *
  obtain ⟨e, w', hw', hes⟩ := hw.head
  obtain ⟨hok, hgo, hgb, hgn⟩ := hok
  have ho' : o ∈ c!"([{" := by simp at ho ⊢; tauto
  have hoc : identChar o = false ∧ o ≠ '.' := by simp at ho; rcases ho with rfl | rfl <;> decide
  have h1 : x.src = a ++ w ++ o :: (i.src ++ closing o :: (gs.src ++ r)) := by rw [h]; simp
  have hdot : e ≠ '.' := by rintro rfl; exact absurd hes (by decide)
  have hpk : x.peek (a ++ w).length = some o := peek_head hx h1
  obtain ⟨k, rfl⟩ : ∃ j, k = j + 1 := ⟨k - 1, by omega⟩
  rw [Px.nameChunks, peek_head hx (b := e :: (w' ++ o :: (i.src ++ closing o :: (gs.src ++ r)))) (by rw [h1, hw']; simp)]
  simp only [List.head?_cons, hes, hdot, or_false, not_true, if_false, false_and, bind, Except.bind, dottedName_at hx hw hoc.1 hoc.2 h1, hpk]
  by_cases hp : o = '('
  · subst hp
    have hgs := hgn rfl
    subst hgs
    have h3 : x.src = (a ++ w ++ c!"(") ++ i.src ++ ')' :: r := by rw [h1]; simp [closing, Ex.src]
    obtain ⟨n, hn, heq⟩ := hA ')' _ _ [('(', (a ++ w).length)] (k + 1) hok (by simp) h3 (NoBs.snoc _ (by decide)) (by omega)
    obtain ⟨n, rfl⟩ : ∃ j, n = j + 1 := ⟨n - 1, by omega⟩
    rw [callArgs_close hx fullSt n h3] at heq
    have hlen : (a ++ w).length + 1 = (a ++ w ++ c!"(").length := by simp; omega
    rw [if_pos rfl, hlen, heq]
    simp only [preS, bind, Except.bind]
    have hlen2 : (a ++ w ++ c!"(" ++ i.src ++ c!")").length = (a ++ (w ++ '(' :: (i.src ++ closing '(' :: Ex.nil.src))).length := by simp [Ex.src]
    rw [hlen2]
    simp [closing, Ex.py]
  · have hq : o = '[' := by simp at ho; tauto
    subst hq
    obtain ⟨n, ps, hn, hps, _, heq⟩ := bracket_parts hx hi ho' hok h1 true [] (by simp) [] (k + 1) (by omega)
    obtain ⟨qs, hqs, hg⟩ := groups_read hx gs hG hgb hgo (a := a ++ w ++ '[' :: (i.src ++ [closing '['])) (r := r) (by rw [h1]; simp) (hr rfl) n (by omega)
    have hlen : (a ++ w ++ '[' :: (i.src ++ [closing '[']) ++ gs.src).length = (a ++ (w ++ '[' :: (i.src ++ closing '[' :: gs.src))).length := by simp
    rw [hg, hlen] at heq
    rw [if_neg (by simp), if_pos rfl, heq]
    have hfl : (ps ++ qs).flatten = '[' :: (i.py ++ closing '[' :: gs.py) := by rw [List.flatten_append, hps, hqs]; simp
    simp only [pre, bind, Except.bind, hfl]

/-- The dot before a part. -/
theorem nameChunks_dot (hx : Std x.toCx) {a r : Str} {d : Char} (h : x.src = a ++ '.' :: d :: r) (hd : identStart d = true) (k : Nat) :
    x.nameChunks k fullSt a.length = x.nameChunks k fullSt (a ++ c!".").length := by
  cases k with
  | zero => rw [Px.nameChunks, Px.nameChunks]
  | succ k =>
    have hdot : d ≠ '.' := by rintro rfl; exact absurd hd (by decide)
    have h2 : x.src = (a ++ c!".") ++ d :: r := by rw [h]; simp
    have hl : a.length + 1 = (a ++ c!".").length := by simp
    rw [Px.nameChunks, Px.nameChunks, peek_head hx h, peek_head hx h2]
    simp only [List.head?_cons, hl, peek_head hx h2, Option.any_some, hd, hdot, if_true, if_false, or_true, true_or, not_true, and_false, false_and]

theorem gen_split {obj : Option Str} {m : Str} {o : Char} (hobj : ∀ u, obj = some u → Dotted u) (hm : Word m) (rest v : Str) :
    (GenVar.splitChunk (dottedPath obj m) (o :: rest)).foldl (GenVar.genMore fullSt) v = linkPy (some v) obj m o ++ o :: rest := by
  cases obj with
  | none =>
    have : GenVar.rfind '.' m = none := rfind_none hm.no_dot
    by_cases hp : o = '('
    · subst hp
      simp [GenVar.splitChunk, dottedPath, this, GenVar.genMore, fullSt, GenVar.reprBool, linkPy, lookIn]
    · simp [GenVar.splitChunk, dottedPath, this, GenVar.genMore, fullSt, GenVar.reprBool, linkPy, lookIn, hp]
  | some u =>
    have : GenVar.rfind '.' (u ++ '.' :: m) = some u.length := rfind_last hm.no_dot u
    have hne : u ≠ [] := by obtain ⟨c, r, rfl, _⟩ := (hobj u rfl).head; exact List.cons_ne_nil _ _
    by_cases hp : o = '('
    · subst hp
      simp [GenVar.splitChunk, dottedPath, this, hne, GenVar.genMore, fullSt, GenVar.reprBool, linkPy, lookIn]
    · simp [GenVar.splitChunk, dottedPath, this, hne, GenVar.genMore, fullSt, GenVar.reprBool, linkPy, lookIn, hp]

theorem genVar_append {cs : List GenVar.Chunk} {s : Str} (h : genVar fullSt false cs = .ok s) (ds : List GenVar.Chunk) : genVar fullSt false (cs ++ ds) = .ok (ds.foldl (GenVar.genMore fullSt) s) := by
  cases cs with
  | nil => simp [genVar, GenVar.genCheetahVar, GenVar.genNameMapperVar, GenVar.genPlainVar] at h
  | cons c cs =>
    simp only [genVar, GenVar.genCheetahVar, fullSt, Bool.not_false, Bool.and_self, if_true, GenVar.genNameMapperVar, Except.ok.injEq, List.cons_append, List.foldl_append] at h ⊢
    rw [h]

/-- A placeholder is read as a whole, call arguments, subscripts and further parts behind dots included. -/
theorem named_chunks (hx : Std x.toCx) (e : Ex) : (∀ i : Ex, i.size < e.size → Parts x i ∧ Args x i) → ∀ {a r : Str} {top : Mode} {c : Char}, e.Named → e.Ok x.tok top c →
    x.src = a ++ (e.src.tail ++ c :: r) → ∀ k, e.size ≤ k + 1 → ∃ (cs : List GenVar.Chunk) (w : Str) (f : Ex) (v : Str), e.src = '$' :: (w ++ f.src) ∧ x.nameChunks k fullSt a.length = .ok (cs, (a ++ w).length) ∧
      genVar fullSt false cs = .ok v ∧ e.py = v ++ f.py ∧ (∃ s, v = 'V' :: s) ∧ (∀ u, e.pyIn u = cs.foldl (GenVar.genMore fullSt) u ++ f.py) ∧ f.Ok x.tok top c ∧ ¬ f.assigns ∧
      f.size + 4 ≤ e.size ∧ f.keys.Sublist e.keys ∧ NoBs w ∧ ∃ d w', w = d :: w' ∧ identStart d = true := by
  induction e with
  | nil => intro _ _ _ _ _ hn; exact hn.elim
  | sp e _ => intro _ _ _ _ _ hn; exact hn.elim
  | tok t e _ => intro _ _ _ _ _ hn; exact hn.elim
  | grp o i e _ _ => intro _ _ _ _ _ hn; exact hn.elim
  | kw w k e _ => intro _ _ _ _ _ hn; exact hn.elim
  | comp ns e _ => intro _ _ _ _ _ hn; exact hn.elim
  | var w e _ =>
    intro IH a r top c _ hok h k hk
    obtain ⟨hw, hn1, hn2, has, hoe⟩ := hok
    rw [Ex.size] at hk
    obtain ⟨k, rfl⟩ : ∃ j, k = j + 2 := ⟨k - 2, by omega⟩
    obtain ⟨r', hr'⟩ := nextChar_spec e.src c r
    have hs : x.src = a ++ w ++ nextChar e.src c :: r' := by rw [h, ← hr', Ex.src]; simp
    refine ⟨_, w, e, _, rfl, nameChunks_at hx hw hn1 hn2 hs fullSt k, genVar_var w, by rw [Ex.py], ⟨_, rfl⟩, fun u => ?_, hoe, has, by rw [Ex.size], List.Sublist.refl _, hw.noBs, hw.head⟩
    simp [GenVar.genMore, fullSt, GenVar.reprBool, Ex.pyIn, lookIn]
  | post obj m o i gs e _ _ _ =>
    intro IH a r top c _ hok h k hk
    obtain ⟨hobj, hm, ho, hoi, hn1, hn2, has, hoe⟩ := hok
    rw [Ex.size] at hk
    obtain ⟨k, rfl⟩ : ∃ j, k = j + 2 := ⟨k - 2, by omega⟩
    obtain ⟨r', hr'⟩ := nextChar_spec e.src c r
    obtain ⟨hIp, hIa⟩ := IH i (by rw [Ex.size]; omega)
    have ho' : o ∈ c!"([{" := by simp at ho ⊢; tauto
    have hs : x.src = a ++ (dottedPath obj m ++ o :: (i.src ++ closing o :: gs.src)) ++ nextChar e.src c :: r' := by rw [h, ← hr', Ex.src]; simp
    have hend : x.nameChunks (k + 1) fullSt (a ++ (dottedPath obj m ++ o :: (i.src ++ closing o :: gs.src))).length = .ok ([], (a ++ (dottedPath obj m ++ o :: (i.src ++ closing o :: gs.src))).length) := by
      rw [Px.nameChunks, peek_head hx hs]
      simp [hn1, hn2.1]
    have hread := link_read hx hIp hIa (fun j hj => (IH j (by rw [Ex.size]; omega)).1) hobj hm ho hoi hs (by
      intro ho d hd
      injection hd with hd
      subst hd
      exact hn2.2 ho) (k + 1) (by omega)
    rw [hend] at hread
    simp only [bind, Except.bind, List.append_nil] at hread
    obtain ⟨d, w', hw', hd⟩ := (dottedPath_ok hobj hm).head
    refine ⟨_, dottedPath obj m ++ o :: (i.src ++ closing o :: gs.src), e, _, by rw [Ex.src]; simp, hread, genVar_post hobj hm _, by rw [Ex.py]; simp, ?_, fun u => ?_, hoe, has, by rw [Ex.size]; omega,
      List.sublist_append_right _ _, ?_, ⟨d, _, by rw [hw']; rfl, hd⟩⟩
    · cases obj <;> exact ⟨_, rfl⟩
    · rw [gen_split hobj hm, Ex.pyIn]; simp
    · have := NoBs.append (NoBs.snoc (dottedPath obj m ++ o :: i.src) (closing_ne ho').1) (gs.noBs _ _ hoi.2.1)
      simpa using this
  | link obj m o i gs e _ _ ih =>
    intro IH a r top c _ hok h k hk
    obtain ⟨hobj, hm, ho, hoi, hne, hoe⟩ := hok
    rw [Ex.size] at hk
    obtain ⟨k, rfl⟩ : ∃ j, k = j + 1 := ⟨k - 1, by omega⟩
    obtain ⟨hIp, hIa⟩ := IH i (by rw [Ex.size]; omega)
    have hs : x.src = a ++ (dottedPath obj m ++ o :: (i.src ++ closing o :: gs.src)) ++ '.' :: (e.src.tail ++ c :: r) := by rw [h, Ex.src]; simp
    have hs2 : x.src = (a ++ (dottedPath obj m ++ o :: (i.src ++ closing o :: gs.src)) ++ c!".") ++ (e.src.tail ++ c :: r) := by rw [hs]; simp
    have hread := link_read hx hIp hIa (fun j hj => (IH j (by rw [Ex.size]; omega)).1) hobj hm ho hoi hs (by
      intro _ d hd
      injection hd with hd
      subst hd
      simp) k (by have := Ex.size_named hne; omega)
    obtain ⟨cs, w, f, v, h1, h2, h3, h4, h5, h6, h7, h8, h9, h10, h11, d, w', h12, h13⟩ := ih (fun j hj => IH j (by rw [Ex.size]; omega)) hne hoe hs2 k (by omega)
    have hdot := nameChunks_dot hx (a := a ++ (dottedPath obj m ++ o :: (i.src ++ closing o :: gs.src))) (d := d) (r := w' ++ f.src ++ c :: r) (by rw [hs, h1, h12]; simp) h13 k
    rw [hdot, h2] at hread
    simp only [bind, Except.bind] at hread
    obtain ⟨d0, w0, hw0, hd0⟩ := (dottedPath_ok hobj hm).head
    refine ⟨_, dottedPath obj m ++ o :: (i.src ++ closing o :: (gs.src ++ '.' :: w)), f, _, by rw [Ex.src, h1]; simp, ?_, genVar_append (genVar_post hobj hm _) cs, by rw [Ex.py, h6], ?_, fun u => ?_, h7, h8,
      by rw [Ex.size]; omega, h10.trans (List.sublist_append_right _ _), ?_, ⟨d0, _, by rw [hw0]; rfl, hd0⟩⟩
    · rw [hread]; simp
    · obtain ⟨s, hs⟩ : ∃ s, lookupPy obj m o ++ o :: (i.py ++ closing o :: gs.py) = 'V' :: s := by cases obj <;> exact ⟨_, rfl⟩
      rw [hs]
      have : ∀ (cs : List GenVar.Chunk) (s : Str), ∃ s', cs.foldl (GenVar.genMore fullSt) ('V' :: s) = 'V' :: s' := by
        intro cs
        induction cs with
        | nil => exact fun s => ⟨s, rfl⟩
        | cons c cs ih =>
          intro s
          obtain ⟨s', hs'⟩ : ∃ s', GenVar.genMore fullSt ('V' :: s) c = 'V' :: s' := by
            simp only [GenVar.genMore, fullSt, if_true]
            first | exact ⟨_, rfl⟩ | (split <;> exact ⟨_, rfl⟩)
          rw [List.foldl_cons, hs']
          exact ih s'
      exact this cs s
    · rw [List.foldl_append, gen_split hobj hm, Ex.pyIn, h6]
    · have := NoBs.append (NoBs.snoc (dottedPath obj m ++ o :: (i.src ++ closing o :: gs.src)) (c := '.') (by decide)) h11
      simpa using this

/-- A placeholder with several parts, in an expression. -/
theorem linkVar (hx : Std x.toCx) {e : Ex} (IH : ∀ i : Ex, i.size < e.size → Parts x i ∧ Args x i) {a r : Str} {top : Mode} {c : Char} (hn : e.Named) (hok : e.Ok x.tok top c) (ha : NoBs a)
    (h : x.src = a ++ e.src ++ c :: r) (k : Nat) (hk : e.size ≤ k) :
    ∃ (w : Str) (f : Ex) (v : Str), e.src = '$' :: (w ++ f.src) ∧ x.cheetahVar k fullSt false false a.length = .ok (v, (a ++ '$' :: w).length) ∧ e.py = v ++ f.py ∧ (∃ s, v = 'V' :: s) ∧ f.Ok x.tok top c ∧
      ¬ f.assigns ∧ f.size + 4 ≤ e.size ∧ f.keys.Sublist e.keys ∧ NoBs (a ++ '$' :: w) ∧ ∃ d w', w = d :: w' ∧ identStart d = true := by
  have hsz := Ex.size_named hn
  obtain ⟨k, rfl⟩ : ∃ j, k = j + 1 := ⟨k - 1, by omega⟩
  have hsrc : e.src = '$' :: e.src.tail := by cases e <;> first | rfl | exact hn.elim
  have hs : x.src = (a ++ c!"$") ++ (e.src.tail ++ c :: r) := by
    rw [h]
    conv_lhs => rw [hsrc]
    simp
  obtain ⟨cs, w, f, v, h1, h2, h3, h4, h5, _, h7, h8, h9, h10, h11, d, w', h12, h13⟩ := named_chunks hx e IH (a := a ++ c!"$") (r := r) hn hok hs k hk
  refine ⟨w, f, v, h1, ?_, h4, h5, h7, h8, h9, h10, ?_, d, w', h12, h13⟩
  · rw [Px.cheetahVar, varStart_at hx (r := w' ++ (f.src ++ c :: r)) (d := d) (by rw [h, h1, h12]; simp) ha (.inl h13)]
    simp only [bind, Except.bind, silentAndCache_letter hx (a := a ++ c!"$") (r := w' ++ (f.src ++ c :: r)) (d := d) (by rw [h, h1, h12]; simp) h13, h2, h3]
    simp
  · have := NoBs.append (NoBs.snoc a (c := '$') (by decide)) h11
    simpa using this

theorem Ex.not_open {tok : Str → Option Nat} {e : Ex} {top : Mode} {c : Char} (he : e.Ok tok top c) (hs : ∀ o i g, e ≠ .grp o i g) (hc : c ∉ c!" \t\x0c([{=") (r : Str) :
    ∃ d r', e.src ++ c :: r = d :: r' ∧ isOpen d = false := by
  cases e with
  | nil => exact ⟨c, r, rfl, by simp at hc; simp [isOpen, hc]⟩
  | sp e => exact ⟨' ', _, rfl, rfl⟩
  | tok t e =>
    obtain ⟨f, t', ht, hf⟩ := he.1.start
    refine ⟨f, t' ++ e.src ++ c :: r, by simp [Ex.src, ht], ?_⟩
    simp at hf
    simp [isOpen, hf]
  | var w e => exact ⟨'$', _, rfl, rfl⟩
  | post u m o i gs e => exact ⟨'$', _, rfl, rfl⟩
  | link u m o i gs e => exact ⟨'$', _, rfl, rfl⟩
  | grp o i e => exact absurd rfl (hs o i e)
  | kw w k e => exact ⟨'$', _, rfl, rfl⟩
  | comp ns e => exact ⟨'f', _, rfl, rfl⟩

theorem blanks_ws (hx : Std x.toCx) {a : Str} {k : Nat} {f : Ex} {top : Mode} {c : Char} {r : Str} (h : x.src = a ++ (List.replicate k ' ' ++ f.src) ++ c :: r)
    (hf : f.Ok x.tok top c) (hs : ∀ g, f ≠ .sp g) (hc : c ∉ c!" \t\x0c([{=") : x.ws a.length = List.replicate k ' ' :=
  ws_at (r := f.src ++ c :: r) (by rw [h]; simp) hx.bp (by intro d hd; rw [List.eq_of_mem_replicate hd]; simp)
    (Ex.solid hf hs (by simp at hc ⊢; tauto) r)

/-- What follows a placeholder in call arguments. -/
theorem args_after (hx : Std x.toCx) {e : Ex} (IH : ∀ f : Ex, f.size ≤ e.size → Args x f) (v : Str) {a r : Str} {c : Char} (w : Except Err (Str × Nat)) (enc : List (Char × Nat)) (k : Nat)
    (hok : e.Ok x.tok .args c) (has : ¬ e.assigns) (hc : c ∉ c!" \t\x0c([{=") (h : x.src = a ++ e.src ++ c :: r) (ha : NoBs a) (hk : e.size < k) :
    ∃ n, k ≤ n + e.size ∧
      (if x.peek (a.length + (x.ws a.length).length) = some '=' then
          x.pyTok (a.length + (x.ws a.length).length) >>= fun (t, q3) =>
          if t = c!"=" then
            w >>= fun (v', _) => x.callArgs k fullSt enc q3 >>= fun (s, r) => .ok (v' ++ x.ws a.length ++ t ++ s, r)
          else x.callArgs k fullSt enc q3 >>= fun (s, r) => .ok (v ++ x.ws a.length ++ t ++ s, r)
        else x.callArgs k fullSt enc (a.length + (x.ws a.length).length) >>= fun (s, r) => .ok (v ++ x.ws a.length ++ s, r)) =
        preS (v ++ e.py) (x.callArgs n fullSt enc (a ++ e.src).length) := by
  obtain ⟨j, f, h1, h2, h3, h4, h5, h6, _⟩ := e.peel
  have hf := h3 _ _ _ hok
  have hs : x.src = a ++ (List.replicate j ' ' ++ f.src) ++ c :: r := by rw [h, h1]
  have hs3 : x.src = (a ++ List.replicate j ' ') ++ (f.src ++ c :: r) := by rw [hs]; simp
  have hlen : a.length + (List.replicate j ' ').length = (a ++ List.replicate j ' ').length := List.length_append.symm
  have hbl : NoBs (a ++ List.replicate j ' ') := ha.append (NoBs.blanks j)
  rw [blanks_ws hx hs hf h6 hc, hlen, peek_head hx hs3]
  by_cases heqs : (f.src ++ c :: r).head? = some '='
  · rw [if_pos heqs]
    obtain ⟨t, g, rfl⟩ : ∃ t g, f = .tok t g := by
      cases f with
      | nil =>
        simp only [Ex.src, List.nil_append, List.head?_cons, Option.some.injEq] at heqs
        subst heqs
        exact absurd hc (by simp)
      | sp e => exact absurd rfl (h6 e)
      | tok t g => exact ⟨t, g, rfl⟩
      | var w e => simp [Ex.src] at heqs
      | post u m o i gs e => simp [Ex.src] at heqs
      | link u m o i gs e => simp [Ex.src] at heqs
      | kw w k e => simp [Ex.src] at heqs
      | comp ns e => simp [Ex.src] at heqs
      | grp o i g =>
        have ho := hf.1
        simp only [Ex.src, List.cons_append, List.head?_cons, Option.some.injEq] at heqs
        subst heqs
        exact absurd ho (by simp)
    obtain ⟨ht, hog⟩ := hf
    have hte : t ≠ c!"=" := fun ht => has (h5 ht)
    rw [Ex.size] at h4
    obtain ⟨r', hr'⟩ := nextChar_spec g.src c r
    have hs4 : x.src = (a ++ List.replicate j ' ') ++ t ++ nextChar g.src c :: r' := by rw [hs3, ← hr', Ex.src]; simp
    have htk := pyTok_at hs4 hx.bp (ht.reads r')
    rw [← List.length_append] at htk
    obtain ⟨n, hn, heq⟩ := IH g (by omega) c (a ++ List.replicate j ' ' ++ t) r enc k hog hc (by rw [hs3, Ex.src]; simp) (hbl.append ht.line.2) (by omega)
    refine ⟨n, by omega, ?_⟩
    rw [htk]
    simp only [bind, Except.bind]
    rw [if_neg hte]
    have : a ++ List.replicate j ' ' ++ t ++ g.src = a ++ e.src := by rw [h1, Ex.src]; simp
    rw [heq, this]
    have hv : v ++ e.py = v ++ List.replicate j ' ' ++ t ++ g.py := by rw [h2, Ex.py]; simp
    rw [hv]
    exact preS_preS (v ++ List.replicate j ' ' ++ t) g.py _
  · rw [if_neg heqs]
    obtain ⟨n, hn, heq⟩ := IH f (by omega) c (a ++ List.replicate j ' ') r enc k hf hc (by rw [hs3]; simp) hbl (by omega)
    refine ⟨n, by omega, ?_⟩
    have : a ++ List.replicate j ' ' ++ f.src = a ++ e.src := by rw [h1]; simp
    rw [heq, this]
    have hv : v ++ e.py = v ++ List.replicate j ' ' ++ f.py := by rw [h2]; simp
    rw [hv]
    exact preS_preS (v ++ List.replicate j ' ') f.py _

theorem grps_main (hx : Std x.toCx) {e : Ex} (IH : ∀ f : Ex, f.size < e.size → Parts x f ∧ Args x f ∧ Grps x f) : Grps x e := by
  intro c a r k hok hc h ha hk hk0
  by_cases hg : ∀ o i g, e ≠ .grp o i g
  · obtain ⟨d, r', hd, hopen⟩ := Ex.not_open hok hg hc r
    obtain ⟨k, rfl⟩ : ∃ j, k = j + 1 := ⟨k - 1, by omega⟩
    refine ⟨[], [], e, rfl, rfl, hok, Nat.le_refl _, by simpa using ha, fun o i g he => absurd he (hg o i g), ?_⟩
    rw [exprParts_stop hx k (d := d) (r := r') (by rw [h, List.append_assoc, hd]) hopen]
    simp
  · obtain ⟨o, i, g, rfl⟩ : ∃ o i g, e = .grp o i g := by
      cases e with
      | grp o i g => exact ⟨o, i, g, rfl⟩
      | _ => exact absurd (by simp) hg
    obtain ⟨ho, hoi, hog⟩ := hok
    rw [Ex.size] at hk
    have hs : x.src = a ++ o :: (i.src ++ closing o :: (g.src ++ c :: r)) := by rw [h, Ex.src]; simp
    obtain ⟨n, ps, hn, hps, _, heq⟩ := bracket_parts hx (IH i (by rw [Ex.size]; omega)).1 ho hoi.bracket hs true [] (by simp) [] k (by omega)
    have hnb : NoBs (a ++ o :: (i.src ++ [closing o])) := by
      have := NoBs.snoc (a ++ o :: i.src) (closing_ne ho).1
      simpa using this
    obtain ⟨qs, u, f, h1, h2, h3, h4, h5, _, heq2⟩ := (IH g (by rw [Ex.size]; omega)).2.2 c (a ++ o :: (i.src ++ [closing o])) r n hog hc (by rw [hs]; simp) hnb (by omega) (by omega)
    refine ⟨ps ++ qs, o :: (i.src ++ [closing o]) ++ u, f, by rw [Ex.src, h1]; simp, by rw [Ex.py, h2]; simp [hps], h3, by rw [Ex.size]; omega,
      by simpa using h5, fun _ _ _ _ => by rw [Ex.size]; omega, ?_⟩
    rw [heq, heq2]
    simp [pre, bind, Except.bind]

theorem genVar_bare {w : Str} (st : GenVar.Settings) (plain : Bool) (h : plain = true ∨ st.useNameMapper = false) : genVar st plain [⟨w, true, []⟩] = .ok w := by
  rcases h with h | h <;> simp [genVar, GenVar.genCheetahVar, GenVar.genPlainVar, h]

/-- A token that ends the expression. -/
theorem exprParts_brk (hx : Std x.toCx) (st : GenVar.Settings) {brk : List Str} {a t r : Str} {c : Char} {top : Bool} (n : Nat)
    (h : x.src = a ++ t ++ c :: r) (ht : IsTok x.tok t top c) (hb : t ∈ brk) : x.exprParts (n + 1) st false brk [] a.length = .ok ([], a.length) := by
  have htk := pyTok_at h hx.bp (ht.reads r)
  rw [← List.length_append] at htk
  obtain ⟨d, t', ht', hd⟩ := ht.start
  have h' : x.src = a ++ d :: (t' ++ c :: r) := by rw [h, ht']; simp
  obtain ⟨h1, h2, h3, h4, h5, h6⟩ := not_special (c := d) (by simp at hd ⊢; tauto)
  obtain ⟨ns, hcfg⟩ := hx.cfg
  obtain ⟨v1, v2⟩ := novar_at (x := x.toCx) h' (by rw [hcfg]; rfl) h6
  have hde : x.matchTok x.cfg.dirEnd a.length = none := matchTok_none h' (by rw [hcfg]; simp [Cfg.std] at hd ⊢; tauto) (by rw [hcfg]; simp [Cfg.std])
  conv_lhs => unfold Px.exprParts
  rw [peek_head hx h']
  simp only [List.head?_cons, h1, h2, h3, h4, h5, hde, v1, v2, htk, hb, bind, Except.bind, Bool.false_eq_true, if_false,
    Option.isSome_none, false_and, and_self, if_true]

/-- The word `for`: what follows up to `in` is read on its own, without the search list. -/
theorem exprParts_comp (hx : Std x.toCx) (st : GenVar.Settings) {brk : List Str} {enc : List (Char × Nat)} {en : Bool} {a r : Str} (n : Nat)
    (h : x.src = a ++ c!"for" ++ ' ' :: r) (ht : ∀ r, x.tok (c!"for " ++ r) = some 3) (henc : enc = [] → en = false) (hbrk : enc = [] → c!"for" ∉ brk) :
    x.exprParts (n + 1) st en brk enc a.length =
      (x.exprParts n { st with useNameMapper := false } false [c!"in"] [] (a ++ c!"for").length >>= fun (e, q2) =>
        x.exprParts n st en brk enc q2 >>= fun (bs, q) => .ok (c!"for" :: e.flatten :: bs, q)) := by
  have htk := pyTok_at h hx.bp (ht r)
  rw [← List.length_append] at htk
  have hpk : x.peek (a ++ c!"for").length = some ' ' := peek_head hx h
  have h' : x.src = a ++ 'f' :: (c!"or" ++ ' ' :: r) := by rw [h]; simp
  obtain ⟨h1, h2, h3, h4, h5, h6⟩ := not_special (c := 'f') (by decide)
  obtain ⟨ns, hcfg⟩ := hx.cfg
  obtain ⟨v1, v2⟩ := novar_at (x := x.toCx) h' (by rw [hcfg]; rfl) h6
  have hde : x.matchTok x.cfg.dirEnd a.length = none := matchTok_none h' (by rw [hcfg]; simp [Cfg.std]) (by rw [hcfg]; simp [Cfg.std])
  have hen : ¬ (en = true ∧ enc = []) := by rintro ⟨h1, h2⟩; rw [henc h2] at h1; cases h1
  have hb : ¬ (enc = [] ∧ c!"for" ∈ brk) := by rintro ⟨h1, h2⟩; exact hbrk h1 h2
  conv_lhs => unfold Px.exprParts
  rw [peek_head hx h']
  simp only [List.head?_cons, h1, h2, h3, h4, h5, hde, v1, v2, htk, hen, hb, bind, Except.bind, Px.transform, hpk, Bool.false_eq_true, if_false,
    Option.isSome_none, false_and]
  simp
  exact fun h => absurd h (by decide)

/-- The names of a comprehension, up to `in`. -/
theorem targets_read (hx : Std x.toCx) (st : GenVar.Settings) (hst : st.useNameMapper = false) (hcm : IsTok x.tok c!"," false ' ') {top : Bool} {d : Char} {r : Str} (hin : IsTok x.tok c!"in" top d) :
    ∀ (ns : List Str), ns ≠ [] → (∀ w ∈ ns, Word w) → ∀ (a : Str) (k : Nat), x.src = a ++ (targets c!"$" ns ++ ' ' :: (c!"in" ++ d :: r)) → NoBs a → 6 * ns.length + 2 ≤ k →
    ∃ ps : List Str, ps.flatten = targets [] ns ++ c!" " ∧ x.exprParts k st false [c!"in"] [] a.length = .ok (ps, (a ++ targets c!"$" ns ++ c!" ").length) := by
  intro ns
  induction ns with
  | nil => exact fun h => absurd rfl h
  | cons w ns ih =>
    intro _ hw a k h ha hk
    have hw1 := hw w (by simp)
    obtain ⟨e, w', hw', he⟩ := (Dotted.one w hw1).head
    rw [List.length_cons] at hk
    obtain ⟨k, rfl⟩ : ∃ j, k = j + 4 := ⟨k - 4, by omega⟩
    have hnb : NoBs (a ++ '$' :: w) := by have := (NoBs.snoc a (c := '$') (by decide)).append (Dotted.one w hw1).noBs; simpa using this
    cases ns with
    | nil =>
      obtain ⟨k, rfl⟩ : ∃ j, k = j + 1 := ⟨k - 1, by rw [List.length_nil] at hk; omega⟩
      have hs : x.src = a ++ '$' :: (w ++ ' ' :: (c!"in" ++ d :: r)) := by rw [h]; simp [targets]
      have hs2 : x.src = (a ++ '$' :: w) ++ ' ' :: [] ++ (c!"in" ++ d :: r) := by rw [hs]; simp
      have hs3 : x.src = (a ++ '$' :: w ++ ' ' :: []) ++ c!"in" ++ d :: r := by rw [hs]; simp
      refine ⟨[w, c!" "], by simp [targets], ?_⟩
      rw [exprParts_var hx st (k + 1 + 3) (d := e) (r := w' ++ ' ' :: (c!"in" ++ d :: r)) (by rw [hs, hw']; rfl) he (by simp),
        cheetahVar_at hx (.one w hw1) (by decide) (by decide) hs ha st false (k + 1), genVar_bare st false (.inr hst)]
      simp only [bind, Except.bind]
      rw [exprParts_blanks hx st (k + 3) hs2 (by simp) (by intro c hc; simp at hc; subst hc; decide) (by simp), exprParts_brk hx st (k + 2) hs3 hin (by simp)]
      simp [bind, Except.bind, targets]
    | cons v ns =>
      obtain ⟨k, rfl⟩ : ∃ j, k = j + 2 := ⟨k - 2, by rw [List.length_cons] at hk; omega⟩
      have hs : x.src = a ++ '$' :: (w ++ ',' :: (' ' :: (targets c!"$" (v :: ns) ++ ' ' :: (c!"in" ++ d :: r)))) := by rw [h]; simp [targets]
      have hs2 : x.src = (a ++ '$' :: w) ++ c!"," ++ ' ' :: (targets c!"$" (v :: ns) ++ ' ' :: (c!"in" ++ d :: r)) := by rw [hs]; simp
      have hs3 : x.src = (a ++ '$' :: w ++ c!",") ++ ' ' :: [] ++ (targets c!"$" (v :: ns) ++ ' ' :: (c!"in" ++ d :: r)) := by rw [hs]; simp
      have hs4 : x.src = (a ++ '$' :: w ++ c!"," ++ ' ' :: []) ++ (targets c!"$" (v :: ns) ++ ' ' :: (c!"in" ++ d :: r)) := by rw [hs]; simp
      have hhead : ∀ s : Str, ∃ u, targets c!"$" (v :: ns) ++ s = '$' :: u := by
        intro s; cases ns <;> exact ⟨_, rfl⟩
      obtain ⟨u, hu⟩ := hhead (' ' :: (c!"in" ++ d :: r))
      obtain ⟨ps, hps, heq⟩ := ih (by simp) (fun u hu => hw u (List.mem_cons_of_mem _ hu)) _ (k + 3) hs4 (NoBs.snoc _ (by decide)) (by omega)
      refine ⟨w :: c!"," :: c!" " :: ps, by simp [hps, targets], ?_⟩
      rw [exprParts_var hx st (k + 2 + 3) (d := e) (r := w' ++ ',' :: (' ' :: (targets c!"$" (v :: ns) ++ ' ' :: (c!"in" ++ d :: r)))) (by rw [hs, hw']; rfl) he (by simp),
        cheetahVar_at hx (.one w hw1) (by decide) (by decide) hs ha st false (k + 2), genVar_bare st false (.inr hst)]
      simp only [bind, Except.bind]
      rw [exprParts_tok hx st (k + 4) hs2 hcm (by simp) (by simp), if_neg (by decide),
        exprParts_blanks hx st (k + 3) hs3 (by simp) (by intro c hc; rw [hu] at hc; simp at hc; subst hc; decide) (by simp), heq]
      simp [bind, Except.bind, targets]

theorem expr_main (hx : Std x.toCx) (hT : TokBrackets x.tok) : ∀ (N : Nat) (e : Ex), e.size ≤ N → Parts x e ∧ Args x e ∧ Grps x e := by
  intro N
  induction N using Nat.strong_induction_on with
  | _ N ih =>
  intro e hN
  have IH : ∀ f : Ex, f.size < e.size → Parts x f ∧ Args x f ∧ Grps x f := fun f hf => ih f.size (by omega) f (Nat.le_refl _)
  refine ⟨?_, ?_, ?_⟩
  · -- parts
    intro top c a r en brk enc k hok hc h ha henc hbrk hk
    have hen : enc = [] → en = false := fun h => (henc h).2
    cases e with
    | nil => exact ⟨k, [], by omega, rfl, ⟨by simp, by simp⟩, by simp [Ex.src, pre_nil]⟩
    | sp e =>
      obtain ⟨j, f, h1, h2, h3, h4, _, h6, h7⟩ := e.peel
      have hf := h3 _ _ _ (show e.Ok x.tok top c from hok)
      obtain ⟨k, rfl⟩ : ∃ j, k = j + 1 := ⟨k - 1, by omega⟩
      rw [Ex.size] at hk ⊢
      have hs : x.src = a ++ ' ' :: List.replicate j ' ' ++ (f.src ++ c :: r) := by rw [h, Ex.src, h1]; simp
      obtain ⟨n, ps, hn, hps, hth, heq⟩ := (IH f (by rw [Ex.size, h4]; omega)).1 top c (a ++ ' ' :: List.replicate j ' ') r en brk enc k hf hc
        (by rw [hs]; simp) (ha.append (NoBs.blanks (j + 1))) henc hbrk (by omega)
      refine ⟨n, (' ' :: List.replicate j ' ') :: ps, by omega, ?_, ?_, ?_⟩
      · rw [Ex.py, h2, List.flatten_cons, hps]; rfl
      · refine ⟨?_, by simp⟩
        rw [show ' ' :: List.replicate j ' ' = List.replicate (j + 1) ' ' from rfl, keys_skip (not_key_blanks (j + 1)), Ex.keys, h7]
        exact hth.1
      · rw [exprParts_blanks hx fullSt k hs (fun c hc => List.eq_of_mem_replicate hc) (Ex.solid hf h6 (by simp at hc ⊢; tauto) r) hen, heq]
        have : (a ++ ' ' :: List.replicate j ' ' ++ f.src) = a ++ (Ex.sp e).src := by rw [Ex.src, h1]; simp
        rw [this]
        exact pre_pre [' ' :: List.replicate j ' '] ps _
    | tok t e =>
      obtain ⟨ht, hoe⟩ := hok
      obtain ⟨k, rfl⟩ : ∃ j, k = j + 1 := ⟨k - 1, by omega⟩
      rw [Ex.size] at hk ⊢
      obtain ⟨r', hr'⟩ := nextChar_spec e.src c r
      have hs : x.src = a ++ t ++ nextChar e.src c :: r' := by rw [h, ← hr', Ex.src]; simp
      have hstep := exprParts_tok hx fullSt (brk := brk) (enc := enc) (en := en) k hs ht hen (fun h0 hm => ht.free.2 (by rw [(henc h0).1]; rfl) (hbrk t hm))
      have hat : NoBs (a ++ t) := ha.append ht.line.2
      by_cases hid : headIs identStart t = true
      · rw [if_pos hid] at hstep
        obtain ⟨j, f, h1, h2, h3, h4, _, h6, h7⟩ := e.peel
        have hf := h3 _ _ _ hoe
        have hs2 : x.src = (a ++ t) ++ (List.replicate j ' ' ++ f.src) ++ c :: r := by rw [h, Ex.src, h1]; simp
        have hws := blanks_ws hx hs2 hf h6 hc
        have hlen : (a ++ t).length + (List.replicate j ' ').length = (a ++ t ++ List.replicate j ' ').length := List.length_append.symm
        have hs3 : x.src = (a ++ t ++ List.replicate j ' ') ++ (f.src ++ c :: r) := by rw [hs2]; simp
        have hbl : NoBs (a ++ t ++ List.replicate j ' ') := hat.append (NoBs.blanks j)
        rw [hws, hlen, peek_head hx hs3] at hstep
        by_cases hpar : (f.src ++ c :: r).head? = some '('
        · rw [if_pos hpar] at hstep
          obtain ⟨i, g, rfl⟩ : ∃ i g, f = .grp '(' i g := by
            cases f with
            | nil =>
              simp only [Ex.src, List.nil_append, List.head?_cons, Option.some.injEq] at hpar
              subst hpar
              exact absurd hc (by simp)
            | sp e => exact absurd rfl (h6 e)
            | tok t e =>
              obtain ⟨f, t', ht, hf⟩ := hf.1.start
              simp only [Ex.src, ht, List.cons_append, List.head?_cons, Option.some.injEq] at hpar
              subst hpar
              exact absurd hf (by simp)
            | var w e => simp [Ex.src] at hpar
            | post u m o i gs e => simp [Ex.src] at hpar
            | link u m o i gs e => simp [Ex.src] at hpar
            | kw w k e => simp [Ex.src] at hpar
            | comp ns e => simp [Ex.src] at hpar
            | grp o i g =>
              simp only [Ex.src, List.cons_append, List.head?_cons, Option.some.injEq] at hpar
              subst hpar
              exact ⟨i, g, rfl⟩
          obtain ⟨-, hoi, hog⟩ := hf
          have hs4 : x.src = (a ++ t ++ List.replicate j ' ' ++ c!"(") ++ i.src ++ ')' :: (g.src ++ c :: r) := by rw [hs3, Ex.src]; simp [closing]
          rw [Ex.size] at h4
          have hlen2 : (a ++ t ++ List.replicate j ' ').length + 1 = (a ++ t ++ List.replicate j ' ' ++ c!"(").length := by simp; omega
          obtain ⟨n, hn, heq⟩ := (IH i (by rw [Ex.size, h4]; omega)).2.1 ')' _ _ [('(', (a ++ t ++ List.replicate j ' ').length)] k (hoi.round rfl) (by simp) hs4
            (NoBs.snoc _ (by decide)) (by omega)
          obtain ⟨n, rfl⟩ : ∃ j, n = j + 1 := ⟨n - 1, by omega⟩
          rw [callArgs_close hx fullSt n hs4] at heq
          rw [hlen2, heq] at hstep
          have hs5 : x.src = (a ++ t ++ List.replicate j ' ' ++ c!"(" ++ i.src ++ c!")") ++ g.src ++ c :: r := by rw [hs4]; simp
          obtain ⟨n2, ps, hn2, hps, hth, heq2⟩ := (IH g (by rw [Ex.size, h4]; omega)).1 top c _ r en brk enc k hog hc hs5 (NoBs.snoc _ (by decide)) henc hbrk (by omega)
          refine ⟨n2, t :: List.replicate j ' ' :: ('(' :: (i.py ++ c!")")) :: ps, by omega, ?_, ?_, ?_⟩
          · rw [Ex.py, h2, Ex.py]; simp [hps, closing]
          · refine ⟨?_, by simp⟩
            rw [Ex.keys, h7]
            refine keys_tok ?_
            rw [keys_skip (not_key_blanks j), keys_skip (not_key (by decide +kernel))]
            exact hth.1.trans (List.sublist_append_right _ _)
          · rw [hstep]
            simp only [preS, bind, Except.bind]
            have : (a ++ t ++ List.replicate j ' ' ++ c!"(" ++ i.src ++ c!")" ++ g.src) = a ++ (Ex.tok t e).src := by rw [Ex.src, h1, Ex.src]; simp [closing]
            rw [heq2, this]
            exact pre_pre [t, List.replicate j ' ', '(' :: (i.py ++ c!")")] ps _
        · rw [if_neg hpar] at hstep
          obtain ⟨n, ps, hn, hps, hth, heq⟩ := (IH f (by rw [Ex.size, h4]; omega)).1 top c _ r en brk enc k hf hc (by rw [hs3]; simp) hbl henc hbrk (by omega)
          refine ⟨n, t :: List.replicate j ' ' :: ps, by omega, ?_, ?_, ?_⟩
          · rw [Ex.py, h2]; simp [hps]
          · refine ⟨?_, by simp⟩
            rw [Ex.keys, h7]
            refine keys_tok ?_
            rw [keys_skip (not_key_blanks j)]
            exact hth.1
          · have : (a ++ t ++ List.replicate j ' ' ++ f.src) = a ++ (Ex.tok t e).src := by rw [Ex.src, h1]; simp
            rw [hstep, heq, this]
            exact pre_pre [t, List.replicate j ' '] ps _
      · rw [if_neg hid] at hstep
        obtain ⟨n, ps, hn, hps, hth, heq⟩ := (IH e (by rw [Ex.size]; omega)).1 top c (a ++ t) r en brk enc k hoe hc (by rw [h, Ex.src]; simp) hat henc hbrk (by omega)
        refine ⟨n, t :: ps, by omega, by rw [Ex.py]; simp [hps], ?_, ?_⟩
        · exact ⟨keys_tok hth.1, by simp⟩
        · have : a ++ t ++ e.src = a ++ (Ex.tok t e).src := by rw [Ex.src]; simp
          rw [hstep, heq, this]
          exact pre_pre [t] ps _
    | var w e =>
      obtain ⟨hw, hn1, hn2, _, hoe⟩ := hok
      rw [Ex.size] at hk ⊢
      obtain ⟨k, rfl⟩ : ∃ j, k = j + 4 := ⟨k - 4, by omega⟩
      obtain ⟨r', hr'⟩ := nextChar_spec e.src c r
      obtain ⟨d, w', hw', hd⟩ := hw.head
      have hs : x.src = a ++ '$' :: (w ++ nextChar e.src c :: r') := by rw [h, ← hr', Ex.src]; simp
      obtain ⟨n, ps, hn, hps, hth, heq⟩ := (IH e (by rw [Ex.size]; omega)).1 top c (a ++ '$' :: w) r en brk enc (k + 3) hoe hc (by rw [h, Ex.src]; simp)
        (by have := (NoBs.snoc a (c := '$') (by decide)).append hw.noBs; simpa using this) henc hbrk (by omega)
      refine ⟨n, (c!"VFFSL(SL,\"" ++ w ++ c!"\",True)") :: ps, by omega, by rw [Ex.py]; simp [hps], ?_, ?_⟩
      · refine ⟨?_, by simp⟩
        rw [List.append_assoc, show ∀ s : Str, c!"VFFSL(SL,\"" ++ s = 'V' :: (c!"FFSL(SL,\"" ++ s) from fun _ => rfl, keys_skip (not_key (by decide +kernel))]
        exact hth.1
      · have : a ++ '$' :: w ++ e.src = a ++ (Ex.var w e).src := by rw [Ex.src]; simp
        rw [exprParts_var hx fullSt (k + 3) (d := d) (r := w' ++ nextChar e.src c :: r') (by rw [hs, hw']; rfl) hd hen, cheetahVar_at hx hw hn1 hn2 hs ha fullSt false k,
          genVar_var]
        simp only [bind, Except.bind]
        rw [heq, this]
        exact pre_pre [_] ps _
    | post u m o i gs e =>
      obtain ⟨k, rfl⟩ : ∃ j, k = j + 1 := ⟨k - 1, by omega⟩
      obtain ⟨w, f, v, h1, h2, h4, ⟨s, h5⟩, h7, h8, h9, h10, h11, d, w', h12, h13⟩ := linkVar hx (fun f hf => ⟨(IH f hf).1, (IH f hf).2.1⟩) trivial hok ha h k (by omega)
      obtain ⟨n, ps, hn, hps, hth, heq⟩ := (IH f (by omega)).1 top c (a ++ '$' :: w) r en brk enc k h7 hc (by rw [h, h1]; simp) h11 henc hbrk (by omega)
      refine ⟨n, v :: ps, by omega, by rw [h4]; simp [hps], ?_, ?_⟩
      · refine ⟨?_, by simp⟩
        rw [h5, keys_skip (not_key (by decide +kernel))]
        exact hth.1.trans h10
      · have : a ++ '$' :: w ++ f.src = a ++ (Ex.post u m o i gs e).src := by rw [h1]; simp
        rw [exprParts_var hx fullSt k (d := d) (r := w' ++ f.src ++ c :: r) (by rw [h, h1, h12]; simp) h13 hen, h2]
        simp only [bind, Except.bind]
        rw [heq, this]
        exact pre_pre [_] ps _
    | link u m o i gs e =>
      obtain ⟨k, rfl⟩ : ∃ j, k = j + 1 := ⟨k - 1, by omega⟩
      obtain ⟨w, f, v, h1, h2, h4, ⟨s, h5⟩, h7, h8, h9, h10, h11, d, w', h12, h13⟩ := linkVar hx (fun f hf => ⟨(IH f hf).1, (IH f hf).2.1⟩) trivial hok ha h k (by omega)
      obtain ⟨n, ps, hn, hps, hth, heq⟩ := (IH f (by omega)).1 top c (a ++ '$' :: w) r en brk enc k h7 hc (by rw [h, h1]; simp) h11 henc hbrk (by omega)
      refine ⟨n, v :: ps, by omega, by rw [h4]; simp [hps], ?_, ?_⟩
      · refine ⟨?_, by simp⟩
        rw [h5, keys_skip (not_key (by decide +kernel))]
        exact hth.1.trans h10
      · have : a ++ '$' :: w ++ f.src = a ++ (Ex.link u m o i gs e).src := by rw [h1]; simp
        rw [exprParts_var hx fullSt k (d := d) (r := w' ++ f.src ++ c :: r) (by rw [h, h1, h12]; simp) h13 hen, h2]
        simp only [bind, Except.bind]
        rw [heq, this]
        exact pre_pre [_] ps _
    | grp o i e =>
      obtain ⟨ho, hoi, hoe⟩ := hok
      rw [Ex.size] at hk ⊢
      have hs : x.src = a ++ o :: (i.src ++ closing o :: (e.src ++ c :: r)) := by rw [h, Ex.src]; simp
      obtain ⟨n, ps, hn, hps, hth, heq⟩ := bracket_parts hx (IH i (by rw [Ex.size]; omega)).1 ho hoi.bracket hs en brk hbrk enc k (by omega)
      obtain ⟨n2, qs, hn2, hqs, hth2, heq2⟩ := (IH e (by rw [Ex.size]; omega)).1 top c (a ++ o :: (i.src ++ [closing o])) r en brk enc n hoe hc (by rw [hs]; simp)
        (by
          have := NoBs.snoc (a ++ o :: i.src) (closing_ne ho).1
          simpa using this) henc hbrk (by omega)
      refine ⟨n2, ps ++ qs, by omega, by rw [Ex.py]; simp [hps, hqs], ?_, ?_⟩
      · refine ⟨?_, by simp⟩
        rw [List.filter_append]
        exact hth.append hth2.1
      · have : a ++ o :: (i.src ++ [closing o]) ++ e.src = a ++ (Ex.grp o i e).src := by rw [Ex.src]; simp
        rw [heq, heq2, this, pre_pre]
    | kw w k e => exact absurd hok.1 (by cases top <;> simp)
    | comp ns e =>
      obtain ⟨-, ⟨hne, hw⟩, hcm, hfor, ⟨f, rfl⟩, hoe⟩ := hok
      obtain ⟨k, rfl⟩ : ∃ j, k = j + 1 := ⟨k - 1, by omega⟩
      rw [Ex.size] at hk ⊢
      obtain ⟨r', hr'⟩ := nextChar_spec f.src c r
      have hs : x.src = a ++ c!"for" ++ ' ' :: (targets c!"$" ns ++ ' ' :: (c!"in" ++ nextChar f.src c :: r')) := by rw [h, ← hr', Ex.src, Ex.src]; simp
      have hs2 : x.src = (a ++ c!"for ") ++ (targets c!"$" ns ++ ' ' :: (c!"in" ++ nextChar f.src c :: r')) := by rw [hs]; simp
      have hs3 : x.src = (a ++ c!"for") ++ ' ' :: [] ++ (targets c!"$" ns ++ ' ' :: (c!"in" ++ nextChar f.src c :: r')) := by rw [hs]; simp
      obtain ⟨u, hu⟩ : ∃ u, targets c!"$" ns ++ ' ' :: (c!"in" ++ nextChar f.src c :: r') = '$' :: u := by
        obtain ⟨v, vs, rfl⟩ := List.exists_cons_of_ne_nil hne
        cases vs <;> exact ⟨_, rfl⟩
      obtain ⟨k, rfl⟩ : ∃ j, k = j + 1 := ⟨k - 1, by omega⟩
      obtain ⟨ps, hps, heq⟩ := targets_read hx { fullSt with useNameMapper := false } rfl hcm hoe.1 ns hne hw (a ++ c!"for ") k hs2 (NoBs.append ha (by unfold NoBs; decide)) (by omega)
      have hs4 : x.src = (a ++ c!"for " ++ targets c!"$" ns ++ c!" ") ++ (Ex.tok c!"in" f).src ++ c :: r := by rw [h]; simp [Ex.src]
      obtain ⟨n, qs, hn, hqs, hth, heq2⟩ := (IH (.tok c!"in" f) (by rw [Ex.size.eq_def (.comp _ _)]; dsimp only; omega)).1 top c _ r en brk enc (k + 1) hoe hc hs4 (NoBs.snoc _ (by decide)) henc hbrk (by omega)
      refine ⟨n, c!"for" :: (' ' :: (targets [] ns ++ c!" ")) :: qs, by omega, ?_, ?_, ?_⟩
      · rw [Ex.py, List.flatten_cons, List.flatten_cons, hqs]; simp
      · refine ⟨?_, by simp⟩
        rw [keys_skip (by decide +kernel), Ex.keys]
        exact keys_tok hth.1
      · rw [exprParts_comp hx fullSt (k + 1) hs hfor hen (fun _ hm => absurd (hbrk c!"for" hm) (by decide)),
          exprParts_blanks hx _ k hs3 (by simp) (by intro c hc; rw [hu] at hc; simp at hc; subst hc; decide) (by simp)]
        have hl : (a ++ c!"for" ++ ' ' :: []).length = (a ++ c!"for ").length := by simp
        rw [hl, heq]
        simp only [bind, Except.bind]
        have : a ++ c!"for " ++ targets c!"$" ns ++ c!" " ++ (Ex.tok c!"in" f).src = a ++ (Ex.comp ns (.tok c!"in" f)).src := by simp [Ex.src]
        rw [heq2, this, List.flatten_cons, hps]
        exact pre_pre [c!"for", ' ' :: (targets [] ns ++ c!" ")] qs _
  · -- arguments
    intro c a r enc k hok hc h ha hk
    cases e with
    | nil => exact ⟨k, by omega, by simp [Ex.src, Ex.py, preS_nil]⟩
    | sp e =>
      rw [Ex.size] at hk ⊢
      obtain ⟨k, rfl⟩ : ∃ j, k = j + 1 := ⟨k - 1, by omega⟩
      obtain ⟨n, hn, heq⟩ := (IH e (by rw [Ex.size]; omega)).2.1 c (a ++ c!" ") r enc k hok hc (by rw [h, Ex.src]; simp) (NoBs.snoc a (by decide)) (by omega)
      refine ⟨n, by omega, ?_⟩
      have : a ++ c!" " ++ e.src = a ++ (Ex.sp e).src := by rw [Ex.src]; simp
      rw [callArgs_blank hx fullSt k (r := e.src ++ c :: r) (by rw [h, Ex.src]; simp), heq, this]
      exact preS_preS c!" " e.py _
    | tok t e =>
      obtain ⟨ht, hoe⟩ := hok
      rw [Ex.size] at hk ⊢
      obtain ⟨k, rfl⟩ : ∃ j, k = j + 1 := ⟨k - 1, by omega⟩
      obtain ⟨r', hr'⟩ := nextChar_spec e.src c r
      have hs : x.src = a ++ t ++ nextChar e.src c :: r' := by rw [h, ← hr', Ex.src]; simp
      obtain ⟨n, hn, heq⟩ := (IH e (by rw [Ex.size]; omega)).2.1 c (a ++ t) r enc k hoe hc (by rw [h, Ex.src]; simp) (ha.append ht.line.2) (by omega)
      refine ⟨n, by omega, ?_⟩
      have : a ++ t ++ e.src = a ++ (Ex.tok t e).src := by rw [Ex.src]; simp
      rw [callArgs_tok hx fullSt k hs ht, heq, this]
      exact preS_preS t e.py _
    | var w e =>
      obtain ⟨hw, hn1, hn2, has, hoe⟩ := hok
      rw [Ex.size] at hk ⊢
      obtain ⟨k, rfl⟩ : ∃ j, k = j + 4 := ⟨k - 4, by omega⟩
      obtain ⟨r', hr'⟩ := nextChar_spec e.src c r
      obtain ⟨d, w', hw', hd⟩ := hw.head
      have hs : x.src = a ++ '$' :: (w ++ nextChar e.src c :: r') := by rw [h, ← hr', Ex.src]; simp
      obtain ⟨n, hn, heq⟩ := args_after hx (fun f hf => (IH f (by rw [Ex.size]; omega)).2.1) (c!"VFFSL(SL,\"" ++ w ++ c!"\",True)") (a := a ++ '$' :: w) (r := r)
        (x.cheetahVar (k + 3) fullSt true false a.length) enc (k + 3) hoe has hc (by rw [h, Ex.src]; simp)
        (by have := (NoBs.snoc a (c := '$') (by decide)).append hw.noBs; simpa using this) (by omega)
      refine ⟨n, by omega, ?_⟩
      have : a ++ '$' :: w ++ e.src = a ++ (Ex.var w e).src := by rw [Ex.src]; simp
      rw [callArgs_var hx fullSt (k + 3) (d := d) (r := w' ++ nextChar e.src c :: r') (by rw [hs, hw']; rfl) hd, cheetahVar_at hx hw hn1 hn2 hs ha fullSt false k,
        genVar_var, Ex.py, ← this]
      exact heq
    | post u m o i gs e =>
      obtain ⟨k, rfl⟩ : ∃ j, k = j + 1 := ⟨k - 1, by omega⟩
      obtain ⟨w, f, v, h1, h2, h4, _, h7, h8, h9, h10, h11, d, w', h12, h13⟩ := linkVar hx (fun f hf => ⟨(IH f hf).1, (IH f hf).2.1⟩) trivial hok ha h k (by omega)
      obtain ⟨n, hn, heq⟩ := args_after hx (fun g hg => (IH g (by omega)).2.1) v (a := a ++ '$' :: w) (r := r)
        (x.cheetahVar k fullSt true false a.length) enc k h7 h8 hc (by rw [h, h1]; simp) h11 (by omega)
      refine ⟨n, by omega, ?_⟩
      have : a ++ '$' :: w ++ f.src = a ++ (Ex.post u m o i gs e).src := by rw [h1]; simp
      rw [callArgs_var hx fullSt k (d := d) (r := w' ++ f.src ++ c :: r) (by rw [h, h1, h12]; simp) h13, h2, h4, ← this]
      exact heq
    | link u m o i gs e =>
      obtain ⟨k, rfl⟩ : ∃ j, k = j + 1 := ⟨k - 1, by omega⟩
      obtain ⟨w, f, v, h1, h2, h4, _, h7, h8, h9, h10, h11, d, w', h12, h13⟩ := linkVar hx (fun f hf => ⟨(IH f hf).1, (IH f hf).2.1⟩) trivial hok ha h k (by omega)
      obtain ⟨n, hn, heq⟩ := args_after hx (fun g hg => (IH g (by omega)).2.1) v (a := a ++ '$' :: w) (r := r)
        (x.cheetahVar k fullSt true false a.length) enc k h7 h8 hc (by rw [h, h1]; simp) h11 (by omega)
      refine ⟨n, by omega, ?_⟩
      have : a ++ '$' :: w ++ f.src = a ++ (Ex.link u m o i gs e).src := by rw [h1]; simp
      rw [callArgs_var hx fullSt k (d := d) (r := w' ++ f.src ++ c :: r) (by rw [h, h1, h12]; simp) h13, h2, h4, ← this]
      exact heq
    | grp o i e =>
      obtain ⟨k, rfl⟩ : ∃ j, k = j + 1 := ⟨k - 1, by omega⟩
      have hs : x.src = a ++ o :: (i.src ++ closing o :: (e.src ++ c :: r)) := by rw [h, Ex.src]; simp
      have hpos : 0 < k := by rw [Ex.size] at hk; omega
      obtain ⟨ps, u, f, h1, h2, h3, h4, h5, h6, heq⟩ := (grps_main hx IH : Grps x (.grp o i e)) c a r k hok hc h ha (by omega) hpos
      have h7 := h6 o i e rfl
      obtain ⟨n, hn, heq2⟩ := (IH f (by omega)).2.1 c (a ++ u) r enc k h3 hc (by rw [h, h1]; simp) h5 (by omega)
      refine ⟨n, by omega, ?_⟩
      have : a ++ u ++ f.src = a ++ (Ex.grp o i e).src := by rw [h1]; simp
      rw [callArgs_open hx hT fullSt k hs hok.1, heq]
      simp only [bind, Except.bind]
      rw [heq2, this, h2]
      exact preS_preS ps.flatten f.py _
    | kw w j e =>
      obtain ⟨-, hw, hte, hoe⟩ := hok
      rw [Ex.size] at hk ⊢
      obtain ⟨k, rfl⟩ : ∃ i, k = i + 4 := ⟨k - 4, by omega⟩
      obtain ⟨d, w', hw', hd⟩ := (Dotted.one w hw).head
      obtain ⟨r', hr'⟩ := nextChar_spec e.src c r
      obtain ⟨z, u, hz⟩ : ∃ z u, List.replicate j ' ' ++ '=' :: (e.src ++ c :: r) = z :: u := by cases j <;> exact ⟨_, _, rfl⟩
      have hzc : identChar z = false ∧ z ∉ c!".([" := by
        cases j with
        | zero => rw [List.replicate_zero, List.nil_append] at hz; injection hz with hz _; subst hz; decide
        | succ j => rw [List.replicate_succ] at hz; injection hz with hz _; subst hz; decide
      have hs : x.src = a ++ '$' :: (w ++ z :: u) := by rw [h, ← hz, Ex.src]; simp
      have hs2 : x.src = (a ++ '$' :: w) ++ List.replicate j ' ' ++ '=' :: (e.src ++ c :: r) := by rw [hs, ← hz]; simp
      have hs3 : x.src = (a ++ '$' :: w ++ List.replicate j ' ') ++ c!"=" ++ nextChar e.src c :: r' := by rw [hs2, hr']; simp
      have hws : x.ws (a ++ '$' :: w).length = List.replicate j ' ' := ws_at hs2 hx.bp (by intro d hd; rw [List.eq_of_mem_replicate hd]; simp) (by intro d hd; simp at hd; subst hd; decide)
      have hlen : (a ++ '$' :: w).length + (List.replicate j ' ').length = (a ++ '$' :: w ++ List.replicate j ' ').length := List.length_append.symm
      have htk := pyTok_at hs3 hx.bp (hte.reads r')
      rw [← List.length_append] at htk
      obtain ⟨n, hn, heq⟩ := (IH e (by rw [Ex.size]; omega)).2.1 c (a ++ '$' :: w ++ List.replicate j ' ' ++ c!"=") r enc (k + 3) hoe hc (by rw [hs2]; simp) (NoBs.snoc _ (by decide)) (by omega)
      refine ⟨n, by omega, ?_⟩
      rw [callArgs_var hx fullSt (k + 3) (d := d) (r := w' ++ z :: u) (by rw [hs, hw']; rfl) hd, cheetahVar_at hx (.one w hw) hzc.1 hzc.2 hs ha fullSt false k,
        cheetahVar_at hx (.one w hw) hzc.1 hzc.2 hs ha fullSt true k, genVar_var, genVar_bare fullSt true (.inl rfl)]
      simp only [bind, Except.bind, hws, hlen]
      rw [peek_head hx (b := '=' :: (e.src ++ c :: r)) hs2]
      simp only [List.head?_cons, if_true, htk]
      have : a ++ '$' :: w ++ List.replicate j ' ' ++ c!"=" ++ e.src = a ++ (Ex.kw w j e).src := by rw [Ex.src]; simp
      rw [heq, this]
      have hv : (Ex.kw w j e).py = w ++ List.replicate j ' ' ++ c!"=" ++ e.py := by rw [Ex.py]; simp
      rw [hv]
      exact preS_preS (w ++ List.replicate j ' ' ++ c!"=") e.py _
    | comp ns e => exact absurd hok.1 (by simp)
  · exact grps_main hx IH

theorem targets_length : ∀ ns : List Str, (∀ w ∈ ns, Word w) → 2 * ns.length ≤ (targets c!"$" ns).length := by
  intro ns
  induction ns with
  | nil => intro _; simp
  | cons w ns ih =>
    intro h
    obtain ⟨d, w', rfl, _⟩ := h w (by simp)
    cases ns with
    | nil => simp [targets]
    | cons v ns =>
      have := ih (fun u hu => h u (List.mem_cons_of_mem _ hu))
      simp only [targets, List.length_append, List.length_cons, List.length_nil] at this ⊢
      omega

theorem Ex.size_le (tok : Str → Option Nat) : ∀ (e : Ex) (top : Mode) (c : Char), e.Ok tok top c → e.size ≤ 4 * e.src.length := by
  intro e
  induction e with
  | nil => intros; simp [Ex.size]
  | sp e ih => intro top c h; have := ih top c h; simp only [Ex.size, Ex.src, List.length_cons]; omega
  | tok t e ih =>
    intro top c h
    have := ih top c h.2
    obtain ⟨d, t', ht, _⟩ := h.1.start
    simp only [Ex.size, Ex.src, List.length_append, ht, List.length_cons]; omega
  | var w e ih =>
    intro top c h
    have := ih top c h.2.2.2.2
    simp only [Ex.size, Ex.src, List.length_append, List.length_cons]; omega
  | post u m o i gs e ih1 ih3 ih2 =>
    intro top c h
    have := ih1 _ _ h.2.2.2.1.1
    have := ih3 _ _ h.2.2.2.1.2.1
    have := ih2 top c h.2.2.2.2.2.2.2
    simp only [Ex.size, Ex.src, List.length_append, List.length_cons]; omega
  | link u m o i gs e ih1 ih3 ih2 =>
    intro top c h
    have := ih1 _ _ h.2.2.2.1.1
    have := ih3 _ _ h.2.2.2.1.2.1
    have := ih2 top c h.2.2.2.2.2
    obtain ⟨d, w, hw, _⟩ := (dottedPath_ok h.1 h.2.1).head
    simp only [Ex.size, Ex.src, List.length_append, List.length_cons, List.length_tail, hw]; omega
  | grp o i e ih1 ih2 =>
    intro top c h
    have := ih1 _ _ h.2.1
    have := ih2 top c h.2.2
    simp only [Ex.size, Ex.src, List.length_append, List.length_cons]; omega
  | kw w k e ih =>
    intro top c h
    have := ih top c h.2.2.2
    obtain ⟨d, w', rfl, _⟩ := h.2.1
    simp only [Ex.size, Ex.src, List.length_append, List.length_cons, List.length_replicate]; omega
  | comp ns e ih =>
    intro top c h
    have := ih top c h.2.2.2.2.2
    have := targets_length ns (fun w hw => (h.2.1.2 w hw))
    simp only [Ex.size, Ex.src, List.length_append, List.length_cons, List.length_nil]; omega

/-- A directive ends with its line or with `#`. -/
def Stop (z : Char) : Prop := z = '\n' ∨ z = '#'

theorem exprParts_last (hx : Std x.toCx) (st : GenVar.Settings) {brk : List Str} {a r : Str} {z : Char} (hz : Stop z) (n : Nat) (h : x.src = a ++ z :: r) (ha : NoBs a) :
    x.exprParts (n + 1) st false brk [] a.length = .ok ([], a.length) := by
  rcases hz with rfl | rfl
  · exact exprParts_eol hx st n h
  · obtain ⟨ns, hcfg⟩ := hx.cfg
    have hde : x.matchTok x.cfg.dirEnd a.length = some (a.length + 1) := by
      rw [show x.cfg.dirEnd = c!"#" by rw [hcfg]; rfl]
      exact matchTok_at x.toCx c!"#" a r (by rw [h]; simp) ha
    conv_lhs => unfold Px.exprParts
    rw [peek_head hx h]
    simp [isOpen, isClose, isWs, hde]

/-- An expression up to the end of the directive: its parts. -/
theorem exprParts_ex (hx : Std x.toCx) (hT : TokBrackets x.tok) {e : Ex} {z : Char} (hz : Stop z) (he : e.Ok x.tok true z) {a r : Str} (h : x.src = a ++ e.src ++ z :: r) (ha : NoBs a)
    (brk : List Str) (hbrk : ∀ b ∈ brk, b = c!":") (k : Nat) (hk : 4 * e.src.length + 4 ≤ k) :
    ∃ ps, x.exprParts k fullSt false brk [] a.length = .ok (ps, (a ++ e.src).length) ∧ ps.flatten = e.py ∧ (ps.filter isKey).Sublist e.keys ∧ ∀ t f, e = .tok t f → ps.head? = some t := by
  have hsz := Ex.size_le _ _ _ _ he
  obtain ⟨n, ps, hn, hps, hth, heq⟩ := (expr_main hx hT _ e (Nat.le_refl _)).1 true z a r false brk [] k he (by rcases hz with rfl | rfl <;> simp) h ha (by simp) hbrk (by omega)
  obtain ⟨n, rfl⟩ : ∃ j, n = j + 1 := ⟨n - 1, by omega⟩
  rw [exprParts_last hx fullSt hz n h (ha.append (e.noBs _ _ he))] at heq
  exact ⟨ps, by rw [heq]; simp [pre, bind, Except.bind], hps, hth⟩

/-- An expression up to the end of the directive. -/
theorem expression_ex (hx : Std x.toCx) (hT : TokBrackets x.tok) {e : Ex} {z : Char} (hz : Stop z) (he : e.Ok x.tok true z) {a r : Str} (h : x.src = a ++ e.src ++ z :: r) (ha : NoBs a)
    (brk : List Str) (hbrk : ∀ b ∈ brk, b = c!":") : x.expression fullSt false brk [] a.length = .ok (e.py, (a ++ e.src).length) := by
  obtain ⟨ps, h1, h2, _⟩ := exprParts_ex hx hT hz he h ha brk hbrk (x.fuel a.length) (by unfold Px.fuel; rw [hx.bp, h]; simp)
  unfold Px.expression
  rw [h1, ← h2]
  rfl

/-! ### C68 -/

/-- The expression of a directive, up to the end of its line or up to the `#` that closes the directive, reaches Python
as written, with each placeholder replaced by the look-up of its name. Blanks, line structure, brackets, strings and
operators are copied. -/
theorem C68_expression_translated (x : Px) (hx : Std x.toCx) (hT : TokBrackets x.tok) (e : Ex) (z : Char) (hz : z = '\n' ∨ z = '#') (he : e.Ok x.tok true z) (a r : Str)
    (h : x.src = a ++ e.src ++ z :: r) (ha : a.getLast? ≠ some '\\') :
    x.expression fullSt false [] [] a.length = .ok (e.py, (a ++ e.src).length) :=
  expression_ex hx hT hz he h ha [] (by simp)

/-- The call arguments of a name are translated in the same way, whatever follows them. -/
theorem C68_arguments_translated (x : Px) (hx : Std x.toCx) (hT : TokBrackets x.tok) (e : Ex) (he : e.Ok x.tok .args ')') (a r : Str)
    (h : x.src = a ++ '(' :: (e.src ++ ')' :: r)) :
    x.callArgString fullSt a.length = .ok ('(' :: (e.py ++ c!")"), (a ++ '(' :: (e.src ++ c!")")).length) := by
  have hsz := Ex.size_le _ _ _ _ he
  have h1 : x.src = (a ++ c!"(") ++ e.src ++ ')' :: r := by rw [h]; simp
  obtain ⟨n, hn, heq⟩ := (expr_main hx hT _ e (Nat.le_refl _)).2.1 ')' (a ++ c!"(") r [('(', a.length)] (x.fuel a.length) he (by simp) h1 (NoBs.snoc a (by decide))
    (by unfold Px.fuel; rw [hx.bp, h]; simp; omega)
  have hf : 4 * e.src.length + 4 ≤ x.fuel a.length := by unfold Px.fuel; rw [hx.bp, h]; simp; omega
  obtain ⟨n, rfl⟩ : ∃ j, n = j + 1 := ⟨n - 1, by omega⟩
  rw [callArgs_close hx fullSt n h1] at heq
  unfold Px.callArgString
  rw [peek!_head hx h]
  have hlen : a.length + 1 = (a ++ c!"(").length := by simp
  simp only [bind, Except.bind, if_true, hlen, heq, preS]
  simp

theorem simpleTok_one {c : Char} (h1 : identChar c = false) (h2 : c ≠ '\'') (r : Str) : simpleTok (c :: r) = some 1 := by
  simp [simpleTok, h1, h2]

theorem simpleTok_brackets : TokBrackets simpleTok := by
  intro o r ho
  simp at ho
  rcases ho with rfl | rfl | rfl <;> exact simpleTok_one (by decide) (by decide) r

theorem simpleTok_run {w : Str} {c : Char} (hw : w ≠ []) (h : ∀ d ∈ w, identChar d = true) (hc : identChar c = false) (r : Str) : simpleTok (w ++ c :: r) = some w.length := by
  cases w with
  | nil => exact absurd rfl hw
  | cons d w =>
    rw [List.cons_append, simpleTok, if_pos (h d List.mem_cons_self), ← List.cons_append, List.takeWhile_append_of_pos h]
    simp [hc]

theorem simpleTok_isOne {d : Char} {top : Bool} {c : Char} (h : d ∉ c!"()[]{} \t\x0c\r\n\\$#\':") (hd : identChar d = false) : IsTok simpleTok [d] top c := by
  simp at h
  exact ⟨fun r => simpleTok_one hd (by simp [h]) _, ⟨d, [], rfl, by simp [h]⟩, by simp [h], by simp [h], by
    rintro ⟨h1, _⟩; simp at h1; rw [h1] at hd; exact absurd hd (by decide)⟩

theorem simpleTok_isRun {w : Str} {top : Bool} {c : Char} (hw : w ≠ []) (h : ∀ d ∈ w, identChar d = true) (hc : identChar c = false) (hn : w ∉ [c!"for", c!"c"]) :
    IsTok simpleTok w top c := by
  have hch : ∀ d ∈ w, d ∉ c!"()[]{} \t\x0c\r\n\\$#:" := by
    intro d hd hm
    have := h d hd
    revert this
    simp at hm
    rcases hm with rfl | rfl | rfl | rfl | rfl | rfl | rfl | rfl | rfl | rfl | rfl | rfl | rfl | rfl | rfl <;> decide
  simp at hn
  refine ⟨simpleTok_run hw h hc, ?_, ⟨hn.1, fun _ h => hch ':' (by rw [h]; simp) (by simp)⟩, ⟨?_, fun hl => hch _ (List.mem_of_getLast? hl) (by simp)⟩, fun h => hn.2 h.1⟩
  · obtain ⟨d, w', rfl⟩ := List.exists_cons_of_ne_nil hw
    have := hch d List.mem_cons_self
    refine ⟨d, w', rfl, ?_⟩
    simp at this ⊢
    tauto
  · intro d hd
    have := hch d hd
    simp at this
    exact ⟨by tauto, by tauto⟩

/-- `$a.b($x, [1])[2] + len($z[0][1])` -/
def exprDemo : Ex :=
  .post (some c!"a") c!"b" '(' (.var c!"x" (.tok c!"," (.sp (.grp '[' (.tok c!"1" .nil) .nil)))) .nil
    (.grp '[' (.tok c!"2" .nil) (.sp (.tok c!"+" (.sp (.tok c!"len" (.grp '(' (.post none c!"z" '[' (.tok c!"0" .nil) (.grp '[' (.tok c!"1" .nil) .nil) .nil) .nil))))))

theorem exprDemo_ok (c : Char) (top : Bool) : exprDemo.Ok simpleTok top c := by
  refine ⟨fun u hu => ?_, ⟨'b', [], rfl, by decide, by decide⟩, by decide, ⟨?_, trivial, trivial, fun _ => rfl⟩, (by decide : identStart '[' = false), ⟨(by decide : '[' ≠ '.'), fun h => by cases h⟩, by simp [Ex.assigns], ?_⟩
  · injection hu with hu; subst hu; exact .one _ ⟨'a', [], rfl, by decide, by decide⟩
  · refine ⟨.one _ ⟨'x', [], rfl, by decide, by decide⟩, by decide, by decide, by simp [Ex.assigns], ?_⟩
    exact ⟨simpleTok_isOne (by decide) (by decide), by decide, ⟨simpleTok_isRun (by decide) (by decide) (by decide) (by decide), trivial⟩, trivial⟩
  · refine ⟨by decide, ⟨simpleTok_isRun (by decide) (by decide) (by decide) (by decide), trivial⟩,
      simpleTok_isOne (by decide) (by decide), simpleTok_isRun (by decide) (by decide) (by decide : identChar '(' = false) (by decide), by decide, ?_, trivial⟩
    exact ⟨by simp, ⟨'z', [], rfl, by decide, by decide⟩, by decide, ⟨⟨simpleTok_isRun (by decide) (by decide) (by decide) (by decide), trivial⟩,
      ⟨by decide, ⟨simpleTok_isRun (by decide) (by decide) (by decide) (by decide), trivial⟩, trivial⟩, trivial, fun h => by cases h⟩, by decide, by decide, id, trivial⟩

example : exprDemo.src = c!"$a.b($x, [1])[2] + len($z[0][1])" := rfl
example : exprDemo.py = c!"VFN(VFFSL(SL,\"a\",True),\"b\",False)(VFFSL(SL,\"x\",True), [1])[2] + len(VFFSL(SL,\"z\",True)[0][1])" := rfl
example : Std (demo (c!"#silent " ++ exprDemo.src ++ '\n' :: c!"end")).toCx := ⟨⟨_, rfl⟩, rfl⟩
example : TokBrackets (demo (c!"#silent " ++ exprDemo.src ++ '\n' :: c!"end")).tok := simpleTok_brackets
example : (demo (c!"#silent " ++ exprDemo.src ++ '\n' :: c!"end")).expression fullSt false [] [] 8 = .ok (exprDemo.py, 40) := by decide +kernel
example : (demo (c!"#silent " ++ exprDemo.src ++ '#' :: c!"end")).expression fullSt false [] [] 8 = .ok (exprDemo.py, 40) := by decide +kernel

/-- `$a.b(1).c[$x][2].d + 1` -/
def linkDemo : Ex :=
  .link (some c!"a") c!"b" '(' (.tok c!"1" .nil) .nil (.link none c!"c" '[' (.var c!"x" .nil) (.grp '[' (.tok c!"2" .nil) .nil) (.var c!"d" (.sp (.tok c!"+" (.sp (.tok c!"1" .nil))))))

theorem linkDemo_ok {c : Char} (hc : identChar c = false) (top : Bool) : linkDemo.Ok simpleTok top c := by
  refine ⟨fun u hu => ?_, ⟨'b', [], rfl, by decide, by decide⟩, by decide, ⟨⟨simpleTok_isRun (by decide) (by decide) (by decide) (by decide), trivial⟩, trivial, trivial, fun _ => rfl⟩, trivial,
    by simp, ⟨'c', [], rfl, by decide, by decide⟩, by decide, ⟨⟨.one _ ⟨'x', [], rfl, by decide, by decide⟩, by decide, by decide, id, trivial⟩,
      ⟨by decide, ⟨simpleTok_isRun (by decide) (by decide) (by decide) (by decide), trivial⟩, trivial⟩, trivial, fun h => by cases h⟩, trivial,
    .one _ ⟨'d', [], rfl, by decide, by decide⟩, (by decide : identChar ' ' = false), (by decide : ' ' ∉ c!".(["), by simp [Ex.assigns], simpleTok_isOne (by decide) (by decide),
    simpleTok_isRun (by decide) (by decide) hc (by decide), trivial⟩
  injection hu with hu; subst hu; exact .one _ ⟨'a', [], rfl, by decide, by decide⟩

example : linkDemo.src = c!"$a.b(1).c[$x][2].d + 1" := rfl
example : linkDemo.py = c!"VFN(VFN(VFN(VFFSL(SL,\"a\",True),\"b\",False)(1),\"c\",True)[VFFSL(SL,\"x\",True)][2],\"d\",True) + 1" := rfl
example : (demo (c!"#silent " ++ linkDemo.src ++ '\n' :: c!"end")).expression fullSt false [] [] 8 = .ok (linkDemo.py, 30) := by decide +kernel
example : (demo (c!"#silent " ++ linkDemo.src ++ '\n' :: c!"end")).expression fullSt false [] [] 8 = .ok (linkDemo.py, 30) :=
  C68_expression_translated _ ⟨⟨_, rfl⟩, rfl⟩ simpleTok_brackets linkDemo '\n' (.inl rfl) (linkDemo_ok (by decide) true) c!"#silent " c!"end" rfl (by decide)

/-- `[$f($a, $key = $x) for $x, $y in $g($n=1)]` -/
def compDemo : Ex :=
  .grp '[' (.post none c!"f" '(' (.var c!"a" (.tok c!"," (.sp (.kw c!"key" 1 (.sp (.var c!"x" .nil)))))) .nil
    (.sp (.comp [c!"x", c!"y"] (.tok c!"in" (.sp (.post none c!"g" '(' (.kw c!"n" 0 (.tok c!"1" .nil)) .nil .nil)))))) .nil

theorem simpleTok_for (r : Str) : simpleTok (c!"for " ++ r) = some 3 := by
  simpa using simpleTok_run (w := c!"for") (c := ' ') (by decide) (by decide) (by decide) r

theorem compDemo_ok (c : Char) : compDemo.Ok simpleTok true c := by
  refine ⟨by decide, ?_, trivial⟩
  refine ⟨by simp, ⟨'f', [], rfl, by decide, by decide⟩, by decide, ⟨?_, trivial, trivial, fun _ => rfl⟩, (by decide : identStart ' ' = false), ⟨(by decide : ' ' ≠ '.'), fun h => by cases h⟩, by simp [Ex.assigns], ?_⟩
  · exact ⟨.one _ ⟨'a', [], rfl, by decide, by decide⟩, (by decide : identChar ',' = false), (by decide : ',' ∉ c!".(["), by simp [Ex.assigns], simpleTok_isOne (by decide) (by decide), rfl,
      ⟨'k', c!"ey", rfl, by decide, by decide⟩, simpleTok_isOne (by decide) (by decide), .one _ ⟨'x', [], rfl, by decide, by decide⟩, by decide, by decide, id, trivial⟩
  · refine ⟨.inr rfl, ⟨by decide, ?_⟩, simpleTok_isOne (by decide) (by decide), simpleTok_for, ⟨_, rfl⟩, simpleTok_isRun (by decide) (by decide) (by decide : identChar ' ' = false) (by decide), ?_⟩
    · intro w hw
      simp only [List.mem_cons, List.not_mem_nil, or_false] at hw
      rcases hw with rfl | rfl
      · exact ⟨'x', [], rfl, by decide, by decide⟩
      · exact ⟨'y', [], rfl, by decide, by decide⟩
    · exact ⟨by simp, ⟨'g', [], rfl, by decide, by decide⟩, by decide, ⟨⟨rfl, ⟨'n', [], rfl, by decide, by decide⟩, simpleTok_isOne (by decide) (by decide),
        simpleTok_isRun (by decide) (by decide) (by decide) (by decide), trivial⟩, trivial, trivial, fun _ => rfl⟩, by decide, ⟨by decide, fun h => by cases h⟩, id, trivial⟩

example : compDemo.src = c!"[$f($a, $key = $x) for $x, $y in $g($n=1)]" := rfl
example : compDemo.py = c!"[VFFSL(SL,\"f\",False)(VFFSL(SL,\"a\",True), key = VFFSL(SL,\"x\",True)) for x, y in VFFSL(SL,\"g\",False)(n=1)]" := rfl
example : (demo (c!"#silent " ++ compDemo.src ++ '\n' :: c!"end")).expression fullSt false [] [] 8 = .ok (compDemo.py, 50) :=
  C68_expression_translated _ ⟨⟨_, rfl⟩, rfl⟩ simpleTok_brackets compDemo '\n' (.inl rfl) (compDemo_ok '\n') c!"#silent " c!"end" rfl (by decide)
example : (demo (c!"#silent " ++ compDemo.src ++ '\n' :: c!"end")).expression fullSt false [] [] 8 = .ok (compDemo.py, 50) := by decide +kernel

/-- The names of a comprehension lose their `$` between square brackets only. As the only argument of a call, a generator
gets the look-up of its own variable as its target, which Python rejects. -/
theorem C68_generator_argument_counterexample :
    (demo (c!"#silent $f($x for $x in $y)\n")).expression fullSt false [] [] 8 =
      .ok (c!"VFFSL(SL,\"f\",False)(VFFSL(SL,\"x\",True) for VFFSL(SL,\"x\",True) in VFFSL(SL,\"y\",True))", 27) ∧
    (demo (c!"#silent $f([$x for $x in $y])\n")).expression fullSt false [] [] 8 =
      .ok (c!"VFFSL(SL,\"f\",False)([VFFSL(SL,\"x\",True) for x in VFFSL(SL,\"y\",True)])", 29) := by
  constructor <;> decide +kernel

/-- The `$` of a keyword argument is dropped in the arguments of a placeholder. In a call within those arguments it is
not: Python gets a look-up before the equals sign, which it rejects. -/
theorem C68_nested_keyword_counterexample :
    (demo (c!"#silent $f($x=1)\n")).expression fullSt false [] [] 8 = .ok (c!"VFFSL(SL,\"f\",False)(x=1)", 16) ∧
    (demo (c!"#silent $f(g($x=1))\n")).expression fullSt false [] [] 8 = .ok (c!"VFFSL(SL,\"f\",False)(g(VFFSL(SL,\"x\",True)=1))", 19) := by
  constructor <;> decide +kernel

end Cheetah.Parser
