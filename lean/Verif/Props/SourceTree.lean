import Verif.Props.SourcePlace
import Verif.Props.ArgList
/-
A language of template sources: text, placeholders, comments, statements, control-flow directives and definitions, nested
in any way, and the commands the parser gives for them.  Used for C70 and C71.
-/
namespace Cheetah.Parser
open Reader (EndsLine)

/-! ### Specification: sources -/

/-- Directives that open a block. -/
inductive Head where
  | if_ (e : Ex)
  | unless_ (e : Ex)
  | while_ (e : Ex)
  | repeat_ (e : Ex)
  | for_ (x : Str) (e : Ex)
  | try_

/-- Directives that go on with a block. -/
inductive Part where
  | elif (e : Ex)
  | els
  | except_ (e : Option Ex)
  | finally_

/-- The operators of `#set`. -/
def setOps : List Str := [c!"=", c!"+=", c!"-=", c!"*=", c!"/=", c!"%=", c!"**=", c!"&=", c!"|=", c!"^=", c!"<<=", c!">>="]

/-- Directives without a block. -/
inductive Stm where
  /-- with one of the operators of `setOps` -/
  | set (x op : Str) (e : Ex)
  /-- `#set global` -/
  | setGlobal (x op : Str) (e : Ex)
  /-- `#if … then … else …` on one line -/
  | ternary (c a b : Ex)
  | silent (e : Ex)
  | echo (e : Ex)
  /-- `#del`, `#assert`, `#raise` -/
  | python (name : Str) (e : Ex)
  | pass_
  | break_
  | continue_
  | stop
  /-- `#include`, perhaps with `raw` and `source=` -/
  | include_ (raw source : Bool) (e : Ex)

/-- What follows the name in a definition: nothing, or an opening parenthesis and the text `s` with the arguments `as`. -/
inductive Sig where
  | bare
  | args (s : Str) (as : List (Str × Option Str))

/-- Directives that take a part of the source out of its place. -/
inductive Region where
  | def_ (n : Str) (sig : Sig)
  | block (n : Str) (sig : Sig)

/-- Directives that take the output of their body: `#capture x` keeps it, `#call $f` or `#call $f e` gives it to a function, `#filter n` and
`#filter $k` send the values in it through another filter. -/
inductive Wrap where
  | capture (x : Str)
  | call (f : Str) (as : Option Ex)
  | filter (n : Str)
  | klass (k : Str)

/-- Where a directive stands: on a line of its own, behind the blanks `i`; anywhere, closed by a `#`; or at the end of a line
with something on it. -/
inductive Lead where
  | own (i : Str)
  | inl
  | tail

mutual
/-- A source: each piece has the text `t` before it; `i` and `j` are the blanks before a directive on its line. -/
inductive Doc where
  | done (t : Str)
  | place (t : Str) (silent : Bool) (p : Place) (rest : Doc)
  | stm (t : Str) (l : Lead) (s : Stm) (rest : Doc)
  /-- `##s` on a line of its own -/
  | note (t i s : Str) (rest : Doc)
  /-- `##s` at the end of a line with something on it -/
  | remark (t s : Str) (rest : Doc)
  /-- `#*s*#` on lines of its own, `j` are the blanks behind it -/
  | notes (t i s j : Str) (rest : Doc)
  /-- `#*s*#` with something behind it -/
  | aside (t s : Str) (rest : Doc)
  /-- `#slurp`, or `#` alone, at the end of a line with something on it -/
  | slurp (t : Str) (long : Bool) (rest : Doc)
  /-- `#raw`, the text `s` and `#end raw` -/
  | raw (t i s j : Str) (rest : Doc)
  | region (t i : Str) (r : Region) (body : Doc) (j : Str) (rest : Doc)
  /-- `j`: where the `#end` stands -/
  | block (t : Str) (l : Lead) (h : Head) (body : Doc) (more : More) (j : Lead) (rest : Doc)
  /-- `id`: the number that the compiler draws for it, no part of the source -/
  | wrap (t : Str) (l : Lead) (id : Nat) (w : Wrap) (body : Doc) (j : Lead) (rest : Doc)
  /-- a `#call` with `#arg`s, `first` before them -/
  | keywords (t : Str) (l : Lead) (id : Nat) (f : Str) (as : Option Ex) (first : Doc) (args : Kws) (j : Lead) (rest : Doc)
/-- The other parts of a block. -/
inductive More where
  | fin
  | part (l : Lead) (p : Part) (body : Doc) (more : More)
/-- `#arg n` and what follows it, and so on. -/
inductive Kws where
  | last
  | arg (l : Lead) (n : Str) (body : Doc) (more : Kws)
end

def Head.name : Head → Str
  | .if_ _ => c!"if"
  | .unless_ _ => c!"unless"
  | .while_ _ => c!"while"
  | .repeat_ _ => c!"repeat"
  | .for_ _ _ => c!"for"
  | .try_ => c!"try"

/-- What follows the `#`. -/
def Head.line : Head → Str
  | .if_ e => c!"if " ++ e.src
  | .unless_ e => c!"unless " ++ e.src
  | .while_ e => c!"while " ++ e.src
  | .repeat_ e => c!"repeat " ++ e.src
  | .for_ x e => c!"for $" ++ x ++ c!" in " ++ e.src
  | .try_ => c!"try"

def Part.name : Part → Str
  | .elif _ => c!"elif"
  | .els => c!"else"
  | .except_ _ => c!"except"
  | .finally_ => c!"finally"

def Part.line : Part → Str
  | .elif e => c!"elif " ++ e.src
  | .els => c!"else"
  | .except_ none => c!"except"
  | .except_ (some e) => c!"except " ++ e.src
  | .finally_ => c!"finally"

def Stm.line : Stm → Str
  | .set x op e => c!"set $" ++ x ++ c!" " ++ op ++ c!" " ++ e.src
  | .setGlobal x op e => c!"set global $" ++ x ++ c!" " ++ op ++ c!" " ++ e.src
  | .ternary c a b => c!"if " ++ c.src ++ c!"then " ++ a.src ++ c!"else " ++ b.src
  | .silent e => c!"silent " ++ e.src
  | .echo e => c!"echo " ++ e.src
  | .python n e => n ++ c!" " ++ e.src
  | .pass_ => c!"pass"
  | .break_ => c!"break"
  | .continue_ => c!"continue"
  | .stop => c!"stop"
  | .include_ raw source e => c!"include " ++ (if raw then c!"raw " else []) ++ (if source then c!"source=" else []) ++ e.src

def Sig.src : Sig → Str
  | .bare => []
  | .args s _ => '(' :: s

def Sig.as : Sig → List (Str × Option Str)
  | .bare => []
  | .args _ as => as

def Region.name : Region → Str
  | .def_ _ _ => c!"def"
  | .block _ _ => c!"block"

def Region.line : Region → Str
  | .def_ n sig => c!"def " ++ n ++ sig.src
  | .block n sig => c!"block " ++ n ++ sig.src

def Wrap.name : Wrap → Str
  | .capture _ => c!"capture"
  | .call _ _ => c!"call"
  | .filter _ => c!"filter"
  | .klass _ => c!"filter"

def Wrap.line : Wrap → Str
  | .capture x => c!"capture " ++ x
  | .call f none => c!"call $" ++ f
  | .call f (some e) => c!"call $" ++ f ++ c!" " ++ e.src
  | .filter n => c!"filter " ++ n
  | .klass k => c!"filter $" ++ k

/-- What stands before the directive's `#` on its line. -/
def Lead.pre : Lead → Str
  | .own i => i
  | .inl => []
  | .tail => []

/-- What belongs to the directive after its text: a line end is part of it only on a line of its own. -/
def Lead.post : Lead → Str
  | .own _ => c!"\n"
  | .inl => c!"#"
  | .tail => []

/-- The character after the directive's text. -/
def Lead.stop : Lead → Char
  | .own _ => '\n'
  | .inl => '#'
  | .tail => '\n'

/-- The directive is followed by the start of a line. -/
def Lead.bol : Lead → Bool
  | .own _ => true
  | .inl => false
  | .tail => false

mutual
/-- The source text. -/
def Doc.src : Doc → Str
  | .done t => t
  | .place t sl p rest => t ++ p.src sl ++ rest.src
  | .stm t l s rest => t ++ l.pre ++ c!"#" ++ s.line ++ l.post ++ rest.src
  | .note t i s rest => t ++ i ++ c!"##" ++ s ++ c!"\n" ++ rest.src
  | .remark t s rest => t ++ c!"##" ++ s ++ rest.src
  | .notes t i s j rest => t ++ i ++ c!"#*" ++ s ++ c!"*#" ++ j ++ c!"\n" ++ rest.src
  | .aside t s rest => t ++ c!"#*" ++ s ++ c!"*#" ++ rest.src
  | .slurp t long rest => t ++ c!"#" ++ (if long then c!"slurp" else []) ++ c!"\n" ++ rest.src
  | .raw t i s j rest => t ++ i ++ c!"#raw\n" ++ s ++ j ++ c!"#end raw\n" ++ rest.src
  | .region t i r body j rest => t ++ i ++ c!"#" ++ r.line ++ c!"\n" ++ body.src ++ j ++ c!"#end " ++ r.name ++ c!"\n" ++ rest.src
  | .block t l h body more j rest =>
    t ++ l.pre ++ c!"#" ++ h.line ++ l.post ++ body.src ++ more.src ++ j.pre ++ c!"#end " ++ h.name ++ j.post ++ rest.src
  | .wrap t l _ w body j rest => t ++ l.pre ++ c!"#" ++ w.line ++ l.post ++ body.src ++ j.pre ++ c!"#end " ++ w.name ++ j.post ++ rest.src
  | .keywords t l _ f as first args j rest =>
    t ++ l.pre ++ c!"#" ++ (Wrap.call f as).line ++ l.post ++ first.src ++ args.src ++ j.pre ++ c!"#end call" ++ j.post ++ rest.src
def More.src : More → Str
  | .fin => []
  | .part l p body more => l.pre ++ c!"#" ++ p.line ++ l.post ++ body.src ++ more.src
def Kws.src : Kws → Str
  | .last => []
  | .arg l n body more => l.pre ++ c!"#" ++ (c!"arg " ++ n) ++ l.post ++ body.src ++ more.src
end

def Blanks (i : Str) : Prop := ∀ c ∈ i, c ∈ c!" \t\x0c"

/-- After the text we are at the start of a line (`bol`: we were before it). -/
def AtBol (bol : Bool) (t : Str) : Prop := (t = [] ∧ bol = true) ∨ t.getLast? = some '\n'

/-- An expression up to the character `z`, without white space around it and without a colon at the end. -/
structure Tidy (tok : Str → Option Nat) (z : Char) (e : Ex) : Prop where
  ok : e.Ok tok true z
  head : ∃ c r, e.src = c :: r ∧ isSpace c = false
  last : ∀ c, e.src.getLast? = some c → isSpace c = false ∧ c ≠ ':'
  noThen : c!"then" ∉ e.keys

/-- Words with which the parser or the compiler takes a line of Python for one of its own. -/
def reserved : List Str :=
  [c!"if", c!"elif", c!"else", c!"while", c!"for", c!"try", c!"except", c!"finally", c!"break", c!"continue", c!"return", c!"write", c!"_v"]

/-- A line that the compiler writes around the body of a `#capture`, `#call` or `#filter`; `n` is the number it draws for the
directive, `call` tells `#call` from `#capture`. -/
inductive Own where
  | saveTrans (n : Nat)
  | saveBuffering (n : Nat)
  | setBuffering
  | newCollector (call : Bool) (n : Nat)
  | bindCollector (call : Bool) (n : Nat)
  | restoreTrans (n : Nat)
  | bindWrite
  | restoreBuffering (n : Nat)
  | setArgVal (n : Nat)
  | delTrans (n : Nat)
  | delBuffering (n : Nat)
  | delCollector (call : Bool) (n : Nat)
  | delArgVal (n : Nat)
  | saveFilter (n : Nat)
  | initialFilter
  | restoreFilter (n : Nat)
  | filterClass (e : Str)
  | filterName (q : Str)
  | capture (x : Str) (n : Nat)
  | newKws (n : Nat)
  | noteArg (n : Nat) (x : Str)
  | setKw (n : Nat) (x : Str)
  | delKws (n : Nat)
  deriving DecidableEq

/-- The number between `p` and `q`. -/
def numbered (p q l : Str) : Option Nat :=
  match stripPrefix? p l with
  | none => none
  | some r => if r.takeWhile isDigit ≠ [] ∧ r.dropWhile isDigit = q then some (parseDecimal (r.takeWhile isDigit)) else none

/-- The text before and behind the first `p`. -/
def cut (p : Str) : Str → Option (Str × Str)
  | [] => none
  | c :: s =>
    match stripPrefix? p (c :: s) with
    | some r => some ([], r)
    | none => (cut p s).map fun x => (c :: x.1, x.2)

/-- The text between `p` and `q`. -/
def between (p q l : Str) : Option Str :=
  match stripPrefix? p l with
  | none => none
  | some r => if r.drop (r.length - q.length) = q then some (r.take (r.length - q.length)) else none

/-- The first word of a text. -/
def headWord (s : Str) : Str := s.takeWhile identChar

/-- `x = _captureCollector<n>.response().getvalue()` -/
def captureLine (l : Str) : Option Own :=
  if headWord l ∈ reserved then none
  else (numbered (headWord l ++ c!" = _captureCollector") c!".response().getvalue()" l).map (.capture (headWord l))

/-- `_callArgVal<n> = _callCollector<n>.response().getvalue()` -/
def argValLine (l : Str) : Option Own :=
  match stripPrefix? c!"_callArgVal" l with
  | none => none
  | some r => if r.dropWhile isDigit = c!" = _callCollector" ++ r.takeWhile isDigit ++ c!".response().getvalue()" then
      some (.setArgVal (parseDecimal (r.takeWhile isDigit))) else none

/-- `_currentCallArgname<n> = 'x'` -/
def noteLine (l : Str) : Option Own :=
  match stripPrefix? c!"_currentCallArgname" l with
  | none => none
  | some r => (between c!" = '" c!"'" (r.dropWhile isDigit)).map (.noteArg (parseDecimal (r.takeWhile isDigit)))

/-- `_callKws<n>['x'] = _callCollector<n>.response().getvalue()` -/
def kwLine (l : Str) : Option Own :=
  match stripPrefix? c!"_callKws" l with
  | none => none
  | some r => (between c!"['" (c!"'] = _callCollector" ++ r.takeWhile isDigit ++ c!".response().getvalue()") (r.dropWhile isDigit)).map
      (.setKw (parseDecimal (r.takeWhile isDigit)))

/-- The forms of such lines. -/
def ownForms (l : Str) : List (Option Own) :=
  [(numbered c!"_orig_trans" c!" = trans" l).map .saveTrans,
   (numbered c!"_wasBuffering" c!" = self._CHEETAH__isBuffering" l).map .saveBuffering,
   if l = c!"self._CHEETAH__isBuffering = True" then some .setBuffering else none,
   (numbered c!"trans = _captureCollector" c!" = DummyTransaction()" l).map (.newCollector false),
   (numbered c!"trans = _callCollector" c!" = DummyTransaction()" l).map (.newCollector true),
   (numbered c!"write = _captureCollector" c!".response().write" l).map (.bindCollector false),
   (numbered c!"write = _callCollector" c!".response().write" l).map (.bindCollector true),
   (numbered c!"trans = _orig_trans" [] l).map .restoreTrans,
   if l = c!"write = trans.response().write" then some .bindWrite else none,
   (numbered c!"self._CHEETAH__isBuffering = _wasBuffering" c!" " l).map .restoreBuffering,
   argValLine l,
   (numbered c!"del _orig_trans" [] l).map .delTrans,
   (numbered c!"del _wasBuffering" [] l).map .delBuffering,
   (numbered c!"del _captureCollector" [] l).map (.delCollector false),
   (numbered c!"del _callCollector" [] l).map (.delCollector true),
   (numbered c!"del _callArgVal" [] l).map .delArgVal,
   (numbered c!"_orig_filter" c!" = _filter" l).map .saveFilter,
   if l = c!"_filter = self._CHEETAH__initialFilter" then some .initialFilter else none,
   (numbered c!"_filter = self._CHEETAH__currentFilter = _orig_filter" [] l).map .restoreFilter,
   (between c!"_filter = self._CHEETAH__currentFilter = " c!"(self).filter" l).map .filterClass,
   (between c!"filterName = " [] l).map .filterName,
   (numbered c!"_callKws" c!" = {}" l).map .newKws,
   noteLine l,
   kwLine l,
   (numbered c!"del _callKws" [] l).map .delKws,
   captureLine l]

/-- Which line of the compiler's own it is, if it is one. -/
def ownOf (l : Str) : Option Own := (ownForms l).findSome? id

/-- What the compiler calls the texts that a `#call` gives to its function does not stand in the expression. -/
def Apart (e : Str) : Prop := cut c!"(_callArgVal" e = none ∧ cut c!"**_callKws" e = none

instance (e : Str) : Decidable (Apart e) := inferInstanceAs (Decidable (cut _ e = none ∧ cut _ e = none))

/-- No line ends in a text. -/
def OneLine (s : Str) : Prop := ∀ d ∈ s, d ≠ '\r' ∧ d ≠ '\n'

/-- There is something on the current line (`bol`: we were at the start of a line before the text). -/
def Busy (bol : Bool) (t : Str) : Prop := (bol = false ∧ OneLine t) ∨ ∃ u c v, t = u ++ c :: v ∧ isSpace c = false ∧ OneLine v

/-- The text contains `else`, blanks and `if`. -/
def ElseIf (s : Str) : Prop := ∃ a w b, s = a ++ c!"else" ++ w ++ c!"if" ++ b ∧ w ≠ [] ∧ Blanks w

def Head.Ok (tok : Str → Option Nat) (z : Char) : Head → Prop
  | .if_ e => Tidy tok z e
  | .unless_ e => Tidy tok z e
  | .while_ e => Tidy tok z e
  | .repeat_ e => Tidy tok z e
  | .for_ x e => Tidy tok z e ∧ Word x ∧ x ≠ c!"in" ∧ startsWith x c!"__i" = false
  | .try_ => True

def Part.Ok (tok : Str → Option Nat) (z : Char) : Part → Prop
  | .elif e => Tidy tok z e ∧ ¬ ElseIf e.py
  | .except_ (some e) => Tidy tok z e
  | _ => True

/-- `#elif` only after `#if` and `#unless`, `#except` and `#finally` only after `#try`; `stage` is 1 after `#else` and 2 after `#finally`. -/
def Part.Fits (p : Part) (h : Head) (stage : Nat) : Prop :=
  match h, p with
  | .if_ _, .elif _ => stage = 0
  | .unless_ _, .elif _ => stage = 0
  | .try_, .except_ _ => stage = 0
  | .try_, .finally_ => stage ≤ 1
  | _, .els => stage = 0
  | _, _ => False

def Part.stage : Part → Nat
  | .els => 1
  | .finally_ => 2
  | _ => 0

/-- The first other part is an `#except` or a `#finally`. -/
def More.Handles : More → Prop
  | .part _ (.except_ _) _ _ => True
  | .part _ .finally_ _ _ => True
  | _ => False

/-- There is nothing but comments and `#def`s. -/
def Doc.Empty : Doc → Prop
  | .done t => t = []
  | .slurp t _ rest => t = [] ∧ rest.Empty
  | .raw t _ s _ rest => t = [] ∧ s = [] ∧ rest.Empty
  | .region t _ (.def_ _ _) _ _ rest => t = [] ∧ rest.Empty
  | .note t _ _ rest => t = [] ∧ rest.Empty
  | .remark t _ rest => t = [] ∧ rest.Empty
  | .notes t _ _ _ rest => t = [] ∧ rest.Empty
  | .aside t _ rest => t = [] ∧ rest.Empty
  | _ => False

def Stm.Ok (tok : Str → Option Nat) (z : Char) : Stm → Prop
  | .set x op e => Tidy tok z e ∧ Dotted x ∧ headWord x ∉ reserved ∧ ownOf (x ++ c!" " ++ op ++ c!" " ++ e.py) = none ∧ op ∈ setOps ∧ ∀ r, tok (op ++ ' ' :: r) = some op.length
  | .ternary c a b => (c.Ok tok true 't' ∧ c.keys = [] ∧ c.py.getLast? ≠ some ':') ∧ (a.Ok tok true 'e' ∧ a.keys = [] ∧ Apart (' ' :: a.py)) ∧
    b.Ok tok true z ∧ b.keys = [] ∧ Apart (' ' :: b.py)
  | .silent e => Tidy tok z e ∧ headWord e.py ∉ reserved ∧ e.py.takeWhile (fun c => !isSpace c) ∉ closeable ∧ ownOf e.py = none
  | .echo e => Tidy tok z e ∧ e.py.takeWhile (fun c => !isSpace c) ∉ closeable ∧ Apart e.py
  | .python n e => Tidy tok z e ∧ n ∈ [c!"del", c!"assert", c!"raise"] ∧ ownOf (n ++ c!" " ++ e.py) = none
  | .setGlobal x op e => Tidy tok z e ∧ Word x ∧ ownOf (c!"self._CHEETAH__globalSetVars[\"" ++ x ++ c!"\"] " ++ op ++ c!" " ++ e.py) = none ∧ op ∈ setOps ∧
    ∀ r, tok (op ++ ' ' :: r) = some op.length
  | .include_ _ _ e => Tidy tok z e ∧ startsWith e.src c!"raw" = false ∧ startsWith e.src c!"source" = false
  | _ => True

/-- Names that the compiler gives to arguments and variables of its own. -/
def ownNames : List Str := [c!"self", c!"trans", c!"SL", c!"searchList", c!"KWS", c!"write", c!"_filter", c!"_dummyTrans", c!"_v"]

/-- The arguments stand in the text, which ends with the closing parenthesis. -/
def Sig.Ok (tok : Str → Option Nat) : Sig → Prop
  | .bare => True
  | .args s as => OneLine s ∧ (∀ r, Written tok ('\n' :: r) as (s ++ '\n' :: r)) ∧ ∀ a ∈ as, Word a.1 ∧ a.1 ∉ ownNames

def Region.Ok (tok : Str → Option Nat) : Region → Prop
  | .def_ n sig => Word n ∧ n ≠ c!"respond" ∧ sig.Ok tok
  | .block n sig => Word n ∧ n ≠ c!"respond" ∧ sig.Ok tok

/-- The variable of a `#capture` is not one of the compiler's own. -/
def Wrap.Ok (tok : Str → Option Nat) (z : Char) : Wrap → Prop
  | .capture x => Word x ∧ x ≠ c!"for" ∧ x ≠ c!"then" ∧ x ∉ reserved ∧ x ∉ [c!"trans", c!"_filter", c!"filterName"]
  | .call f none => Dotted f
  | .call f (some e) => Dotted f ∧ Tidy tok z e
  | .filter n => Word n
  | .klass k => Dotted k

mutual
/-- There is no `#def` in it. -/
def Doc.NoDef : Doc → Prop
  | .done _ => True
  | .place _ _ _ rest => rest.NoDef
  | .stm _ _ _ rest => rest.NoDef
  | .note _ _ _ rest => rest.NoDef
  | .remark _ _ rest => rest.NoDef
  | .notes _ _ _ _ rest => rest.NoDef
  | .aside _ _ rest => rest.NoDef
  | .slurp _ _ rest => rest.NoDef
  | .raw _ _ _ _ rest => rest.NoDef
  | .region _ _ r body _ rest => r.name ≠ c!"def" ∧ body.NoDef ∧ rest.NoDef
  | .block _ _ _ body more _ rest => body.NoDef ∧ more.NoDef ∧ rest.NoDef
  | .wrap _ _ _ _ body _ rest => body.NoDef ∧ rest.NoDef
  | .keywords _ _ _ _ _ first args _ rest => first.NoDef ∧ args.NoDef ∧ rest.NoDef
def More.NoDef : More → Prop
  | .fin => True
  | .part _ _ body more => body.NoDef ∧ more.NoDef
def Kws.NoDef : Kws → Prop
  | .last => True
  | .arg _ _ body more => body.NoDef ∧ more.NoDef
end

/-- The text before the first piece. -/
def Doc.text : Doc → Str
  | .done t => t
  | .place t _ _ _ => t
  | .stm t _ _ _ => t
  | .note t _ _ _ => t
  | .remark t _ _ => t
  | .notes t _ _ _ _ => t
  | .aside t _ _ => t
  | .slurp t _ _ => t
  | .raw t _ _ _ _ => t
  | .region t _ _ _ _ _ => t
  | .block t _ _ _ _ _ _ => t
  | .wrap t _ _ _ _ _ _ => t
  | .keywords t _ _ _ _ _ _ _ _ => t

/-- May follow the `#` that closes a directive without being taken for a comment. -/
def Doc.Joins (d : Doc) : Prop :=
  d.text.head? ≠ some '#' ∧
  match d with
  | .remark t _ _ => t ≠ []
  | .aside t _ _ => t ≠ []
  | .slurp t _ _ => t ≠ []
  | _ => True

/-- May stand in a comment `#*s*#`: no other one starts or ends in it, and it does not begin as the comments do that the compiler takes for
doc strings and the like. -/
def Inner (s : Str) : Prop :=
  (∃ c r, s = c :: r ∧ c ∈ c!" \n") ∧ NoBs s ∧ (¬ ∃ u v, s ++ c!"*" = u ++ c!"#*" ++ v) ∧ ¬ ∃ u v, s = u ++ c!"*#" ++ v

/-- The directive may follow the text `t`; `bol`: we were at the start of a line before the text. -/
def Lead.Fits : Lead → Bool → Str → Prop
  | .own i, bol, t => Blanks i ∧ AtBol bol t
  | .inl, _, t => ∀ c, t.getLast? = some c → c ∉ c!"#$<"
  | .tail, bol, t => (∀ c, t.getLast? = some c → c ∉ c!"#$<") ∧ Busy bol t

/-- The source `d` may follow the directive; `more`: something follows `d`. A closing `#` is not the end of the whole
source. -/
def Lead.Then : Lead → Doc → Bool → Prop
  | .own _, _, _ => True
  | .inl, d, more => d.Joins ∧ (d.src ≠ [] ∨ more = true)
  | .tail, d, _ => ∃ r, d.src = '\n' :: r

/-- Where the next part of a block stands: `j` is where its `#end` stands. -/
def More.next : More → Lead → Lead
  | .fin, j => j
  | .part l _ _ _, _ => l

def Kws.next : Kws → Lead → Lead
  | .last, j => j
  | .arg l _ _ _, _ => l

mutual
/-- Well-formed: directives stand where they may, bodies are not empty; `bol`: we are at the start of a
line, `nxt`: the place of the directive that follows. -/
def Doc.Ok (tok : Str → Option Nat) : Doc → Bool → Option Lead → Prop
  | .done t, bol, nxt => Verbatim t ∧ ∀ l, nxt = some l → l.Fits bol t
  | .place t _ p rest, _, nxt => Verbatim t ∧ p.Ok tok rest.src ∧ Apart p.py ∧ rest.Ok tok false nxt
  | .stm t l s rest, bol, nxt => Verbatim t ∧ l.Fits bol t ∧ s.Ok tok l.stop ∧ l.Then rest nxt.isSome ∧ rest.Ok tok l.bol nxt
  | .note t i s rest, bol, nxt => Verbatim t ∧ Blanks i ∧ AtBol bol t ∧ OneLine s ∧ (s = [] ∨ ∃ r, s = ' ' :: r) ∧ rest.Ok tok true nxt
  | .remark t s rest, bol, nxt => Verbatim t ∧ (∀ c, t.getLast? = some c → c ∉ c!"#$<") ∧ Busy bol t ∧ OneLine s ∧ (∃ r, s = ' ' :: r) ∧ NoBs s ∧
      ((rest.src = [] ∧ nxt = none) ∨ ∃ r, rest.src = '\n' :: r) ∧ rest.Ok tok false nxt
  | .notes t i s j rest, bol, nxt => Verbatim t ∧ Blanks i ∧ AtBol bol t ∧ Inner s ∧ Blanks j ∧ rest.Ok tok true nxt
  | .aside t s rest, bol, nxt => Verbatim t ∧ (∀ c, t.getLast? = some c → c ∉ c!"#$<") ∧ (Busy bol t ∨ OneLine s) ∧ Inner s ∧
      (∃ j c r, rest.src = j ++ c :: r ∧ Blanks j ∧ isSpace c = false) ∧ rest.Ok tok false nxt
  | .slurp t _ rest, bol, nxt => Verbatim t ∧ (∀ c, t.getLast? = some c → c ∉ c!"#$<") ∧ Busy bol t ∧ rest.Ok tok true nxt
  | .raw t i s j rest, bol, nxt => Verbatim t ∧ Blanks i ∧ AtBol bol t ∧ AtBol true s ∧ (¬ ∃ u v, s = u ++ c!"#end" ++ v) ∧ Blanks j ∧ rest.Ok tok true nxt
  | .region t i r body j rest, bol, nxt => Verbatim t ∧ Blanks i ∧ AtBol bol t ∧ r.Ok tok ∧ (r.name = c!"def" → body.NoDef) ∧ body.Ok tok true (some (.own j)) ∧
      rest.Ok tok true nxt
  | .block t l h body more j rest, bol, nxt => Verbatim t ∧ l.Fits bol t ∧ h.Ok tok l.stop ∧ ¬ body.Empty ∧ l.Then body true ∧ body.Ok tok l.bol (some (more.next j)) ∧
      more.Ok tok h 0 j ∧ (h.name = c!"try" → more.Handles) ∧ j.Then rest nxt.isSome ∧ rest.Ok tok j.bol nxt
  | .wrap t l _ w body j rest, bol, nxt => Verbatim t ∧ l.Fits bol t ∧ w.Ok tok l.stop ∧ l.Then body true ∧ body.Ok tok l.bol (some j) ∧
      j.Then rest nxt.isSome ∧ rest.Ok tok j.bol nxt
  | .keywords t l _ f as first args j rest, bol, nxt => Verbatim t ∧ l.Fits bol t ∧ (Wrap.call f as).Ok tok l.stop ∧ Apart ('(' :: as.elim [] Ex.py) ∧ l.Then first true ∧
      first.Ok tok l.bol (some (args.next j)) ∧ args ≠ .last ∧ args.Ok tok j ∧ j.Then rest nxt.isSome ∧ rest.Ok tok j.bol nxt
def More.Ok (tok : Str → Option Nat) : More → Head → Nat → Lead → Prop
  | .fin, _, _, _ => True
  | .part l p body more, h, stage, j => p.Ok tok l.stop ∧ p.Fits h stage ∧ ¬ body.Empty ∧ l.Then body true ∧ body.Ok tok l.bol (some (more.next j)) ∧ more.Ok tok h p.stage j
def Kws.Ok (tok : Str → Option Nat) : Kws → Lead → Prop
  | .last, _ => True
  | .arg l n body more, j => Word n ∧ l.Then body true ∧ body.Ok tok l.bol (some (more.next j)) ∧ more.Ok tok j
end

/-! ### The commands -/

def textC (s : Str) : List Cmd := if s = [] then [] else [.strConst s]

/-- What the compiler gets for a directive with a block. -/
def Head.arg : Head → Str
  | .if_ e => c!"if " ++ e.py
  | .unless_ e => e.py
  | .while_ e => c!"while " ++ e.py
  | .repeat_ e => e.py
  | .for_ x e => c!"for " ++ x ++ c!" in " ++ e.py
  | .try_ => c!"try"

def Part.arg : Part → Str
  | .elif e => c!"elif " ++ e.py
  | .els => c!"else"
  | .except_ none => c!"except"
  | .except_ (some e) => c!"except " ++ e.py
  | .finally_ => c!"finally"

def Stm.cmd : Stm → Cmd
  | .set x op e => .set x op (' ' :: e.py) 0
  | .setGlobal x op e => .set x op (' ' :: e.py) 1
  | .ternary c a b => .ternary (c!"if " ++ c.py) (' ' :: a.py) (' ' :: b.py)
  | .silent e => .simple c!"silent" e.py
  | .echo e => .simple c!"echo" e.py
  | .python n e => .simple n (n ++ c!" " ++ e.py)
  | .pass_ => .simple c!"pass" c!"pass"
  | .break_ => .simple c!"break" c!"break"
  | .continue_ => .simple c!"continue" c!"continue"
  | .stop => .simple c!"stop" c!"stop"
  | .include_ raw source e => .include_ e.py source raw

/-- What the compiler gets at the start and at the end. -/
def Region.opens : Region → List Cmd
  | .def_ n sig => [.startMethod n sig.as]
  | .block n sig => [.startMethod n sig.as]

def Region.closes : Region → List Cmd
  | .def_ _ _ => [.closeDef]
  | .block _ _ => [.closeBlock]

/-- What the compiler gets at the start and at the end of a directive that takes the output of its body. -/
def Wrap.opens : Wrap → Cmd
  | .capture x => .startCapture x
  | .call f none => .startCall (c!"VFFSL(SL,\"" ++ f ++ c!"\",False)") []
  | .call f (some e) => .startCall (c!"VFFSL(SL,\"" ++ f ++ c!"\",False)") e.py
  | .filter n => .setFilter n false
  | .klass k => .setFilter (c!"VFFSL(SL,\"" ++ k ++ c!"\",True)") true

def Wrap.closes : Wrap → Cmd
  | .capture _ => .endCapture
  | .call _ _ => .endCall
  | .filter _ => .closeFilter
  | .klass _ => .closeFilter

/-- On a line of its own the directive takes the blanks before it with it. -/
def Lead.ws : Lead → List Cmd
  | .own _ => [.handleWS]
  | .inl => []
  | .tail => []

mutual
/-- The commands for a source that is followed by the blanks `i` of the next directive. -/
def Doc.cmds : Doc → Str → List Cmd
  | .done t, i => textC (said t ++ i)
  | .place t sl p rest, i => textC (said t) ++ .placeholder p.py (p.src sl) none .none sl :: rest.cmds i
  | .stm t l s rest, i => textC (said t ++ l.pre) ++ l.ws ++ s.cmd :: rest.cmds i
  | .note t k s rest, i => textC (said t ++ k) ++ .handleWS :: .comment (s ++ c!"\n") :: rest.cmds i
  | .remark t s rest, i => textC (said t) ++ .comment s :: rest.cmds i
  | .notes t k s _ rest, i => textC (said t ++ k) ++ .handleWS :: .comment s :: rest.cmds i
  | .aside t s rest, i => textC (said t) ++ .comment s :: rest.cmds i
  | .slurp t _ rest, i => textC (said t) ++ .commit :: rest.cmds i
  | .raw t k s _ rest, i => textC (said t ++ k) ++ .handleWS :: .handleWS :: .raw s :: rest.cmds i
  | .region t k r body j rest, i => textC (said t ++ k) ++ .handleWS :: (r.opens ++ body.cmds j ++ .handleWS :: (r.closes ++ rest.cmds i))
  | .block t l h body more j rest, i => textC (said t ++ l.pre) ++ l.ws ++ .indenting h.name h.arg ::
      (body.cmds (more.next j).pre ++ more.cmds j ++ j.ws ++ .commit :: .dedent :: rest.cmds i)
  | .wrap t l _ w body j rest, i => textC (said t ++ l.pre) ++ l.ws ++ w.opens :: (body.cmds j.pre ++ j.ws ++ w.closes :: rest.cmds i)
  | .keywords t l _ f as first args j rest, i => textC (said t ++ l.pre) ++ l.ws ++ (Wrap.call f as).opens ::
      (first.cmds (args.next j).pre ++ args.cmds j ++ j.ws ++ .endCall :: rest.cmds i)
def More.cmds : More → Lead → List Cmd
  | .fin, _ => []
  | .part l p body more, j => l.ws ++ .reindenting p.name p.arg true :: (body.cmds (more.next j).pre ++ more.cmds j)
def Kws.cmds : Kws → Lead → List Cmd
  | .last, _ => []
  | .arg l n body more, j => .callArg n :: (l.ws ++ body.cmds (more.next j).pre ++ more.cmds j)
end

/-! ### Steps of the parser -/

/-- The tokenizer reads identifiers and brackets as tokens; the default tokens; no directive is disabled. -/
structure Tame (h : Env) : Prop extends Plain h where
  brackets : TokBrackets h.tok
  markers : h.markers = none

/-- The parser gets from one state to another. -/
def Reaches (h : Env) (s s' : PS) : Prop :=
  ∀ k, h.src.length + 3 ≤ k + s.pos → ∃ k', h.src.length + 3 ≤ k' + s'.pos ∧ h.loop k s = h.loop k' s'

theorem Reaches.refl (h : Env) (s : PS) : Reaches h s s := fun k hk => ⟨k, hk, rfl⟩

theorem Reaches.trans {h : Env} {s t u : PS} (h1 : Reaches h s t) (h2 : Reaches h t u) : Reaches h s u := by
  intro k hk
  obtain ⟨k1, e1, e2⟩ := h1 k hk
  obtain ⟨k2, e3, e4⟩ := h2 k1 e1
  exact ⟨k2, e3, e2.trans e4⟩

theorem Blanks.plain {i : Str} (hi : Blanks i) : ∀ c ∈ i, c ∉ c!"#$<\\" := by
  intro c hc hm
  have := hi c hc
  simp only [List.mem_cons, List.not_mem_nil, or_false] at this hm
  rcases this with rfl | rfl | rfl <;> simp at hm

theorem AtBol.last {bol : Bool} {t : Str} (h : AtBol bol t) : ∀ c, t.getLast? = some c → c ∉ c!"#$<" := by
  intro c hc
  rcases h with ⟨rfl, _⟩ | h
  · simp at hc
  · rw [h] at hc
    injection hc with hc
    subst hc
    decide

theorem Verbatim.blanks {bol : Bool} {t i : Str} (ht : Verbatim t) (h : AtBol bol t) (hi : Blanks i) : Verbatim (t ++ i) := ht.append hi.plain h.last

theorem Verbatim.blanks_last {bol : Bool} {t i : Str} (h : AtBol bol t) (hi : Blanks i) : ∀ c, (t ++ i).getLast? = some c → c ∉ c!"#$<" := by
  intro c hc
  rcases List.getLast?_append (l := t) (l' := i) ▸ hc with hc
  cases hl : i.getLast? with
  | none => rw [hl] at hc; exact h.last c (by simpa using hc)
  | some d =>
    rw [hl] at hc
    simp at hc
    subst hc
    have := hi.plain d (List.mem_of_getLast? hl)
    simp at this ⊢
    tauto

theorem Lead.Fits.last {l : Lead} {bol : Bool} {t : Str} (h : l.Fits bol t) : ∀ c, (t ++ l.pre).getLast? = some c → c ∉ c!"#$<" := by
  cases l with
  | own i => exact Verbatim.blanks_last h.2 h.1
  | inl => simpa [Lead.pre, Lead.Fits] using h
  | tail => simpa [Lead.pre] using h.1

theorem Lead.Fits.plain {l : Lead} {bol : Bool} {t : Str} (h : l.Fits bol t) : Blanks l.pre := by
  cases l with
  | own i => exact h.1
  | inl => intro c hc; simp [Lead.pre] at hc
  | tail => intro c hc; simp [Lead.pre] at hc

theorem Lead.Fits.verbatim {l : Lead} {bol : Bool} {t : Str} (h : l.Fits bol t) (ht : Verbatim t) : Verbatim (t ++ l.pre) := by
  cases l with
  | own i => exact ht.blanks h.2 h.1
  | inl => simpa [Lead.pre] using ht
  | tail => simpa [Lead.pre] using ht

variable {h : Env}

theorem names_std (hp : Plain h) : (h.px h.src.length).cfg.names = stdNames := by show h.cfg.names = _; rw [hp.cfg]; rfl

/-- Text up to a tag or the end. -/
theorem reach_text (hp : Tame h) {a t b : Str} {s : PS} (hs : h.src = a ++ t ++ b) (hpos : s.pos = a.length) (hbp : s.bp = h.src.length)
    (ht : Verbatim t) (hb : b = [] ∨ TagStart stdNames (a ++ t) b) (hl : ∀ c, t.getLast? = some c → c ∈ c!"#$<" → b = [] ∨ ∃ r, b = '$' :: r) :
    Reaches h s (s.emit (textC (said t)) (a ++ t).length) := by
  by_cases hne : t = []
  · subst hne
    have : s.emit (textC (said [])) (a ++ []).length = s := by simp [PS.emit, textC, ← hpos, said_nil.2 rfl]
    rw [this]
    exact Reaches.refl h s
  have hnames := names_std hp.toPlain
  have hno : ∀ u v, t = u ++ v → v ≠ [] → ¬ TagStart stdNames (a ++ u) (v ++ b) := ht.no_tag a b hl
  have h1 := C34_text_between_tags (h.px h.src.length).toCx hp.toPlain.std a t b hs (by rw [hnames]; exact hno) (by rw [hnames]; exact hb)
  obtain ⟨o, ho, h2⟩ := tagAt_spec hp.toPlain.std (a := a) (b := t ++ b) (by rw [← List.append_assoc]; exact hs)
  have hnone : o = none := by
    cases o with
    | none => rfl
    | some v =>
      have := h2.1 (by simp)
      rw [hnames] at this
      have h3 := hno [] t rfl hne
      rw [List.append_nil] at h3
      exact absurd this h3
  subst hnone
  have hlen : 0 < t.length := List.length_pos_iff.2 hne
  intro k hk
  obtain ⟨k, rfl⟩ : ∃ j, k = j + 1 := ⟨k - 1, by rw [hpos, hs] at hk; simp at hk; omega⟩
  refine ⟨k, ?_, ?_⟩
  · simp only [PS.emit, List.length_append]; omega
  · rw [Env.loop, hbp, hpos, if_neg (by rw [hs]; simp [hne])]
    have e : said t = unescapeOnce '$' '#' t := rfl
    simp only [ho, bind, Except.bind, reduceCtorEq, if_false, Px.simple, h1, Except.map, textC, if_neg (mt said_nil.1 hne)]
    rw [e]

theorem Place.opening {tok : Str → Option Nat} {p : Place} {r : Str} (hp : p.Ok tok r) (sl : Bool) :
    ∃ o d w, p.src sl = '$' :: (if sl then c!"!" else []) ++ o ++ d :: w ∧ Letter d ∧ (o = [] ∨ o = c!"{") := by
  have hn : ∀ {n : Name}, n.Ok tok → ∃ d w, n.src = d :: w ∧ Letter d := by
    intro n hn
    obtain ⟨d, w', h1, h2⟩ := Name.head hn
    exact ⟨d, w', h1, (identStart_iff d).1 h2⟩
  cases p with
  | short n =>
    obtain ⟨d, w, h1, h2⟩ := hn hp.1
    exact ⟨[], d, w, by rw [Place.src, h1]; simp, h2, .inl rfl⟩
  | long n e =>
    obtain ⟨d, w, h1, h2⟩ := hn hp.1
    exact ⟨c!"{", d, w ++ e.src ++ c!"}", by rw [Place.src, h1]; simp, h2, .inr rfl⟩

theorem tag_place {tok : Str → Option Nat} {a : Str} {p : Place} {r : Str} {sl : Bool} (ha : NoBs a) (hp : p.Ok tok r) : TagStart stdNames a (p.src sl ++ r) := by
  obtain ⟨o, d, w, h1, h2, h3⟩ := Place.opening hp sl
  rw [h1]
  have := TagStart.placeholder (names := stdNames) a (if sl then c!"!" else []) [] o d (w ++ r) ha (by cases sl <;> simp) .none (by
    rcases h3 with rfl | rfl
    · exact .none
    · exact .bracket '{' [] (by simp) (by simp)) h2
  simpa using this

theorem Place.noBs {tok : Str → Option Nat} {p : Place} {r : Str} {sl : Bool} (hp : p.Ok tok r) : NoBs (p.src sl) := by
  have hn : ∀ {n : Name}, n.Ok tok → NoBs n.src := Name.noBs
  cases p with
  | short n =>
    rw [Place.src]
    refine NoBs.append (by cases sl <;> (unfold NoBs; decide)) (hn hp.1)
  | long n e =>
    rw [Place.src, show ('$' :: (if sl then c!"!" else []) ++ '{' :: (n.src ++ e.src ++ c!"}")) = ('$' :: (if sl then c!"!" else []) ++ '{' :: (n.src ++ e.src)) ++ c!"}" by simp]
    exact NoBs.snoc _ (by decide)

/-- A placeholder. -/
theorem reach_place (hp : Tame h) {a r : Str} {p : Place} {sl : Bool} {s : PS} (hs : h.src = a ++ p.src sl ++ r) (hpos : s.pos = a.length) (hbp : s.bp = h.src.length)
    (hst : s.st = fullSt) (ha : NoBs a) (hok : p.Ok h.tok r) :
    Reaches h s (s.emit [.placeholder p.py (p.src sl) none .none sl] (a ++ p.src sl).length) := by
  have hx := hp.toPlain.std
  obtain ⟨ns, hcfg⟩ := id hx.cfg
  have hph := placeholder_to hx hp.brackets hok (a := a) (sl := sl) hs ha
  obtain ⟨o, d, w, h1, h2, h3⟩ := Place.opening hok sl
  generalize hX : h.px h.src.length = x at hx hcfg hph
  have hsx : x.src = a ++ p.src sl ++ r := by rw [← hX]; exact hs
  have htag : x.tagAt a.length = .ok (some .varPlaceholder) := by
    have h0 : x.src = a ++ '$' :: ((p.src sl).drop 1 ++ r) := by
      rw [hsx, h1]; simp
    have hco : (x.matchTok x.cfg.com a.length).isSome = false := by
      rw [matchTok_none h0 (by rw [hcfg]; simp [Cfg.std]) (by rw [hcfg]; simp [Cfg.std])]; rfl
    have hml : (x.matchTok x.cfg.mlStart a.length).isSome = false := by
      rw [matchTok_none h0 (by rw [hcfg]; simp [Cfg.std]) (by rw [hcfg]; simp [Cfg.std])]; rfl
    have hv : x.matchVarStart a.length = true := by
      refine (matchVarStart_iff (by rw [hcfg]; rfl) (b := p.src sl ++ r) (by rw [hsx]; simp)).2 ⟨ha, if sl then c!"!" else [], [], o, d, w ++ r, by cases sl <;> simp, .none, ?_, h2, ?_⟩
      · rcases h3 with rfl | rfl
        · exact .none
        · exact .bracket '{' [] (by simp) (by simp)
      · rw [h1]; simp
    unfold Cx.tagAt
    simp [hco, hml, hv]
  have hplen : 0 < (p.src sl).length := by rw [h1]; simp
  have hlen := congrArg List.length hs
  rw [List.length_append, List.length_append] at hlen
  intro k hk
  obtain ⟨k, rfl⟩ : ∃ j, k = j + 1 := ⟨k - 1, by omega⟩
  refine ⟨k, ?_, ?_⟩
  · simp only [PS.emit, List.length_append]; omega
  · rw [Env.loop, hbp, hpos, if_neg (by omega), hX, hst]
    simp only [htag, bind, Except.bind, reduceCtorEq, if_false, Px.simple, hph, Except.map, Option.some.injEq]

end Cheetah.Parser
