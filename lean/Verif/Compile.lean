import Verif.StrConst
import Verif.Dict
/-
Model of the code generator for template methods: MethodCompiler and
AutoMethodCompiler of Cheetah/Compiler.py (374-1185) together with the calls the
parser makes on it for each directive (Cheetah/Parser.py 1642-1870, 2246-2785).

A template is a tree `T` of directives; `gen` replays, in order, the calls the parser
makes for it on the compiler object; the compiler object is the state machine `MC`
whose chunks are the lines of the generated Python method.

Simplifications, for the whole file:
* Expressions and simple statements written by the template author are opaque: their
  translation (`$x.y` to NameMapper calls) is modelled elsewhere.
* Chunks that consist of a comment or are blank are not recorded: Python ignores them,
  whatever their indentation.  So are trailing comments (`appendToPrevChunk`).
* A chunk is one logical line at a nesting level; the indentation text is the level times a
  non-empty `indentationStep`.
-/
namespace Cheetah.Compile

/-- What the model leaves open: the author's expressions and what Python makes of them. All
theorems are about every such `Lang`.  `σ` is the state that the author's code can see:
variables, search list, attributes, caches, the outside world.
Models Compiler.py 443-468 (filtering), 785-857 (cache regions), 909-946 (calls) say what is asked of it. -/
structure Lang where
  /-- expressions, simple statements, assignment targets, function expressions -/
  (E S Tgt Fn : Type)
  /-- `except` clauses, values, exceptions, filters, names of filters, state -/
  (M V X F FName σ : Type)
  eval : E → σ → Except X V × σ
  exec : S → σ → Except X Unit × σ
  /-- the text that the statement, run in that state, writes to the transaction in force
  (`self.name(trans=trans)`, `self._handleCheetahInclude(…, trans=trans, …)`) -/
  says : S → σ → Str
  /-- assign to a loop variable or to the target of `#capture` -/
  assign : Tgt → V → σ → Except X Unit × σ
  /-- call with the collected text, or with the collected keyword arguments -/
  call : Fn → Str → σ → Except X V × σ
  callKw : Fn → List (Str × Str) → σ → Except X V × σ
  truth : V → Bool
  isNone : V → Bool
  ofStr : Str → V
  /-- what a `for` loop goes through; `range(v)` -/
  iter : V → Except X (List V)
  range : V → Except X (List V)
  /-- `_filter(v)` and `str(v)` -/
  filter : F → V → σ → Except X Str × σ
  str : V → σ → Except X Str × σ
  /-- the filter of that name, from the template's filters or the filter library -/
  getFilter : FName → σ → Except X F × σ
  /-- does the `except` clause catch the exception; is it a `NotFound` -/
  catches : M → X → Bool
  notFound : X → Bool
  /-- a cache region: the stored output if it is to be shown, `none` if the body has to run;
  store new output; move the expiry time -/
  cacheProbe : Nat → σ → Except X (Option Str) × σ
  cacheStore : Nat → Str → σ → Except X Unit × σ
  cacheExpiry : Nat → σ → Except X Unit × σ
  /-- NameError and SyntaxError -/
  nameError : X
  syntaxError : X

variable (L : Lang)

/-! ### Templates -/

/-- Directives with a body that opens a block of Python code.
Models Parser.py 1785-1821, 2702-2750; Compiler.py 608-651, 671-672, 686-687. -/
inductive Open where
  | if_ (c : L.E)
  | unless (c : L.E)
  | while_ (c : L.E)
  | for_ (x : L.Tgt) (e : L.E)
  /-- `#repeat e`; the compiler numbers its loop variables -/
  | repeat_ (e : L.E)
  | try_

/-- Directives that end one block and open the next.
Models Parser.py 1785-1821; Compiler.py 664-669, 689-693. -/
inductive Cont where
  | elif (c : L.E)
  | else_
  | except_ (m : L.M)
  | finally_

/-- The argument of `#filter`: `None`, a name, or an expression for a class.
Models Parser.py 2602-2633; Compiler.py 1015-1050. -/
inductive FilterArg where
  | none
  | named (n : L.FName)
  | klass (n : L.FName)

mutual
/-- A template body. Regions carry the number (`ID`) that the compiler draws at random for
them.
Models Parser.py 1537-1563, 1627-1640, 1670-1703, 1767-1870, 2246-2283, 2513-2750. -/
inductive T where
  | skip
  | seq (a b : T)
  /-- literal text -/
  | text (s : Str)
  /-- `$e`, `$!e` (silent), `#echo e` -/
  | place (e : L.E) (silent : Bool)
  /-- `#if c then a else b` -/
  | ternary (c a b : L.E)
  /-- `#set`, `#silent`, `#del`, `#assert`, `#raise`, `#pass`: one Python statement -/
  | stmt (s : L.S)
  /-- a comment: a line in the generated code that Python ignores -/
  | note
  | break_
  | continue_
  | stop
  /-- `#if ... #elif ... #else ... #end if` and the like; `short` is the one-line form
  `#if c: ...` -/
  | compound (short : Bool) (o : Open L) (body : T) (tail : Tail)
  | capture (id : Nat) (x : L.Tgt) (body : T)
  /-- `#call f ... #end call` -/
  | call (id : Nat) (f : L.Fn) (body : T)
  /-- `#call f ... #arg name ... #arg name ... #end call`; `pre` comes before the first
  `#arg` -/
  | callKw (id : Nat) (f : L.Fn) (pre : T) (name : Str) (body : T) (more : Args)
  | filter (id : Nat) (f : FilterArg L) (body : T)
  | cache (id : Nat) (timed : Bool) (body : T)
/-- Models Parser.py 1785-1821, 2702-2750. -/
inductive Tail where
  | nil
  | cons (k : Cont L) (body : T) (tail : Tail)
/-- Models Parser.py 2544-2600. -/
inductive Args where
  | nil
  | cons (name : Str) (body : T) (more : Args)
end

/-! ### Generated Python -/

/-- Which collector a generated variable name refers to: `_captureCollector`,
`_callCollector`, `_cacheCollector_`.
Models Compiler.py 833, 875, 965. -/
inductive Kind where
  | capture | call | cache
  deriving DecidableEq, Repr

/-- The local variables the compiler invents, without `trans`, `write`, `_filter`, `_v`.
Models Compiler.py 785-857, 862-946, 952-985, 1015-1059. -/
inductive Loc where
  | origTrans (id : Nat)
  | wasBuffering (id : Nat)
  | collector (k : Kind) (id : Nat)
  | callArgVal (id : Nat)
  | callKws (id : Nat)
  | origFilter (id : Nat)
  | recache (id : Nat)
  | cacheData
  deriving DecidableEq, Repr

/-- An expression in the generated code.
Models Compiler.py 922-942. -/
inductive PE where
  | user (e : L.E)
  /-- `f(_callArgVal<id>)` -/
  | call (f : L.Fn) (id : Nat)
  /-- `f(**_callKws<id>)` -/
  | callKw (f : L.Fn) (id : Nat)

/-- A simple statement in the generated code.
Models Compiler.py 432-505, 566-600, 718-734, 785-985, 1015-1059, 1181-1183. -/
inductive Simple where
  /-- `write('''...''')` -/
  | writeLit (lit : Str)
  /-- `_v = e` -/
  | setV (e : PE L)
  /-- `if _v is not None: write(_filter(_v))`, or with `str` -/
  | writeV (useFilters : Bool)
  /-- `write(_filter(e))`, or with `str` -/
  | writeE (useFilters : Bool) (e : PE L)
  | user (s : L.S)
  | pass_
  | break_
  | continue_
  /-- `return _dummyTrans and trans.response().getvalue() or ""` -/
  | ret
  /-- `_orig_trans<id> = trans` -/
  | saveTrans (id : Nat)
  /-- `trans = _orig_trans<id>` -/
  | restoreTrans (id : Nat)
  /-- `write = trans.response().write` -/
  | bindWrite
  /-- `_wasBuffering<id> = self._CHEETAH__isBuffering` -/
  | saveBuffering (id : Nat)
  /-- `self._CHEETAH__isBuffering = True` -/
  | setBuffering
  /-- `self._CHEETAH__isBuffering = _wasBuffering<id>` -/
  | restoreBuffering (id : Nat)
  /-- `trans = _xCollector<id> = DummyTransaction()` -/
  | newCollector (k : Kind) (id : Nat)
  /-- `write = _xCollector<id>.response().write` -/
  | bindCollector (k : Kind) (id : Nat)
  /-- `x = _captureCollector<id>.response().getvalue()` -/
  | captureInto (x : L.Tgt) (id : Nat)
  /-- `_callArgVal<id> = _callCollector<id>.response().getvalue()` -/
  | setArgVal (id : Nat)
  /-- `_callKws<id> = {}` -/
  | newKws (id : Nat)
  /-- `_currentCallArgname<id> = 'name'` -/
  | noteArg (id : Nat) (name : Str)
  /-- `_callKws<id>['name'] = _callCollector<id>.response().getvalue()` -/
  | setKw (id : Nat) (name : Str)
  /-- `_orig_filter<id> = _filter` -/
  | saveFilter (id : Nat)
  /-- `_filter = self._CHEETAH__initialFilter` -/
  | initialFilter
  /-- `_filter = self._CHEETAH__currentFilter = ...` -/
  | setFilter (n : L.FName)
  /-- `_filter = self._CHEETAH__currentFilter = _orig_filter<id>` -/
  | restoreFilter (id : Nat)
  /-- Compiler.py 785-825: set `_RECACHE_<id>`, and write the stored output if it is to be shown -/
  | cacheProbe (id : Nat)
  /-- `_cacheItem_<id>.setExpiryTime(...)` -/
  | cacheExpiry (id : Nat)
  /-- `_cacheData = _cacheCollector_<id>.response().getvalue()` -/
  | cacheData (id : Nat)
  /-- `_cacheItem_<id>.setData(_cacheData)` -/
  | cacheStore (id : Nat)
  /-- `write(_cacheData)` -/
  | writeCacheData
  /-- `del name` -/
  | del (x : Loc)

/-- A line that opens a block and may follow any statement.
Models Compiler.py 608-651, 671-672, 686-687, 829-831. -/
inductive OpenHdr where
  | if_ (c : L.E)
  /-- `if not (c):` -/
  | ifNot (c : L.E)
  | while_ (c : L.E)
  | for_ (x : L.Tgt) (e : L.E)
  /-- `for __i<n> in range(e):` -/
  | forRange (n : Nat) (e : L.E)
  | try_
  /-- `if _RECACHE_<id> or not _cacheItem_<id>.getRefreshTime():` -/
  | ifRecache (id : Nat)

/-- A line that opens a block and continues a compound statement.
Models Compiler.py 664-669, 689-693. -/
inductive ContHdr where
  | elif (c : L.E)
  | else_
  | except_ (m : L.M)
  | finally_

/-- A logical line of Python.
Models Compiler.py 432-435, 555-559. -/
inductive Line where
  | simple (s : Simple L)
  | opens (h : OpenHdr L)
  | conts (h : ContHdr L)
  /-- `except NotFound: pass` -/
  | exceptNotFound

/-! ### The compiler object -/

/-- Settings that change what is generated (Compiler.py 58-61), and Python's idea of
printable characters. -/
structure Settings where
  alwaysFilterNone : Bool
  useFilters : Bool
  printable : Char → Bool

/-- State of a MethodCompiler (Compiler.py 342-359): pending text, lines with their nesting
level (latest last), the current level, the number of `#repeat`s so far. -/
structure MC where
  pending : List Str
  chunks : List (Nat × Line L)
  lev : Nat
  repeats : Nat

variable {L}

/-- Compiler.py 476-505 `commitStrConst`. -/
def commitStrConst (st : Settings) (m : MC L) : MC L :=
  if m.pending = [] then m
  else
    let s := m.pending.flatten
    if s = [] then { m with pending := [] }
    else { m with pending := [], chunks := m.chunks ++ [(m.lev, .simple (.writeLit (StrConst.literal st.printable s)))] }

/-- Compiler.py 432-435 `addChunk`. -/
def addChunk (st : Settings) (l : Line L) (m : MC L) : MC L :=
  let m := commitStrConst st m
  { m with chunks := m.chunks ++ [(m.lev, l)] }

/-- Compiler.py 377-378 `indent`. -/
def indent (m : MC L) : MC L := { m with lev := m.lev + 1 }

/-- Compiler.py 380-384 `dedent`; `none` is the exception. -/
def dedent (m : MC L) : Option (MC L) :=
  if m.lev = 0 then none else some { m with lev := m.lev - 1 }

/-- Compiler.py 470-474, 526-527 `addStrConst`. -/
def addStrConst (s : Str) (m : MC L) : MC L := { m with pending := m.pending ++ [s] }

/-- Models Compiler.py 432-435 with a simple statement. -/
def addSimple (st : Settings) (s : Simple L) : MC L → MC L := addChunk st (.simple s)

/-- A run of simple statements.
Consecutive calls of Compiler.py 432-435. -/
def addSimples (st : Settings) (ss : List (Simple L)) (m : MC L) : MC L :=
  ss.foldl (fun m s => addSimple st s m) m

/-- Compiler.py 443-468 `addFilteredChunk`: the lines. -/
def filteredLines (st : Settings) (e : PE L) : List (Simple L) :=
  if st.alwaysFilterNone then [.setV e, .writeV st.useFilters]
  else [.writeE st.useFilters e]

/-- Compiler.py 621-628 `addIndentingDirective`. -/
def addIndentingDirective (st : Settings) (h : OpenHdr L) (m : MC L) : MC L :=
  indent (addChunk st (.opens h) m)

/-- Compiler.py 630-642 `addReIndentingDirective`. -/
def addReIndentingDirective (st : Settings) (h : ContHdr L) (doDedent : Bool) (m : MC L) : Option (MC L) :=
  let m := commitStrConst st m
  let m' := if doDedent then dedent m else some m
  m'.map fun m => indent (addChunk st (.conts h) m)

/-- Compiler.py 536-564 `addPlaceholder`, without cache token and error catcher. -/
def addPlaceholder (st : Settings) (e : L.E) (silent : Bool) (m : MC L) : Option (MC L) :=
  if silent then
    let m := indent (addChunk st (.opens .try_) m)
    let m := addSimples st (filteredLines st (.user e)) m
    (dedent m).map (addChunk st .exceptNotFound)
  else some (addSimples st (filteredLines st (.user e)) m)

/-- Compiler.py 653-662 `addTernaryExpr`. -/
def addTernaryExpr (st : Settings) (c a b : L.E) (m : MC L) : Option (MC L) := do
  let m := addIndentingDirective st (.if_ c) m
  let m := addSimples st (filteredLines st (.user a)) m
  let m ← dedent m
  let m := indent (addChunk st (.conts .else_) m)
  let m := addSimples st (filteredLines st (.user b)) m
  dedent m

/-- The opening lines for a directive (Compiler.py 608-619, 643-651, 671-672, 686-687); the
second component is the new number of `#repeat`s. -/
def openHdr (o : Open L) (repeats : Nat) : OpenHdr L × Nat :=
  match o with
  | .if_ c => (.if_ c, repeats)
  | .unless c => (.ifNot c, repeats)
  | .while_ c => (.while_ c, repeats)
  | .for_ x e => (.for_ x e, repeats)
  | .repeat_ e => (.forRange repeats e, repeats + 1)
  | .try_ => (.try_, repeats)

/-- Compiler.py 664-669, 689-693. -/
def contHdr : Cont L → ContHdr L
  | .elif c => .elif c
  | .else_ => .else_
  | .except_ m => .except_ m
  | .finally_ => .finally_

/-- Compiler.py 952-971 `startCaptureRegion`, 862-884 `startCallRegion`. -/
def startRegion (k : Kind) (id : Nat) : List (Simple L) :=
  [.saveTrans id, .saveBuffering id, .setBuffering, .newCollector k id, .bindCollector k id]

/-- Compiler.py 973-985 `endCaptureRegion`. -/
def endCapture (x : L.Tgt) (id : Nat) : List (Simple L) :=
  [.restoreTrans id, .bindWrite, .restoreBuffering id, .captureInto x id,
   .del (.origTrans id), .del (.collector .capture id), .del (.wasBuffering id)]

/-- Compiler.py 914-920, the inner function `reset` of `endCallRegion`. -/
def resetCall (id : Nat) : List (Simple L) :=
  [.restoreTrans id, .bindWrite, .restoreBuffering id, .del (.wasBuffering id), .del (.origTrans id)]

/-- Compiler.py 897-907 `_endCallArg`. -/
def endCallArg (id : Nat) (name : Str) : List (Simple L) :=
  [.setKw id name, .del (.collector .call id), .newCollector .call id, .bindCollector .call id]

/-- Compiler.py 922-933 `endCallRegion` without keyword arguments. -/
def endCall (st : Settings) (f : L.Fn) (id : Nat) : List (Simple L) :=
  resetCall id ++ [.setArgVal id, .del (.collector .call id)] ++ filteredLines st (.call f id) ++ [.del (.callArgVal id)]

/-- Compiler.py 934-942 `endCallRegion` with keyword arguments. -/
def endCallKw (st : Settings) (f : L.Fn) (id : Nat) (name : Str) : List (Simple L) :=
  endCallArg id name ++ resetCall id ++ filteredLines st (.callKw f id) ++ [.del (.callKws id)]

/-- Compiler.py 1015-1050 `setFilter`. The `if`/`else` that looks the name up among the
template's filters first is one statement here. -/
def setFilter (f : FilterArg L) (id : Nat) : List (Simple L) :=
  match f with
  | .none => [.saveFilter id, .initialFilter]
  | .named n => [.saveFilter id, .setFilter n]
  | .klass n => [.saveFilter id, .setFilter n]

/-- Compiler.py 832-841, the start of the recached body. -/
def startCacheBody (timed : Bool) (id : Nat) : List (Simple L) :=
  [.saveTrans id, .newCollector .cache id, .bindCollector .cache id] ++ if timed then [.cacheExpiry id] else []

/-- Compiler.py 843-853 `endCacheRegion`. -/
def endCacheBody (id : Nat) : List (Simple L) :=
  [.restoreTrans id, .bindWrite, .cacheData id, .cacheStore id, .writeCacheData,
   .del .cacheData, .del (.collector .cache id), .del (.origTrans id)]

/-! ### The parser's calls on the compiler -/

mutual
/-- The calls made for a template body.
Models Parser.py 1537-1563 (parse) with the eat methods 1567-2750. -/
def gen (st : Settings) : T L → MC L → Option (MC L)
  | .skip, m => some m
  | .seq a b, m => (gen st a m).bind (gen st b)
  | .text s, m => some (addStrConst s m)
  | .place e silent, m => addPlaceholder st e silent m
  | .ternary c a b, m => addTernaryExpr st c a b m
  | .stmt s, m => some (addSimple st (.user s) m)
  | .note, m => some (commitStrConst st m) -- Compiler.py 2028-2030, 512-514: the chunk is a comment and is left out
  | .break_, m => some (addSimple st .break_ m)
  | .continue_, m => some (addSimple st .continue_ m)
  | .stop, m => some (addSimple st .ret m)
  | .compound short o body tail, m =>
    -- Parser.py 1785-1821 (eatSimpleIndentingDirective), 1863-1865 (eatEndDirective), 2702-2750 (eatIf)
    let (h, r) := openHdr o m.repeats
    let m := addIndentingDirective st h { m with repeats := r }
    (gen st body m).bind fun m =>
      if short then ((dedent (commitStrConst st m)).bind (genShort st tail))
      else (genLong st tail m).bind fun m => dedent (commitStrConst st m)
  | .capture id x body, m =>
    (gen st body (addSimples st (startRegion .capture id) m)).map (addSimples st (endCapture x id))
  | .call id f body, m =>
    (gen st body (addSimples st (startRegion .call id) m)).map (addSimples st (endCall st f id))
  | .callKw id f pre name body more, m =>
    -- Compiler.py 886-895 `setCallArg`
    (gen st pre (addSimples st (startRegion .call id) m)).bind fun m =>
      (gen st body (addSimples st [.newKws id, .noteArg id name] m)).bind (genArgs st id f name more)
  | .filter id f body, m =>
    (gen st body (addSimples st (setFilter f id) m)).map (addSimple st (.restoreFilter id))
  | .cache id timed body, m =>
    -- Compiler.py 764-857
    let m := addIndentingDirective st (.ifRecache id) (addSimple st (.cacheProbe id) m)
    (gen st body (addSimples st (startCacheBody timed id) m)).bind fun m =>
      dedent (addSimples st (endCacheBody id) m)
/-- The rest of a directive with an `#end`: `#elif`, `#else`, ...
Models Parser.py 1785-1821, 1823-1870. -/
def genLong (st : Settings) : Tail L → MC L → Option (MC L)
  | .nil, m => some m
  | .cons k body tail, m =>
    ((addReIndentingDirective st (contHdr k) true m).bind (gen st body)).bind (genLong st tail)
/-- The rest of a one-line directive: each part is closed at once.
Models Parser.py 1795-1806. -/
def genShort (st : Settings) : Tail L → MC L → Option (MC L)
  | .nil, m => some m
  | .cons k body tail, m =>
    ((addReIndentingDirective st (contHdr k) false m).bind (gen st body)).bind fun m =>
      (dedent (commitStrConst st m)).bind (genShort st tail)
/-- The rest of a `#call` with `#arg`s; `name` is the argument being collected.
Models Parser.py 2582-2600, Compiler.py 886-946. -/
def genArgs (st : Settings) (id : Nat) (f : L.Fn) (name : Str) : Args L → MC L → Option (MC L)
  | .nil, m => some (addSimples st (endCallKw st f id name) m)
  | .cons name' body more, m =>
    (gen st body (addSimples st (endCallArg id name) m)).bind (genArgs st id f name' more)
end

/-- A whole method body: Compiler.py 1088-1122 (cleanupState), 1171-1183 (the cleanup code).
The lines start at level `lev` (`initialMethIndentLevel`); the method ends with the return
line. Simplification: the setup code (1124-1169) is the initial state of the execution. -/
def methodLines (st : Settings) (lev : Nat) (t : T L) : Option (List (Nat × Line L)) :=
  (gen st t ⟨[], [], lev, 0⟩).map fun m =>
    (addSimple st .ret { commitStrConst st m with lev := lev }).chunks

end Cheetah.Compile
