import Verif.ParserHigh
import Verif.StrConst
import Verif.SetDirective
import Verif.ErrorCatcher
import Verif.Dict
/-
Model of the compiler object that the parser drives: MethodCompiler, AutoMethodCompiler,
ClassCompiler and the module-level methods they call (Cheetah/Compiler.py 316-1600, 1789-2030).
The input is the list of commands of Verif/ParserHigh.lean, the output the methods of the
generated class, each a list of text lines with their indentation.

Simplifications, for the whole file:
* Blank lines and comments are left out of the generated code (Python ignores them), also those
  at the end of a line; that adding them writes out the pending text is kept.
* A line is its level and its text; the text put in front is the level times `indentationStep`.
* The random numbers of regions are given from outside (`Cf.ids`).
* The code added for `$_`, `$N_`, `$ngettext` (Compiler.py 187-208), source file monitoring (1331-1349)
  and the settings `autoAssignDummyTransactionToSelf`, `outputRowColComments` = False are left out.
* `#extends`: the setting `handlerForExtendsDirective` (1865-1868) is left out.
* Doc strings and `##name@ value` comments are not recorded.
-/
namespace Cheetah.Driver
open Parser (Cmd)

/-- Settings that change what is generated (Compiler.py 58-100), Python's idea of printable characters, and what
the model leaves open: the random numbers (Compiler.py 760-762), how numbers and dictionaries are printed (775, 838-841). -/
structure Cf where
  alwaysFilterNone : Bool := true
  useFilters : Bool := true
  rawExprInFilterArgs : Bool := true
  legacyImports : Bool := true
  autoImport : Bool := true
  useNameMapper : Bool := true
  searchListAsArg : Bool := true
  kwsForTrans : Bool := true
  blockEnd : Option (Str × Str) := none
  initLev : Nat := 2
  mainName : Str := c!"respond"
  mainForSub : Str := c!"writeBody"
  className : Str := c!"T"
  printable : Char → Bool
  ids : Nat → Str
  showNum : Rat → Str
  showInfo : (Str → Option Interval.Val) → Str

/-- How compiling can fail: Compiler.py 384 (`Error`), an IndexError, AssertionError, ValueError, TypeError, KeyError,
or 1438-1442 (ParseError). -/
inductive Fail where
  | dedent | index | assertion | value | type | key | attr
  deriving DecidableEq, Repr

/-- A `#call` region: Compiler.py 862-870, `CallDetails`. -/
structure Call where
  id : Str
  fn : Str
  args : Str
  current : Option Str := none
  deriving DecidableEq, Repr

/-- A method compiler: Compiler.py 342-365, 990-995. `uid` is the identity of the object. -/
structure Meth where
  uid : Nat
  name : Str
  args : List (Str × Option Str) := [(c!"self", none)]
  decorators : List Str := []
  pending : List Str := []
  chunks : List (Nat × Str) := []
  lev : Nat
  repeats : Nat := 0
  cache : List Str := []
  calls : List Call := []
  captures : List (Str × Str) := []
  filters : List Str := []
  catching : Bool := false
  hasReturn : Bool := false
  generator : Bool := false
  deriving DecidableEq, Repr

/-! ### Method compiler -/

namespace Meth

/-- Compiler.py 470-474, 526-530 `addStrConst`, `addRawText`. -/
def text (s : Str) (m : Meth) : Meth := { m with pending := m.pending ++ [s] }

/-- Compiler.py 476-505 `commitStrConst`. -/
def commit (cf : Cf) (m : Meth) : Meth :=
  if m.pending.flatten = [] then { m with pending := [] }
  else { m with
    pending := []
    chunks := m.chunks ++ [(m.lev, c!"write(" ++ StrConst.literal cf.printable m.pending.flatten ++ c!")")] }

/-- Compiler.py 432-435 `addChunk`. -/
def chunk (cf : Cf) (t : Str) (m : Meth) : Meth :=
  let m := m.commit cf
  { m with chunks := m.chunks ++ [(m.lev, t)] }

/-- Consecutive calls of Compiler.py 432-435 `addChunk`. -/
def chunks' (cf : Cf) (ts : List Str) (m : Meth) : Meth := ts.foldl (fun m t => m.chunk cf t) m

/-- Compiler.py 377-378 `indent`. -/
def indent (m : Meth) : Meth := { m with lev := m.lev + 1 }

/-- Compiler.py 380-384 `dedent`. -/
def dedent (m : Meth) : Except Fail Meth :=
  if m.lev = 0 then .error .dedent else .ok { m with lev := m.lev - 1 }

/-- The chunk up to and with its last line end: Compiler.py 512-514. -/
def toBOL (s : Str) : Str := (s.reverse.dropWhile fun c => !(c == '\n' || c == '\r')).reverse

/-- Compiler.py 507-514 `handleWSBeforeDirective`. -/
def handleWS (m : Meth) : Meth :=
  match m.pending.getLast? with
  | some s => { m with pending := m.pending.dropLast ++ [toBOL s] }
  | none => m

/-- Compiler.py 443-468 `addFilteredChunk`; an empty `rawExpr` counts as none. -/
def filtered (cf : Cf) (e : Str) (filterArgs raw : Str) (m : Meth) : Meth :=
  let fa := filterArgs ++ if cf.rawExprInFilterArgs ∧ raw ≠ [] then c!", rawExpr=" ++ pyRepr cf.printable raw else []
  if cf.alwaysFilterNone then
    m.chunks' cf [c!"_v = " ++ e,
      if cf.useFilters then c!"if _v is not None: write(_filter(_v" ++ fa ++ c!"))" else c!"if _v is not None: write(str(_v))"]
  else m.chunk cf (if cf.useFilters then c!"write(_filter(" ++ e ++ fa ++ c!"))" else c!"write(str(" ++ e ++ c!"))")

/-- Compiler.py 622-623, 634-635: a colon at the end. -/
def withColon (e : Str) : Str := if e.getLast? = some ':' then e else e ++ c!":"

/-- Compiler.py 621-628 `addIndentingDirective`. -/
def indenting (cf : Cf) (e : Str) (m : Meth) : Meth := (m.chunk cf (if e = [] then [] else withColon e)).indent

/-- Compiler.py 630-641 `addReIndentingDirective`; `''[-1]` is an IndexError. -/
def reindenting (cf : Cf) (e : Str) (ded : Bool) (m : Meth) : Except Fail Meth := do
  let m := m.commit cf
  let m ← if ded then m.dedent else .ok m
  if e = [] then .error .index else .ok (m.chunk cf (withColon e)).indent

/-- `re.sub(r'else[ \f\t]+if', 'elif', e)` (Compiler.py 665). The number bounds the recursion; it is the length of the text. -/
def elseIf : Nat → Str → Str
  | 0, s => s
  | _ + 1, [] => []
  | n + 1, c :: s =>
    match stripPrefix? c!"else" (c :: s) with
    | some r =>
      let r' := r.dropWhile fun c => c == ' ' || c == '\x0c' || c == '\t'
      match stripPrefix? c!"if" r' with
      | some t => if r'.length < r.length then c!"elif" ++ elseIf n t else c :: elseIf n s
      | none => c :: elseIf n s
    | none => c :: elseIf n s

/-- Compiler.py 674-682, 1453-1459: arguments in a signature or a call. -/
def argTexts (args : List (Str × Option Str)) : List Str :=
  args.map fun a => a.1 ++ match a.2 with | some d => c!"=" ++ d | none => []

/-- Compiler.py 608-619, 643-651, 671-672, 686-687: the line that a directive with a body starts with, and the number of `#repeat`s. -/
def header (name e : Str) (repeats : Nat) : Str × Nat :=
  if name = c!"repeat" then (c!"for __i" ++ decimal repeats ++ c!" in range(" ++ e ++ c!")", repeats + 1)
  else if name = c!"unless" then (c!"if not (" ++ e ++ c!")", repeats)
  else (e, repeats)

/-- Compiler.py 653-662 `addTernaryExpr`. -/
def ternary (cf : Cf) (c t f : Str) (m : Meth) : Except Fail Meth := do
  let m ← ((m.indenting cf c).filtered cf t [] []).dedent
  ((m.indenting cf c!"else").filtered cf f [] []).dedent

/-- Compiler.py 736-758 `addPSP`; the empty text has no first character. `splitlines` breaks at line ends. -/
def psp (cf : Cf) (splitlines : Str → List Str) (lower : Str → Str) (s : Str) (m : Meth) : Except Fail Meth :=
  let m := m.commit cf
  match s with
  | [] => .error .index
  | '=' :: r => .ok (if r = [] then m else m.chunk cf (c!"write(_filter(" ++ r ++ c!"))"))
  | s =>
    if lower s = c!"end" then m.dedent
    else if s.getLast? = some '$' then .ok (m.chunks' cf (splitlines s.dropLast)).indent
    else if s.getLast? = some ':' then .ok (m.chunks' cf (splitlines s)).indent
    else .ok (m.chunks' cf (splitlines s))

/-- `str.splitlines` for `\n`, `\r` and `\r\n` (Compiler.py 754, 2029). Simplification: Python also breaks at other line separators. -/
def splitLines : Str → List Str
  | [] => []
  | '\r' :: '\n' :: s => [] :: splitLines s
  | c :: s =>
    if c = '\n' ∨ c = '\r' then [] :: splitLines s
    else match splitLines s with
      | [] => [[c]]
      | l :: ls => (c :: l) :: ls

/-- Compiler.py 695-698 `addReturn`. -/
def addReturn (cf : Cf) (e : Str) (m : Meth) : Except Fail Meth :=
  if m.generator then .error .assertion else .ok { m.chunk cf e with hasReturn := true }

/-- Does a text consist of the word `yield`, any number of times, and white space (Compiler.py 703)? -/
def bareYield : Nat → Str → Bool
  | 0, _ => true
  | _ + 1, [] => true
  | n + 1, c :: s =>
    match stripPrefix? c!"yield" (c :: s) with
    | some r => bareYield n r
    | none => isSpace c && bareYield n s

/-- Compiler.py 700-716 `addYield`. -/
def addYield (cf : Cf) (e : Str) (m : Meth) : Except Fail Meth :=
  if m.hasReturn then .error .assertion
  else do
    let m := { m with generator := true }
    if bareYield e.length e then do
      let m ← ((m.chunk cf c!"if _dummyTrans:").indent.chunks' cf
        [c!"yield trans.response().getvalue()", c!"trans = DummyTransaction()", c!"write = trans.response().write"]).dedent
      ((m.chunk cf c!"else:").indent.chunk cf c!"raise TypeError(\"This method cannot be called with a trans arg\")").dedent
    else .ok (m.chunk cf e)

/-- Compiler.py 1181-1183 `addStop`. -/
def stopLine : Str := c!"return _dummyTrans and trans.response().getvalue() or \"\""

/-- A line inside an `if`: Compiler.py 786-800 and others. -/
def guarded (cf : Cf) (test : Str) (body : List Str) (m : Meth) : Except Fail Meth :=
  ((m.chunk cf test).indent.chunks' cf body).dedent

/-- Compiler.py 803-807, the `test` of a `#cache` region; an empty one counts as none. -/
def recacheTest (cf : Cf) (id : Str) (test : Option Str) (m : Meth) : Except Fail Meth :=
  match test with
  | some t => if t = [] then .ok m else m.guarded cf (c!"if " ++ t ++ c!":") [c!"_RECACHE_" ++ id ++ c!" = True"]
  | none => .ok m

/-- Compiler.py 764-841 `startCacheRegion`, with the region's ID and what `cacheInfo` holds. -/
def startCache (cf : Cf) (id info : Str) (varyBy test : Option Str) (interval : Option Rat) (m : Meth) : Except Fail Meth := do
  let recache := c!"_RECACHE_" ++ id ++ c!" = True"
  let m := { m with cache := id :: m.cache }
  let m := m.chunks' cf [c!"_RECACHE_" ++ id ++ c!" = False",
    c!"_cacheRegion_" ++ id ++ c!" = self.getCacheRegion(regionID=" ++ pyRepr cf.printable id ++ c!", cacheInfo=" ++ info ++ c!")"]
  let m ← m.guarded cf (c!"if _cacheRegion_" ++ id ++ c!".isNew():") [recache]
  let m := m.chunk cf (c!"_cacheItem_" ++ id ++ c!" = _cacheRegion_" ++ id ++ c!".getCacheItem(" ++
    varyBy.getD (pyRepr cf.printable id) ++ c!")")
  let m ← m.guarded cf (c!"if _cacheItem_" ++ id ++ c!".hasExpired():") [recache]
  let m ← m.recacheTest cf id test
  let m := (m.chunk cf (c!"if (not _RECACHE_" ++ id ++ c!") and _cacheItem_" ++ id ++ c!".getRefreshTime():")).indent
  let m ← m.guarded cf c!"try:" [c!"_output = _cacheItem_" ++ id ++ c!".renderOutput()"]
  let m ← m.guarded cf c!"except KeyError:" [recache]
  let m ← m.guarded cf c!"else:" [c!"write(_output)", c!"del _output"]
  let m ← m.dedent
  let m := (m.chunk cf (c!"if _RECACHE_" ++ id ++ c!" or not _cacheItem_" ++ id ++ c!".getRefreshTime():")).indent
  let m := m.chunks' cf [c!"_orig_trans" ++ id ++ c!" = trans", c!"trans = _cacheCollector_" ++ id ++ c!" = DummyTransaction()",
    c!"write = _cacheCollector_" ++ id ++ c!".response().write"]
  match Interval.expiry interval with
  | some x => .ok (m.chunk cf (c!"_cacheItem_" ++ id ++ c!".setExpiryTime(currentTime() +" ++ cf.showNum x ++ c!")"))
  | none => .ok m

/-- Compiler.py 843-857 `endCacheRegion`. -/
def endCache (cf : Cf) (m : Meth) : Except Fail Meth :=
  match m.cache with
  | [] => .error .index
  | id :: ids =>
    ({ m with cache := ids }.chunks' cf [c!"trans = _orig_trans" ++ id, c!"write = trans.response().write",
      c!"_cacheData = _cacheCollector_" ++ id ++ c!".response().getvalue()", c!"_cacheItem_" ++ id ++ c!".setData(_cacheData)",
      c!"write(_cacheData)", c!"del _cacheData", c!"del _cacheCollector_" ++ id, c!"del _orig_trans" ++ id]).dedent

/-- Compiler.py 862-884 `startCallRegion`, 952-971 `startCaptureRegion`: the lines; `k` is `call` or `capture`. -/
def startLines (k id : Str) : List Str :=
  [c!"_orig_trans" ++ id ++ c!" = trans", c!"_wasBuffering" ++ id ++ c!" = self._CHEETAH__isBuffering",
   c!"self._CHEETAH__isBuffering = True", c!"trans = _" ++ k ++ c!"Collector" ++ id ++ c!" = DummyTransaction()",
   c!"write = _" ++ k ++ c!"Collector" ++ id ++ c!".response().write"]

/-- Compiler.py 862-884 `startCallRegion`. -/
def startCall (cf : Cf) (id fn args : Str) (m : Meth) : Meth :=
  { m with calls := { id := id, fn := fn, args := args } :: m.calls }.chunks' cf (startLines c!"call" id)

/-- Compiler.py 897-907 `_endCallArg`: the lines. -/
def endArgLines (cf : Cf) (id name : Str) : List Str :=
  [c!"_callKws" ++ id ++ c!"[" ++ pyRepr cf.printable name ++ c!"] = _callCollector" ++ id ++ c!".response().getvalue()",
   c!"del _callCollector" ++ id, c!"trans = _callCollector" ++ id ++ c!" = DummyTransaction()",
   c!"write = _callCollector" ++ id ++ c!".response().write"]

/-- Compiler.py 886-895 `setCallArg`. -/
def callArg (cf : Cf) (name : Str) (m : Meth) : Except Fail Meth :=
  match m.calls with
  | [] => .error .index
  | c :: cs =>
    let m := match c.current with
      | some cur => m.chunks' cf (endArgLines cf c.id cur)
      | none => m.chunks' cf [c!"_callKws" ++ c.id ++ c!" = {}", c!"_currentCallArgname" ++ c.id ++ c!" = " ++ pyRepr cf.printable name]
    .ok { m with calls := { c with current := some name } :: cs }

/-- Compiler.py 914-920, the inner function `reset` of `endCallRegion`. -/
def resetLines (id : Str) : List Str :=
  [c!"trans = _orig_trans" ++ id, c!"write = trans.response().write", c!"self._CHEETAH__isBuffering = _wasBuffering" ++ id ++ c!" ",
   c!"del _wasBuffering" ++ id, c!"del _orig_trans" ++ id]

/-- Compiler.py 909-946 `endCallRegion`. -/
def endCall (cf : Cf) (m : Meth) : Except Fail Meth :=
  match m.calls with
  | [] => .error .index
  | c :: cs =>
    let m := match c.current with
      | none =>
        let m := m.chunks' cf (resetLines c.id ++
          [c!"_callArgVal" ++ c.id ++ c!" = _callCollector" ++ c.id ++ c!".response().getvalue()", c!"del _callCollector" ++ c.id])
        let m := m.filtered cf (c.fn ++ c!"(_callArgVal" ++ c.id ++ (if c.args = [] then [] else c!", " ++ c.args) ++ c!")") [] []
        m.chunk cf (c!"del _callArgVal" ++ c.id)
      | some cur =>
        let m := m.chunks' cf (endArgLines cf c.id cur ++ resetLines c.id)
        let m := m.filtered cf (c.fn ++ c!"(" ++ (if c.args = [] then [] else c.args ++ c!", ") ++ c!"**_callKws" ++ c.id ++ c!")") [] []
        m.chunk cf (c!"del _callKws" ++ c.id)
    .ok { m with calls := cs }

/-- Compiler.py 952-971 `startCaptureRegion`. -/
def startCapture (cf : Cf) (id e : Str) (m : Meth) : Meth :=
  { m with captures := (id, e) :: m.captures }.chunks' cf (startLines c!"capture" id)

/-- Compiler.py 973-985 `endCaptureRegion`. -/
def endCapture (cf : Cf) (m : Meth) : Except Fail Meth :=
  match m.captures with
  | [] => .error .index
  | (id, e) :: cs =>
    .ok ({ m with captures := cs }.chunks' cf [c!"trans = _orig_trans" ++ id, c!"write = trans.response().write",
      c!"self._CHEETAH__isBuffering = _wasBuffering" ++ id ++ c!" ", e ++ c!" = _captureCollector" ++ id ++ c!".response().getvalue()",
      c!"del _orig_trans" ++ id, c!"del _captureCollector" ++ id, c!"del _wasBuffering" ++ id])

/-- Compiler.py 1015-1050 `setFilter`. -/
def setFilter (cf : Cf) (id f : Str) (isKlass : Bool) (lower : Str → Str) (m : Meth) : Except Fail Meth :=
  let m := { m with filters := id :: m.filters }.chunk cf (c!"_orig_filter" ++ id ++ c!" = _filter")
  if isKlass then .ok (m.chunk cf (c!"_filter = self._CHEETAH__currentFilter = " ++ strip f ++ c!"(self).filter"))
  else if lower f = c!"none" then .ok (m.chunk cf c!"_filter = self._CHEETAH__initialFilter")
  else do
    let m := m.chunk cf (c!"filterName = " ++ pyRepr cf.printable f)
    let m ← m.guarded cf (c!"if \"" ++ f ++ c!"\" in self._CHEETAH__filters:")
      [c!"_filter = self._CHEETAH__currentFilter = self._CHEETAH__filters[filterName]"]
    m.guarded cf c!"else:"
      [c!"_filter = self._CHEETAH__currentFilter = \\\n\t\t\tself._CHEETAH__filters[filterName] = getattr(self._CHEETAH__filtersLib, filterName)(self).filter"]

/-- Compiler.py 1052-1059 `closeFilterBlock`. -/
def closeFilter (cf : Cf) (m : Meth) : Except Fail Meth :=
  match m.filters with
  | [] => .error .index
  | id :: ids => .ok ({ m with filters := ids }.chunk cf (c!"_filter = self._CHEETAH__currentFilter = _orig_filter" ++ id))

/-- Compiler.py 987-1006 `setErrorCatcher`. -/
def setCatcher (cf : Cf) (name : Str) (m : Meth) : Except Fail Meth := do
  let m ← { m with catching := true }.guarded cf (c!"if \"" ++ name ++ c!"\" in self._CHEETAH__errorCatchers:")
    [c!"self._CHEETAH__errorCatcher = self._CHEETAH__errorCatchers[\"" ++ name ++ c!"\"]"]
  m.guarded cf c!"else:" [c!"self._CHEETAH__errorCatcher = self._CHEETAH__errorCatchers[\"" ++ name ++ c!"\"] = ErrorCatchers." ++
    name ++ c!"(self)"]

/-- Compiler.py 1008-1013 `setTransform`. -/
def setTransform (cf : Cf) (f : Str) (m : Meth) : Meth :=
  m.chunks' cf [c!"trans = TransformerTransaction()", c!"trans._response = trans.response()", c!"trans._response._filter = " ++ f,
    c!"write = trans._response.write"]

/-- Compiler.py 1071-1077 `_useKWsDictArgForPassingTrans`. -/
def usesKws (cf : Cf) (m : Meth) : Bool :=
  m.name ≠ c!"respond" && !(m.args.any fun a => a.1 = c!"trans") && cf.kwsForTrans

/-- Compiler.py 1099-1102: the name of the dictionary of keyword arguments; an empty name counts as none (1107). -/
def kwargsName : List (Str × Option Str) → Option Str
  | [] => none
  | (a, _) :: as =>
    if startsWith (strip a) c!"**" then (if (strip a).drop 2 = [] then none else some ((strip a).drop 2)) else kwargsName as

/-- Compiler.py 1103-1105: is there a `*args` before any `**kw`? -/
def hasStar : List (Str × Option Str) → Bool
  | [] => false
  | (a, _) :: as =>
    if startsWith (strip a) c!"**" then false
    else (startsWith (strip a) c!"*" && (strip a).drop 1 ≠ []) || hasStar as

/-- Compiler.py 1124-1169 `_addAutoSetupCode`: the lines, in front of those of the body. -/
def setupLines (cf : Cf) (kw : Option Str) (streaming : Bool) (m : Meth) : List (Nat × Str) :=
  let bound := !(m.decorators.any fun d => d = c!"@classmethod" || d = c!"@staticmethod")
  let n := cf.initLev
  (if streaming && bound then
    (match if m.usesKws cf then kw else none with
      | some k => [(n, c!"trans = " ++ k ++ c!".get(\"trans\")")]
      | none => []) ++
    [(n, c!"if (not trans and not self._CHEETAH__isBuffering and not callable(self.transaction)):"), (n + 1, c!"trans = self.transaction"),
     (n, c!"if not trans:"), (n + 1, c!"trans = DummyTransaction()"), (n + 1, c!"_dummyTrans = True"), (n, c!"else: _dummyTrans = False")]
  else [(n, c!"trans = DummyTransaction()"), (n, c!"_dummyTrans = True")]) ++
  [(n, c!"write = trans.response().write")] ++
  (if cf.useNameMapper then
    (if cf.searchListAsArg && m.args.any (fun a => a.1 = c!"SL") then []
    else if cf.searchListAsArg && m.args.any (fun a => a.1 = c!"searchList") then [(n, c!"SL = searchList")]
    else if bound then [(n, c!"SL = self._CHEETAH__searchList")] else [(n, c!"SL = [KWS]")])
  else []) ++
  if cf.useFilters then [(n, if bound then c!"_filter = self._CHEETAH__currentFilter" else c!"_filter = lambda x, **kwargs: unicode(x)")]
  else []

/-- Compiler.py 1097-1122 `cleanupState`, 1171-1179 `_addAutoCleanupCode`, once no region is open. -/
def sealed (cf : Cf) (m : Meth) : Meth :=
  let kw := kwargsName m.args
  let addKws : Bool := kw.isNone && m.usesKws cf
  let kw := if addKws then some c!"KWS" else kw
  let m := if addKws then { m with args := m.args ++ [(c!"**KWS", none)] } else m
  let noStream := !m.usesKws cf && (kw.isSome || hasStar m.args)
  let m := if !m.usesKws cf && !(kw.isSome || hasStar m.args) then { m with args := m.args ++ [(c!"trans", some c!"None")] } else m
  let lines := m.setupLines cf kw (!noStream) ++ m.chunks ++ if m.generator then [] else [(cf.initLev, stopLine)]
  { m with lev := cf.initLev, chunks := lines }

/-- Compiler.py 1088-1122 `cleanupState`: an open region is closed. -/
def finish (cf : Cf) (m : Meth) : Except Fail Meth := do
  let m := m.commit cf
  let m ← if m.cache = [] then .ok m else m.endCache cf
  let m ← if m.calls = [] then .ok m else m.endCall cf
  .ok (m.sealed cf)

end Meth

/-! ### Class and module compiler -/

/-- The names imported by every module (Compiler.py 1785-1796). -/
def importedAtStart : List Str :=
  [c!"sys", c!"os", c!"os.path", c!"time", c!"types", c!"Template", c!"DummyTransaction", c!"NotFound", c!"Filters", c!"ErrorCatchers",
   c!"CacheRegion"]

/-- A class compiler with the parts of the module compiler that are used: Compiler.py 1286-1330, 1739-1787. The innermost active
method comes first; `index` is `_methodsIndex`, by object identity. -/
structure CC where
  active : List Meth := []
  finished : List Meth := []
  index : Dict Str Nat := []
  next : Nat := 0
  drawn : Nat := 0
  mainName : Str
  base : Str := c!"Template"
  attribs : List Str := []
  decorators : List Str := []
  catchers : ErrorCatcher.State := ErrorCatcher.State.init
  imports : List Str := []
  imported : List Str := importedAtStart
  constants : List Str := []
  shBang : Str := c!"#!/usr/bin/env python"
  encoding : Str := c!"ascii"

namespace CC

/-- Calls that Compiler.py 1251-1270 `__getattr__` passes on to the active method. -/
def onTop (f : Meth → Except Fail Meth) (c : CC) : Except Fail CC :=
  match c.active with
  | [] => .error .key
  | m :: ms => do
    let m ← f m
    .ok { c with active := m :: ms }

/-- The same for calls that cannot fail (Compiler.py 1251-1270). -/
def top (f : Meth → Meth) : CC → Except Fail CC := onTop fun m => .ok (f m)

/-- Compiler.py 1388-1399 `_spawnMethodCompiler`, 1401-1402 `_setActiveMethodCompiler`. -/
def spawn (cf : Cf) (name : Str) (args : List (Str × Option Str)) (c : CC) : CC :=
  let m : Meth := { uid := c.next, name := name, lev := cf.initLev, decorators := c.decorators }
  { c with
    active := { m with args := m.args ++ args } :: c.active
    index := Dict.set c.index name c.next
    next := c.next + 1
    decorators := [] }

/-- Compiler.py 1410-1416 `_swallowMethodCompiler`. -/
def swallow (cf : Cf) (m : Meth) (c : CC) : Except Fail CC := do
  let m ← m.finish cf
  .ok { c with finished := c.finished ++ [m] }

/-- Change the method with that identity (Compiler.py 1363-1387). -/
def mapUid (u : Nat) (f : Meth → Meth) (c : CC) : CC :=
  let g (m : Meth) := if m.uid = u then f m else m
  { c with active := c.active.map g, finished := c.finished.map g }

/-- Compiler.py 1362-1381 `setMainMethodName`. -/
def setMainName (name : Str) (c : CC) : Except Fail CC :=
  if name = c.mainName then .ok c
  else match Dict.get c.index c.mainName with
    | none => .error .key
    | some u =>
      let c := c.mapUid u fun m => { m with name := name }
      .ok { c with index := Dict.del (Dict.set c.index name u) c.mainName, mainName := name }

/-- Compiler.py 1383-1386 `setMainMethodArgs`. -/
def setMainArgs (args : List (Str × Option Str)) (c : CC) : Except Fail CC :=
  match Dict.get c.index c.mainName with
  | none => .error .key
  | some u => .ok (c.mapUid u fun m => { m with args := m.args ++ args })

/-- The next random number (Compiler.py 760-762). -/
def draw (cf : Cf) (c : CC) : Str × CC := (cf.ids c.drawn, { c with drawn := c.drawn + 1 })

/-- What an operation of the interval model raises (Compiler.py 146-185). -/
def failOf : Interval.Err → Fail
  | .indexError => .index
  | .valueError => .value

/-- Text of an entry in `cacheInfo` (Compiler.py 768-773). -/
def textOf : Option Interval.Val → Option Str
  | some (.text s) => some s
  | _ => none

/-- Number in an entry of `cacheInfo` (Compiler.py 838). -/
def numOf : Option Interval.Val → Option Rat
  | some (.num x) => some x
  | _ => none

/-- Compiler.py 174-185: an argument without a value is `None`, which has no first character. -/
def argVals : List (Str × Option Str) → Except Fail (List (Str × Str))
  | [] => .ok []
  | (k, some v) :: as => (argVals as).map ((k, v) :: ·)
  | (_, none) :: _ => .error .type

/-- Compiler.py 768-773: the given ID of a region, else a random one; an empty one counts as none. -/
def idOf (given : Option Str) (drawn : Str) : Str :=
  match given with
  | some s => if s = [] then drawn else s
  | none => drawn

/-- Compiler.py 174-185 and 764-841: `#cache`. -/
def startCache (cf : Cf) (args : List (Str × Option Str)) (c : CC) : Except Fail CC := do
  let as ← argVals args
  match Interval.fromArgList as with
  | .error e => .error (failOf e)
  | .ok d =>
    let (id, c) := c.draw cf
    c.onTop (Meth.startCache cf (idOf (textOf (d c!"id")) id) (cf.showInfo d) (textOf (d c!"varyBy")) (textOf (d c!"test")) (numOf (d c!"interval")))

/-- Compiler.py 162-172: what `cacheInfo` holds for a placeholder. -/
def infoOf : Interval.CacheInfo → Option (Option Rat)
  | .refresh x => some (some x)
  | .static => some none
  | .empty => none

/-- Compiler.py 545-548: with an error catcher the expression is wrapped. -/
def wrapExpr (e raw : Str) (c : CC) : Str × CC :=
  match c.active with
  | m :: _ =>
    if m.catching then
      let (st, name) := ErrorCatcher.addErrorCatcherCall c.catchers e raw
      (c!"self." ++ name ++ c!"(localsDict=locals())", { c with catchers := st })
    else (e, c)
  | [] => (e, c)

/-- Compiler.py 550-560: the lines of a placeholder. -/
def placeLines (cf : Cf) (e fa raw : Str) (silent : Bool) (m : Meth) : Except Fail Meth :=
  if silent then do
    let m ← ((m.chunk cf c!"try:").indent.filtered cf e fa raw).dedent
    .ok (m.chunk cf c!"except NotFound: pass")
  else .ok (m.filtered cf e fa raw)

/-- Compiler.py 536-564 `addPlaceholder`. -/
def placeholder (cf : Cf) (e raw : Str) (fa : Option Str) (tok : Interval.Token) (silent : Bool) (c : CC) : Except Fail CC :=
  match Interval.genCacheInfo tok with
  | .error er => .error (failOf er)
  | .ok info =>
    match infoOf info with
    | none =>
      let (e, c) := c.wrapExpr e raw
      c.onTop (placeLines cf e (fa.getD []) raw silent)
    | some interval => do
      let (id, c) := c.draw cf
      let c ← c.onTop (Meth.startCache cf id (cf.showInfo fun _ => none) none none interval)
      let (e, c) := c.wrapExpr e raw
      let c ← c.onTop (placeLines cf e (fa.getD []) raw silent)
      c.onTop (Meth.endCache cf)

/-- Compiler.py 1992-1993: does a name have a last word? -/
def blankName (s : Str) : Bool := s.all isSpace

/-- The text after the first `import`; without one, after the sixth character less one (`find` is -1): Compiler.py 1989-1990. -/
def afterImport : Nat → Str → Option Str
  | 0, _ => none
  | _ + 1, [] => none
  | n + 1, c :: s =>
    match stripPrefix? c!"import" (c :: s) with
    | some r => some r
    | none => afterImport n s

/-- Has the active method no lines yet (Compiler.py 1982)? -/
def fresh (c : CC) : Bool :=
  match c.active with
  | m :: _ => m.chunks.isEmpty
  | [] => true

/-- `var.split()[-1]` (Compiler.py 1992). -/
def lastWord (s : Str) : Str := ((rstrip s).reverse.takeWhile fun c => !isSpace c).reverse

/-- Compiler.py 1847-1855 `addImportedVarNames`: with inline imports the statement becomes a line of the method. -/
def addImported (cf : Cf) (vars : List Str) (raw : Option Str) (c : CC) : Except Fail CC :=
  if vars = [] then .ok c
  else if cf.legacyImports then .ok { c with imported := c.imported ++ vars }
  else match raw with
    | some e => if c.fresh then .ok c else c.top (Meth.chunk cf e)
    | none => .ok c

/-- Compiler.py 1980-1997 `addImportStatement`. -/
def import_ (cf : Cf) (e : Str) (c : CC) : Except Fail CC :=
  let c := if c.fresh || cf.legacyImports then { c with imports := c.imports ++ [e] } else c
  let names := splitCh ',' ((afterImport (e.length + 1) e).getD (e.drop 5))
  if names.any blankName then .error .index
  else c.addImported cf ((names.map lastWord).filter (· ≠ c!"*")) (some e)

/-- Compiler.py 1902-1911: a longer and longer part of the dotted name is looked for among the imported names; where one is found, it is
taken out of the name, wherever it is. -/
def inImported (names : List Str) (klass : Str) : Str → List Str → Option Str
  | _, [] => none
  | modName, chunk :: chunks =>
    if modName ∈ names then some (replaceStr (modName ++ c!".") [] klass) else inImported names klass (modName ++ c!"." ++ chunk) chunks

/-- Compiler.py 1897-1899, 1921-1924: import a class and note its name. -/
def importClass (cf : Cf) (modName klass : Str) (c : CC) : Except Fail CC := do
  let c ← c.import_ cf (c!"from " ++ modName ++ c!" import " ++ klass)
  c.addImported cf [klass] none

/-- Compiler.py 1887-1924: one of the classes of `#extends`; the result has its name in the class statement. -/
def oneBase (cf : Cf) (klass : Str) (c : CC) : Except Fail (Str × CC) :=
  match splitCh '.' klass with
  | [] => .ok (klass, c)
  | [_] =>
    if klass ∈ c.imported then .ok (klass, c)
    else do
      let c ← c.importClass cf klass klass
      .ok (klass, c)
  | first :: second :: more =>
    match inImported c.imported klass first ((second :: more).dropLast) with
    | some b => .ok (b, c)
    | none => do
      let final := (second :: more).getLastD []
      let path := (first :: second :: more).dropLast
      let modName := if final ≠ path.getLastD [] then joinStr c!"." (first :: second :: more) else joinStr c!"." path
      let c ← c.importClass cf modName final
      .ok (final, c)

/-- The loop of Compiler.py 1886-1924. -/
def bases (cf : Cf) : List Str → CC → Except Fail (List Str × CC)
  | [], c => .ok ([], c)
  | k :: ks, c => do
    let (b, c) ← c.oneBase cf (strip k)
    let (bs, c) ← c.bases cf ks
    .ok (b :: bs, c)

/-- Compiler.py 1869-1926 `setBaseClass`. -/
def setBase (cf : Cf) (e : Str) (c : CC) : Except Fail CC :=
  if !cf.autoImport || e = c!"object" || decide (e ∈ c.imported) then .ok { c with base := e }
  else do
    let (bs, c) ← c.bases cf (splitCh ',' e)
    .ok { c with base := joinStr c!", " bs }

/-- `##` comments that give no line in the method: Compiler.py 2002-2025. (The `$` of `#+$` also matches before a
line end at the end.) -/
def quietComment (s : Str) : Bool :=
  (let r := s.dropWhile (· == '#')
   r.length < s.length && (r.isEmpty || r == ['\n'])) ||
  (let r := s.dropWhile fun c => ('A' ≤ c && c ≤ 'z')
   r.head? == some '@' && r.length < s.length) ||
  [c!"doc:", c!"doc-method:", c!"doc-module:", c!"doc-class:", c!"header:"].any (startsWith s)

/-- Compiler.py 2001-2030 `addComment`: each line is a chunk. -/
def comment (cf : Cf) (s : Str) (c : CC) : Except Fail CC :=
  if quietComment s || (Meth.splitLines s).isEmpty then .ok c else c.top (Meth.commit cf)

/-- ASCII lower case (Compiler.py 744, 1031). -/
def lower (s : Str) : Str := s.map Char.toLower

/-- The `#stop`, `#return` ... directives: Compiler.py 566-570, 695-734, 1181-1183, 1978. -/
def simple (cf : Cf) (name e : Str) (c : CC) : Except Fail CC :=
  if name = c!"echo" then c.top (Meth.filtered cf e [] [])
  else if name = c!"stop" then c.top (Meth.chunk cf Meth.stopLine)
  else if name = c!"return" then c.onTop (Meth.addReturn cf e)
  else if name = c!"yield" then c.onTop (Meth.addYield cf e)
  else if name = c!"import" ∨ name = c!"from" then c.import_ cf e
  else c.top (Meth.chunk cf e)

/-- Compiler.py 1506-1509 `closeDef`. -/
def closeDef (cf : Cf) (c : CC) : Except Fail CC :=
  match c.active with
  | [] => .error .key
  | m :: ms => swallow cf m { c with active := ms }

/-- Compiler.py 1511-1533 `closeBlock`. -/
def closeBlock (cf : Cf) (c : CC) : Except Fail CC :=
  match c.active with
  | [] => .error .key
  | m :: ms => do
    let m := m.commit cf
    let name := m.name
    let m := match cf.blockEnd with
      | some (a, b) => m.text (a ++ name ++ b)
      | none => m
    let c ← swallow cf m { c with active := ms }
    c.top (Meth.chunk cf (c!"self." ++ name ++ c!"(trans=trans)"))

/-- One call of the parser on the compiler. Models the methods named in `Parser.Cmd`: Compiler.py 476-1059, 1362-1533, 1789-2030. -/
def step (cf : Cf) : Cmd → CC → Except Fail CC
  | .strConst s, c => c.top (Meth.text s)
  | .raw s, c => c.top (Meth.text s)
  | .comment s, c => c.comment cf s
  | .handleWS, c => c.top Meth.handleWS
  | .commit, c => c.top (Meth.commit cf)
  | .placeholder e raw fa tok silent, c => c.placeholder cf e raw fa tok silent
  | .psp s, c => c.onTop (Meth.psp cf Meth.splitLines lower s)
  | .indenting name e, c => c.top fun m =>
      let (h, r) := Meth.header name e m.repeats
      { m with repeats := r }.indenting cf h
  | .reindenting name e ded, c =>
      c.onTop (Meth.reindenting cf (if name = c!"else" ∨ name = c!"elif" then Meth.elseIf e.length e else e) ded)
  | .ternary a b e, c => c.onTop (Meth.ternary cf a b e)
  | .dedent, c => c.onTop Meth.dedent
  | .simple name e, c => c.simple cf name e
  | .set l op r style, c =>
      match SetDirective.addSet l op r (if style = 1 then .global else if style = 2 then .module else .local) with
      | .inMethod t => c.top (Meth.chunk cf t)
      | .inModule t => .ok { c with constants := c.constants ++ [t] }
  | .include_ e fromStr isRaw, c =>
      c.top (Meth.chunk cf (c!"self._handleCheetahInclude(" ++ e ++ c!", trans=trans, includeFrom=\"" ++
        (if fromStr then c!"str" else c!"file") ++ c!"\", raw=" ++ (if isRaw then c!"True" else c!"False") ++ c!")"))
  | .startCall fn args, c =>
      let (id, c) := c.draw cf
      c.top (Meth.startCall cf id fn args)
  | .endCall, c => c.onTop (Meth.endCall cf)
  | .callArg name, c => c.onTop (Meth.callArg cf name)
  | .startCapture e, c =>
      let (id, c) := c.draw cf
      c.top (Meth.startCapture cf id e)
  | .endCapture, c => c.onTop (Meth.endCapture cf)
  | .startCache args, c => c.startCache cf args
  | .endCache, c => c.onTop (Meth.endCache cf)
  | .setFilter f isKlass, c =>
      let (id, c) := c.draw cf
      c.onTop (Meth.setFilter cf id f isKlass lower)
  | .closeFilter, c => c.onTop (Meth.closeFilter cf)
  | .setTransform f _, c => c.top (Meth.setTransform cf f)
  | .errorCatcher name, c => c.onTop (Meth.setCatcher cf name)
  | .errorCatcherOff, c => c.top fun m => { m with catching := false }
  | .startMethod name args, c => .ok (c.spawn cf name args)
  | .addClosure name args, c => c.top (Meth.indenting cf (c!"def " ++ name ++ c!"(" ++ joinStr c!"," (Meth.argTexts args) ++ c!"):"))
  | .closeDef, c => c.closeDef cf
  | .closeBlock, c => c.closeBlock cf
  | .attr name e, c =>
      if containsStr c!"VFN(" (name ++ c!" =" ++ e) || containsStr c!"VFFSL(" (name ++ c!" =" ++ e) then .error .attr
      else .ok { c with attribs := c.attribs ++ [name ++ c!" =" ++ e] }
  | .decorator e, c => .ok { c with decorators := c.decorators ++ [e] }
  | .extends_ e, c => do
      let c ← c.setMainName cf.mainForSub
      c.setBase cf e
  | .implements_ name args, c => do
      let c ← c.setMainName name
      c.setMainArgs args
  | .super args, c =>
      match c.active with
      | [] => .error .key
      | m :: _ => c.top (Meth.filtered cf (c!"super(" ++ cf.className ++ c!", self)." ++ m.name ++ c!"(" ++
          joinStr c!"," (Meth.argTexts args) ++ c!")") [] [])
  | .shBang s, c => .ok { c with shBang := s }
  | .encoding s, c => .ok { c with encoding := s }

/-- The calls of the parser, in order (Parser.py 1536-1565). -/
def steps (cf : Cf) : List Cmd → CC → Except Fail CC
  | [], c => .ok c
  | k :: ks, c => do
    let c ← step cf k c
    steps cf ks c

/-- Compiler.py 1229-1249: a new class compiler, with the main method active. -/
def start (cf : Cf) : CC := spawn cf cf.mainName [] { mainName := cf.mainName }

/-- Compiler.py 1318-1322: finish the active methods, the innermost first. -/
def finishAll (cf : Cf) : List Meth → CC → Except Fail CC
  | [], c => .ok { c with active := [] }
  | m :: ms, c => do
    let c ← swallow cf m c
    finishAll cf ms c

/-- Compiler.py 1789-1797 `compile`, 1318-1330 `cleanupState`. The method `__init__` and the attributes the compiler adds are left out. -/
def compile (cf : Cf) (cmds : List Cmd) : Except Fail CC := do
  let c ← steps cf cmds (start cf)
  finishAll cf c.active c

end CC
end Cheetah.Driver
