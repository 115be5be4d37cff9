import Verif.ParserExpr
/-
Model of the upper level of Cheetah/Parser.py: the directives and the parse loop (lines
171-260, 650-684, 717-739, 817-826, 1395-1565, 1626-2786).

The compiler's methods that the parser calls are recorded as commands, in order; what they
do is modelled elsewhere (CompileAst, Transaction, SetDirective, Cache, ErrorCatcher).  Not
modelled, and reported as `unsupported`: `#compiler`, `#compiler-settings`, `#defmacro` and
macro calls; expression filters and parse hooks are taken to be absent, as they are by default.
-/
namespace Cheetah.Parser

/-- What does not change while parsing: the source, the tokenizer and the settings. Models Parser.py 1399-1405;
the settings are allowNestedDefScopes, allowExpressionsInExtendsDirective, disabledDirectives with
enabledDirectives (1525-1533, in lower case), and blockMarkerStart if includeBlockMarkers is set (2074-2078). -/
structure Env where
  cfg : Cfg
  src : Str
  tok : Str → Option Nat
  nested : Bool := true
  exprExtends : Bool := false
  disabled : Str → Bool := fun _ => false
  markers : Option (Str × Str) := none

/-- The reader with a break point (SourceReader.py 16-24). -/
def Env.px (h : Env) (bp : Nat) : Px := { cfg := h.cfg, src := h.src, bp := bp, tok := h.tok }

/-- Parser.py 1463-1471 `_closeableDirectives`. -/
def closeable : List Str :=
  [c!"def", c!"block", c!"closure", c!"defmacro", c!"call", c!"capture", c!"cache", c!"filter", c!"if", c!"unless",
   c!"for", c!"while", c!"repeat", c!"try"]

/-- Parser.py 244-260, the keys of `endDirectiveNamesAndHandlers`. -/
def endNames : List Str :=
  [c!"def", c!"block", c!"closure", c!"cache", c!"call", c!"capture", c!"filter", c!"errorCatcher", c!"while",
   c!"for", c!"if", c!"try", c!"repeat", c!"unless"]

/-- Parser.py 89-92 `assignmentOps`. -/
def assignOps : List Str :=
  [c!"=", c!"+=", c!"-=", c!"/=", c!"*=", c!"**=", c!"^=", c!"%=", c!">>=", c!"<<=", c!"&=", c!"|="]

/-- Parser.py 1662-1663 `_simpleIndentingDirectives`. -/
def indentingNames : List Str :=
  [c!"else", c!"elif", c!"for", c!"while", c!"repeat", c!"unless", c!"try", c!"except", c!"finally"]

/-- Parser.py 1664-1668 `_simpleExprDirectives`. -/
def exprNames : List Str :=
  [c!"pass", c!"continue", c!"stop", c!"return", c!"yield", c!"break", c!"del", c!"assert", c!"raise", c!"silent",
   c!"echo", c!"import", c!"from"]

/-! ### Small readers -/

/-- Parser.py 783-787 `getDirectiveStartToken`. -/
def Px.dirStart (x : Px) (p : Nat) : Except Err Nat :=
  match x.matchDirStart p with
  | some q => x.goto q
  | none => .error (.parse p .other)

/-- Parser.py 783-787 and `self.advance(len(name))`: the position after the directive's name. -/
def Px.afterName (x : Px) (name : Str) (p : Nat) : Except Err Nat := do
  let q ← x.dirStart p
  x.goto (q + name.length)

/-- Parser.py 817-826 `matchColonForSingleLineShortFormDirective`; the slice checks its end (SourceReader.py 50-55). -/
def Px.colon (x : Px) (p : Nat) : Except Err Bool :=
  if x.peek p = some ':' then do
    let e ← x.goto (x.eol p)
    let s := strip (x.slice (p + 1) e)
    .ok (!(s = [] || startsWith s x.cfg.com))
  else .ok false

/-- `if self.peek() == ':': self.advance()`, then `getWhiteSpace` (Parser.py 1813-1815 and others); the position
after them. -/
def Px.skipColon (x : Px) (p : Nat) : Except Err Nat := do
  let c ← x.peek! p
  let q ← x.goto (if c = ':' then p + 1 else p)
  .ok (x.skip q)

/-- Parser.py 717-739 `getAssignmentOperator`. -/
def Px.assignOp (x : Px) (p : Nat) : Except Err (Str × Nat) := do
  let (t, q) ← x.pyTok p
  if t ∈ assignOps then .ok (t, q) else .error (.parse p .other)

/-- Parser.py 663-681, the loop of `getCommaSeparatedSymbols`: `cur` is the current piece. -/
def Px.commaLoop (x : Px) : Nat → Str → Nat → Except Err (List Str × Nat)
  | 0, _, _ => .error .fuel
  | n + 1, cur, p =>
    let done : List Str := if cur = [] then [] else [cur]
    match x.peek p with
    | none => .ok (done, p)
    | some c =>
      if identChar c then do
        let (i, q) ← x.identifier p
        x.commaLoop n (cur ++ i) q
      else if c = '.' then
        if (x.peek (p + 1)).any identStart then x.commaLoop n (cur ++ ['.']) (p + 1) else .ok (done, p)
      else if c = ',' then do
        let (ps, q) ← x.commaLoop n [] (p + 1)
        .ok (cur :: ps, q)
      else if c = ' ' ∨ c = '\t' then x.commaLoop n cur (p + 1)
      else .ok (done, p)

/-- Parser.py 650-684 `getCommaSeparatedSymbols`. -/
def Px.commaSymbols (x : Px) (p : Nat) : Except Err (List Str × Nat) := do
  let c ← x.peek! p
  if identStart c then x.commaLoop (x.bp - p + 1) [] p else .error (.parse p .other)

/-- Parser.py 1713-1722, the first part of `_eatRestOfDirectiveTag`: a comment, unless a directive starts at its
second character. The boolean is `foundComment`. -/
def Px.tagComment (x : Px) (p : Nat) : Except Err (List Cmd × Bool × Nat) :=
  match x.matchTok x.cfg.com p with
  | none => .ok ([], false, p)
  | some _ => do
    let q ← x.goto (p + 1)
    let d ← x.matchDirective q
    if d.isSome then .ok ([], false, p)
    else do
      let (cs, r) ← x.eatComment p
      .ok (cs, true, r)

/-- Parser.py 1724-1729: the directive's end token, or the end of the line. -/
def Px.tagEnd (x : Px) (clear comment : Bool) (p : Nat) : Except Err Nat :=
  match if comment then none else x.matchTok x.cfg.dirEnd p with
  | some q => x.goto q
  | none =>
    if clear ∧ (x.peek p = some '\r' ∨ x.peek p = some '\n') then x.goto (x.eolGobble p) else .ok p

/-- Parser.py 1710-1733 `_eatRestOfDirectiveTag(isLineClearToStartToken, endOfFirstLinePos)`. -/
def Px.restTag (x : Px) (clear : Bool) (eol p : Nat) : Except Err (List Cmd × Nat) := do
  let (cs, com, q) ← x.tagComment p
  let r ← x.tagEnd clear com q
  .ok (cs ++ (if clear ∧ (x.bp ≤ r ∨ eol < r) then [.handleWS] else []), r)

/-- Parser.py 1739-1759, the loop of `_eatToThisEndDirective`: where the text ends, where the directive ends, and
`isLineClearToStartToken`. -/
def Px.endScan (x : Px) (name : Str) : Nat → Nat → Except Err (Nat × Nat × Bool)
  | 0, _ => .error .fuel
  | n + 1, p =>
    if x.bp ≤ p then .ok (p, p, false)
    else if x.src[p]? = x.cfg.dir.head? then do
      let d ← x.matchDirective p
      if d = some c!"end" then do
        let q ← x.afterName c!"end" p
        let q := x.skip q
        if startsWith (x.rest q) name then do
          let r ← x.goto (q + name.length)
          .ok (if x.lineClear p then Reader.findBOL x.src p else p, x.skip r, x.lineClear p)
        else do
          let q ← x.goto (q + 1)
          x.endScan name n q
      else x.endScan name n (p + 1)
    else x.endScan name n (p + 1)

/-- Parser.py 1735-1773 `_eatToThisEndDirective`: the text eaten. -/
def Px.toEnd (x : Px) (name : Str) (p : Nat) : Except Err (Str × List Cmd × Nat) := do
  let (e, q, clear) ← x.endScan name (x.bp - p + 1) p
  let e ← x.goto e
  let q ← x.goto q
  let r ← x.tagEnd clear false q
  .ok (x.slice p e, if clear ∧ x.eol q < r then [.handleWS] else [], r)

/-! ### Directives

What a directive makes the parser do, computed without the parser's state. -/

/-- `kind` of a definition: `#def`, `#block`, `#closure` (Parser.py 2023-2041). -/
inductive DefKind where
  | def_ | block | closure
  deriving DecidableEq, Repr

/-- The name of the directive (Parser.py 2023-2041). -/
def DefKind.name : DefKind → Str
  | .def_ => c!"def"
  | .block => c!"block"
  | .closure => c!"closure"

/-- What follows from a directive. Models Parser.py 1671-1708 (eatDirective) and the eaters it calls.
- `go`: give the commands, go on at the position;
- `opened`: the same, and push the name;
- `closed`: the same, pop the name, and give the commands that end the block;
- `stop`: set the break point to the current position;
- `line`: give the commands, parse from the first position to the second, give the other commands;
- `defOpen`, `defLine`: a definition, which depends on the open directives;
- `decorated`: go on with the directive at the position. -/
inductive Act where
  | go (cs : List Cmd) (p : Nat)
  | opened (name : Str) (cs : List Cmd) (p : Nat)
  | closed (name : Str) (cs : List Cmd) (p : Nat)
  | stop
  | line (before : List Cmd) (p bp : Nat) (after : List Cmd)
  | defOpen (kind : DefKind) (name : Str) (args : List (Str × Option Str)) (cs : List Cmd) (p : Nat)
  | defLine (kind : DefKind) (name : Str) (args : List (Str × Option Str)) (p bp : Nat) (clear : Bool) (eol : Nat)
  | decorated (cs : List Cmd) (p : Nat)
  deriving DecidableEq, Repr

/-- Parser.py 1775-1777 and 1795-1799: the directive's name is skipped, or read as a part of the expression. -/
def Px.nameStart (x : Px) (skip : Bool) (name : Str) (p : Nat) : Except Err Nat :=
  if skip then x.afterName name p else x.dirStart p

/-- Parser.py 1775-1786, 1695-1706: `eatSimpleExprDirective`; the first word of the expression may be pushed (1780-1783).
`''.split()[0]` is an IndexError. -/
def Px.simpleExpr (x : Px) (st : GenVar.Settings) (name : Str) (p : Nat) : Except Err Act := do
  let q ← x.nameStart (name = c!"silent" ∨ name = c!"echo") name p
  let (e, r) ← x.expression st false [] [] q
  let word := (strip e).takeWhile (fun c => !isSpace c)
  if word = [] then .error .index
  else do
    let (cs, r) ← x.restTag (x.lineClear p) (x.eol p) r
    let cs := cs ++ [.simple name (strip e)]
    .ok (if word ∈ closeable then .opened word cs r else .go cs r)

/-- Parser.py 1788-1822 `eatSimpleIndentingDirective`. -/
def Px.simpleIndenting (x : Px) (st : GenVar.Settings) (name : Str) (p : Nat) : Except Err Act := do
  let q ← x.nameStart (name = c!"repeat" ∨ name = c!"unless") name p
  let (e, r) ← x.expression st false [c!":"] [] (x.skip q)
  let re := name = c!"else" ∨ name = c!"elif" ∨ name = c!"except" ∨ name = c!"finally"
  if ← x.colon r then do
    let r ← x.goto (r + 1)
    let r := x.skip1 r
    .ok (.line [if re then .reindenting name e false else .indenting name e] r (x.eolGobble r) [.commit, .dedent])
  else do
    let r ← x.skipColon r
    let (cs, r) ← x.restTag (x.lineClear p) (x.eol p) r
    if name ∈ closeable then .ok (.opened name (cs ++ [.indenting name e]) r)
    else .ok (.go (cs ++ [.reindenting name e true]) r)

/-- Parser.py 1824-1841, the part of `eatEndDirective` before the stack: the names are matched as prefixes (1831-1834). -/
def Px.endDirective (x : Px) (st : GenVar.Settings) (p : Nat) : Except Err Act := do
  let q ← x.afterName c!"end" p
  let q := x.skip q
  match endNames.find? fun k => startsWith (x.rest q) k with
  | none => .error (.parse q .other)
  | some name => do
    let (_, r) ← x.expression st false [] [] q
    let (cs, r) ← x.restTag (x.lineClear p) (x.eol q) r
    if name ∈ closeable then .ok (.closed name cs r) else .ok (.go (cs ++ [.errorCatcherOff]) r)

/-- Parser.py 1883-1905 `eatShbang` and `eatEncoding`. -/
def Px.textDirective (x : Px) (name : Str) (mk : Str → Cmd) (p : Nat) : Except Err Act := do
  let q ← x.afterName name p
  let (s, r) ← x.readToEOL true (x.skip q)
  .ok (.go [mk (strip s)] r)

/-- Parser.py 1993-1994, 2051-2052, 2325-2326: a placeholder's start token before a name is skipped. -/
def Px.skipVar (x : Px) (p : Nat) : Except Err Nat := if x.matchVarStart p then x.varStart false p else .ok p

/-- Parser.py 1984-2001 `eatAttr`. -/
def Px.attrDirective (x : Px) (st : GenVar.Settings) (p : Nat) : Except Err Act := do
  let q ← x.afterName c!"attr" p
  let q ← x.skipVar (x.skip q)
  let (name, q) ← x.identifier q
  let (_, q) ← x.assignOp (x.skip q)
  let (e, q) ← x.expression st false [] [] q
  let (cs, r) ← x.restTag (x.lineClear p) (x.eol p) q
  .ok (.go (.attr name e :: cs) r)

/-- Parser.py 2003-2021 `eatDecorator`, up to the next directive. -/
def Px.decorator (x : Px) (st : GenVar.Settings) (p : Nat) : Except Err Act := do
  let q ← x.dirStart p
  let (e, q) ← x.expression st false [] [] q
  let (cs, r) ← x.restTag (x.lineClear p) (x.eol p) q
  let r := x.skip r
  match ← x.matchDirective r with
  | some d =>
    if d ∈ [c!"def", c!"block", c!"closure", c!"@"] then .ok (.decorated (.decorator e :: cs) r) else .error (.parse r .other)
  | none => .error (.parse r .other)

/-- Parser.py 2058-2063: a first argument called `self` is deleted. -/
def dropSelf : List (Str × Option Str) → List (Str × Option Str)
  | (n, d) :: as => if n = c!"self" then as else (n, d) :: as
  | [] => []

/-- Parser.py 2057-2064: the optional argument list of a definition. -/
def Px.optArgs (x : Px) (st : GenVar.Settings) (p : Nat) : Except Err (List (Str × Option Str) × Nat) := do
  let c ← x.peek! p
  if c = '(' then do
    let (as, q) ← x.defArgList st false p
    let q ← x.goto (q + 1)
    .ok (dropSelf as, q)
  else .ok ([], p)

/-- Parser.py 2043-2129 `_eatDefOrBlock` and `_eatMultiLineDef`, without what depends on the open directives. -/
def Px.definition (x : Px) (st : GenVar.Settings) (kind : DefKind) (p : Nat) : Except Err Act := do
  let q ← x.afterName kind.name p
  let q ← x.skipVar (x.skip q)
  let (name, q) ← x.identifier q
  let (as, q) ← x.optArgs st (x.skip q)
  if ← x.colon q then do
    let q ← x.goto (q + 1)
    let _ ← x.goto (x.eol p)
    .ok (.defLine kind name as (x.skip1 q) (x.eol p) (x.lineClear p) (x.eol p))
  else do
    let c ← x.peek! q
    let q := if c = ':' ∧ q + 1 ≤ x.bp then q + 1 else q
    let (_, q) ← x.expression st false [] [] q
    let (cs, r) ← x.restTag (x.lineClear p) (x.eol q) q
    .ok (.defOpen kind name as cs r)

/-- Parser.py 2179-2183: the base class of `#extends`. -/
def Px.baseName (x : Px) (exprAllowed : Bool) (st : GenVar.Settings) (p : Nat) : Except Err (Str × Nat) :=
  if exprAllowed then x.expression st false [] [] p
  else (x.commaSymbols p).map fun (ps, q) => (joinStr c!", " ps, q)

/-- Parser.py 2172-2191 `eatExtends`. -/
def Px.extendsDirective (x : Px) (exprAllowed : Bool) (st : GenVar.Settings) (p : Nat) : Except Err Act := do
  let q ← x.afterName c!"extends" p
  let (e, q) ← x.baseName exprAllowed st (x.skip q)
  let (cs, r) ← x.restTag (x.lineClear p) (x.eol p) q
  .ok (.go (.extends_ e :: cs) r)

/-- Parser.py 2202, 2228: the argument list, if there is one before the end. -/
def Px.optArgs' (x : Px) (st : GenVar.Settings) (p : Nat) : Except Err (List (Str × Option Str) × Nat) :=
  if x.peek p = some '(' then x.optArgs st p else .ok ([], p)

/-- Parser.py 2193-2219 `eatImplements`. -/
def Px.implementsDirective (x : Px) (st : GenVar.Settings) (p : Nat) : Except Err Act := do
  let q ← x.afterName c!"implements" p
  let (name, q) ← x.identifier (x.skip q)
  let (as, q) ← x.optArgs' st q
  let (_, q) ← x.expression st false [] [] q
  let (cs, r) ← x.restTag (x.lineClear p) (x.eol p) q
  .ok (.go (.implements_ name as :: cs) r)

/-- Parser.py 2221-2246 `eatSuper`. -/
def Px.superDirective (x : Px) (st : GenVar.Settings) (p : Nat) : Except Err Act := do
  let q ← x.afterName c!"super" p
  let (as, q) ← x.optArgs' st (x.skip q)
  let (_, q) ← x.expression st false [] [] q
  let (cs, r) ← x.restTag (x.lineClear p) (x.eol p) q
  .ok (.go (cs ++ [.super as]) r)

/-- Parser.py 2254-2264: the style of `#set`: 0 local, 1 global, 2 module (Parser.py 64-66); the words are matched as prefixes
and the whole identifier is skipped. -/
def Px.setStyle (x : Px) (p : Nat) : Except Err (Nat × Nat) :=
  let word (style : Nat) : Except Err (Nat × Nat) := do
    let (_, q) ← x.identifier p
    .ok (style, x.skip q)
  if startsWith (x.rest p) c!"local" then word 0
  else if startsWith (x.rest p) c!"global" then word 1
  else if startsWith (x.rest p) c!"module" then word 2
  else .ok (0, p)

/-- Parser.py 2248-2283 `eatSet`. -/
def Px.setDirective (x : Px) (st : GenVar.Settings) (p : Nat) : Except Err Act := do
  let q ← x.afterName c!"set" p
  let (style, q) ← x.setStyle (x.skip q)
  let (l, q) ← x.expression { st with useNameMapper := false } false assignOps [] q
  let (op, q) ← x.assignOp q
  let (r, q) ← x.expression st false [] [] q
  let (cs, q) ← x.restTag (x.lineClear p) (x.eol p) q
  .ok (.go (cs ++ [.set (strip l) op r style]) q)

/-- Parser.py 2285-2295 `eatSlurp` and `eatEOLSlurpToken`. -/
def Px.slurp (x : Px) (p : Nat) : Except Err (List Cmd × Nat) := do
  let (_, q) ← x.readToEOL true p
  .ok ((if x.lineClear p then [.handleWS] else []) ++ [.commit], q)

/-- Parser.py 2297-2314 `eatRaw`. -/
def Px.rawDirective (x : Px) (p : Nat) : Except Err Act := do
  let q ← x.afterName c!"raw" p
  let q := x.skip q
  if ← x.colon q then do
    let q ← x.goto (q + 1)
    let (s, q) ← x.readToEOL false (x.skip1 q)
    .ok (.go [.raw s] q)
  else do
    let q ← x.skipColon q
    let (cs, q) ← x.restTag (x.lineClear p) (x.eol p) q
    let (s, cs2, q) ← x.toEnd c!"raw" q
    .ok (.go (cs ++ cs2 ++ [.raw s]) q)

/-- Parser.py 2331-2338: `source =` in `#include`. -/
def Px.includeSource (x : Px) (p : Nat) : Except Err (Bool × Nat) :=
  if startsWith (x.rest p) c!"source" then do
    let q ← x.goto (p + 6)
    let q := x.skip q
    let c ← x.peek! q
    if c = '=' then do
      let q ← x.goto (q + 1)
      .ok (true, q)
    else .error (.parse q .other)
  else .ok (false, p)

/-- Parser.py 2316-2344 `eatInclude`. -/
def Px.includeDirective (x : Px) (st : GenVar.Settings) (p : Nat) : Except Err Act := do
  let q ← x.afterName c!"include" p
  let q := x.skip q
  let isRaw := startsWith (x.rest q) c!"raw"
  let q ← x.goto (if isRaw then q + 3 else q)
  let (fromStr, q) ← x.includeSource (x.skip q)
  let (e, q) ← x.expression st false [] [] q
  let (cs, r) ← x.restTag (x.lineClear p) (x.eol p) q
  .ok (.go (cs ++ [.include_ e fromStr isRaw]) r)

/-- Parser.py 2523-2554 `eatCache`. -/
def Px.cacheDirective (x : Px) (st : GenVar.Settings) (p : Nat) : Except Err Act := do
  let q ← x.afterName c!"cache" p
  let (as, q) ← x.defArgList st true q
  if ← x.colon q then do
    let q ← x.goto (q + 1)
    let q := x.skip1 q
    .ok (.line [.startCache as] q (x.eolGobble q) [.endCache])
  else do
    let q ← x.skipColon q
    let (cs, r) ← x.restTag (x.lineClear p) (x.eol p) q
    .ok (.opened c!"cache" (cs ++ [.startCache as]) r)

/-- Parser.py 2565-2572: the function's name, read without autocalling. -/
def Px.callName (x : Px) (st : GenVar.Settings) (p : Nat) : Except Err (Str × Nat) :=
  let st' := { st with useAutocalling := false }
  if x.matchVarStart p then x.cheetahVar (x.fuel p) st' false false p else x.cheetahVar (x.fuel p) st' true true p

/-- Parser.py 2556-2593 `eatCall`. -/
def Px.callDirective (x : Px) (st : GenVar.Settings) (p : Nat) : Except Err Act := do
  let q ← x.afterName c!"call" p
  let (f, q) ← x.callName st (x.skip q)
  let (as, q) ← x.expression st false [c!":"] [] (x.skip q)
  if ← x.colon q then do
    let q ← x.goto (q + 1)
    let q := x.skip1 q
    .ok (.line [.startCall f (strip as)] q (x.eol q) [.endCall])
  else do
    let q ← x.skipColon q
    let (cs, r) ← x.restTag (x.lineClear p) (x.eol p) q
    .ok (.opened c!"call" (cs ++ [.startCall f (strip as)]) r)

/-- Parser.py 2595-2614 `eatCallArg`. -/
def Px.argDirective (x : Px) (p : Nat) : Except Err Act := do
  let q ← x.afterName c!"arg" p
  let (name, q) ← x.identifier (x.skip q)
  let q := x.skip q
  let c ← x.peek! q
  if c = ':' then .ok (.go [.callArg name] (if q + 1 ≤ x.bp then q + 1 else q))
  else do
    let (cs, r) ← x.restTag (x.lineClear p) (x.eol p) q
    .ok (.go (.callArg name :: cs) r)

/-- Parser.py 2624-2631, 2657-2664: a class given as an expression, or a name. -/
def Px.filterName (x : Px) (st : GenVar.Settings) (p : Nat) : Except Err (Str × Bool × Nat) :=
  if x.matchVarStart p then do
    let (e, q) ← x.expression st false [c!":"] [] p
    .ok (e, true, q)
  else do
    let (i, q) ← x.identifier p
    .ok (i, false, x.skip q)

/-- Parser.py 2616-2648 `eatFilter`. -/
def Px.filterDirective (x : Px) (st : GenVar.Settings) (p : Nat) : Except Err Act := do
  let q ← x.afterName c!"filter" p
  let (f, isKlass, q) ← x.filterName st (x.skip q)
  if ← x.colon q then do
    let q ← x.goto (q + 1)
    let q := x.skip1 q
    .ok (.line [.setFilter f isKlass] q (x.eol q) [.closeFilter])
  else do
    let q ← x.skipColon q
    let (cs, r) ← x.restTag (x.lineClear p) (x.eol p) q
    .ok (.opened c!"filter" (cs ++ [.setFilter f isKlass]) r)

/-- Parser.py 2650-2672 `eatTransform`. -/
def Px.transformDirective (x : Px) (st : GenVar.Settings) (p : Nat) : Except Err Act := do
  let q ← x.afterName c!"transform" p
  let (f, isKlass, q) ← x.filterName st (x.skip q)
  let q ← x.skipColon q
  let (cs, r) ← x.restTag (x.lineClear p) (x.eol p) q
  .ok (.go (cs ++ [.setTransform f isKlass]) r)

/-- Parser.py 2674-2685 `eatErrorCatcher`. -/
def Px.errorCatcherDirective (x : Px) (p : Nat) : Except Err Act := do
  let q ← x.afterName c!"errorCatcher" p
  let (name, q) ← x.identifier (x.skip q)
  let (cs, r) ← x.restTag (x.lineClear p) (x.eol p) q
  .ok (.go (cs ++ [.errorCatcher name]) r)

/-- Parser.py 2687-2715 `eatCapture`. -/
def Px.captureDirective (x : Px) (st : GenVar.Settings) (p : Nat) : Except Err Act := do
  let q ← x.afterName c!"capture" p
  let (e, q) ← x.expression st false [c!":"] [] (x.skip q)
  if ← x.colon q then do
    let q ← x.goto (q + 1)
    let q := x.skip1 q
    .ok (.line [.startCapture e] q (x.eol q) [.endCapture])
  else do
    let q ← x.skipColon q
    let (cs, r) ← x.restTag (x.lineClear p) (x.eol p) q
    .ok (.opened c!"capture" (cs ++ [.startCapture e]) r)

/-- Parser.py 2732-2742: the three parts of a ternary `#if`; `n` says which part is current. -/
def ternaryParts : Nat → List Str → Str × Str × Str
  | _, [] => ([], [], [])
  | n, w :: ws =>
    if strip w = c!"then" then ternaryParts 1 ws
    else if strip w = c!"else" then ternaryParts 2 ws
    else
      let (a, b, c) := ternaryParts n ws
      if n = 0 then (w ++ a, b, c) else if n = 1 then (a, w ++ b, c) else (a, b, w ++ c)

/-- Parser.py 2717-2764 `eatIf`. -/
def Px.ifDirective (x : Px) (st : GenVar.Settings) (p : Nat) : Except Err Act := do
  let q ← x.dirStart p
  let (ws, q) ← x.exprParts (x.fuel q) st false [c!":"] [] q
  let e := strip ws.flatten
  if c!"then" ∈ ws ∧ c!"else" ∈ ws then do
    let (cs, r) ← x.restTag (x.lineClear p) (x.eol p) q
    let (a, b, c) := ternaryParts 0 ws
    .ok (.go (cs ++ [.ternary a b c]) r)
  else if ← x.colon q then do
    let q ← x.goto (q + 1)
    let q := x.skip1 q
    .ok (.line [.indenting c!"if" e] q (x.eolGobble q) [.commit, .dedent])
  else do
    let q ← x.skipColon q
    let (cs, r) ← x.restTag (x.lineClear p) (x.eol p) q
    .ok (.opened c!"if" (cs ++ [.indenting c!"if" e]) r)

/-- Parser.py 171-241, 1681-1706: the eater of a directive. -/
def Px.directive (x : Px) (h : Env) (st : GenVar.Settings) (name : Str) (p : Nat) : Except Err Act :=
  if name ∈ indentingNames then x.simpleIndenting st name p
  else if name ∈ exprNames then x.simpleExpr st name p
  else if name = c!"if" then x.ifDirective st p
  else if name = c!"end" then x.endDirective st p
  else if name = c!"set" then x.setDirective st p
  else if name = c!"def" then x.definition st .def_ p
  else if name = c!"block" then x.definition st .block p
  else if name = c!"closure" then x.definition st .closure p
  else if name = c!"@" then x.decorator st p
  else if name = c!"call" then x.callDirective st p
  else if name = c!"arg" then x.argDirective p
  else if name = c!"capture" then x.captureDirective st p
  else if name = c!"cache" then x.cacheDirective st p
  else if name = c!"filter" then x.filterDirective st p
  else if name = c!"transform" then x.transformDirective st p
  else if name = c!"errorCatcher" then x.errorCatcherDirective p
  else if name = c!"include" then x.includeDirective st p
  else if name = c!"raw" then x.rawDirective p
  else if name = c!"slurp" then (x.slurp p).map fun (cs, q) => .go cs q
  else if name = c!"attr" then x.attrDirective st p
  else if name = c!"extends" then x.extendsDirective h.exprExtends st p
  else if name = c!"implements" then x.implementsDirective st p
  else if name = c!"super" then x.superDirective st p
  else if name = c!"shBang" then x.textDirective name .shBang p
  else if name = c!"encoding" then x.textDirective name .encoding p
  else if name = c!"breakpoint" then .ok .stop
  else .error .unsupported

/-! ### The parser -/

/-- The parser's state: position and break point (SourceReader.py 16-24), the open directives with the innermost
first (Parser.py 1410), the settings (2136-2137, 2160-2161), `_useSearchList_orig` (2136), and the commands given so far. -/
structure PS where
  pos : Nat
  bp : Nat
  stack : List Str := []
  st : GenVar.Settings
  orig : Option Bool := none
  cmds : List Cmd := []

/-- Give commands and go on at a position; models the calls of the compiler in Parser.py 1579-2764. -/
def PS.emit (s : PS) (cs : List Cmd) (p : Nat) : PS := { s with cmds := s.cmds ++ cs, pos := p }

/-- Parser.py 2087-2089, 2133-2135, 2154-2156, 2754-2756: are there at least that many open `#def`s? -/
def Env.nestedDef (h : Env) (stack : List Str) (n : Nat) : Bool :=
  h.nested && decide (n ≤ stack.count c!"def")

/-- Parser.py 2074-2078 `includeBlockMarkers`. -/
def Env.marker (h : Env) (kind : DefKind) (name : Str) : List Cmd :=
  match kind, h.markers with
  | .block, some (a, b) => [.strConst (a ++ name ++ b)]
  | _, _ => []

/-- Parser.py 2138-2146: a definition as a method; else it is a closure. -/
def asMethod (kind : DefKind) (nested : Bool) : Bool := kind = .block ∨ (kind = .def_ ∧ nested = false)

/-- Parser.py 2770-2780 `popFromOpenDirectivesStack`. -/
def pop (name : Str) (p : Nat) : List Str → Except Err (List Str)
  | [] => .error (.parse p .nothingToEnd)
  | n :: ns => if n = name then .ok ns else .error (.parse p (.wrongEnd name n))

/-- Parser.py 1843-1872, 2752-2764: what happens after a block's name was popped. An unset `_useSearchList_orig` would be
an AttributeError (here `assertion`); it cannot be unset. -/
def Env.endBlock (h : Env) (s : PS) (name : Str) : Except Err PS :=
  let restore (s : PS) : Except Err PS :=
    match s.orig with
    | some b => .ok { s with st := { s.st with useSearchList := b }, cmds := s.cmds ++ [.commit, .dedent] }
    | none => .error .assertion
  if name = c!"def" then
    if h.nestedDef s.stack 1 then restore s else .ok { s with cmds := s.cmds ++ [.closeDef] }
  else if name = c!"block" then .ok { s with cmds := s.cmds ++ [.closeBlock] }
  else if name = c!"capture" then .ok { s with cmds := s.cmds ++ [.endCapture] }
  else if name = c!"cache" then .ok { s with cmds := s.cmds ++ [.endCache] }
  else if name = c!"call" then .ok { s with cmds := s.cmds ++ [.endCall] }
  else if name = c!"filter" then .ok { s with cmds := s.cmds ++ [.closeFilter] }
  else if name = c!"closure" then restore s
  else .ok { s with cmds := s.cmds ++ [.commit, .dedent] }

/-- Parser.py 2111-2118, 2132-2148: the start of a definition's block. -/
def Env.openDef (h : Env) (s : PS) (kind : DefKind) (name : Str) (args : List (Str × Option Str)) (cs : List Cmd) (p : Nat) : PS :=
  let stack := kind.name :: s.stack
  if asMethod kind (h.nestedDef stack 2) then
    { s.emit (cs ++ .startMethod name args :: h.marker kind name) p with stack := stack }
  else
    { s.emit (cs ++ [.addClosure name args]) p with
      stack := stack, orig := some s.st.useSearchList, st := { s.st with useSearchList := false } }

/-- Parser.py 2152-2164: the start of a definition on one line, up to the parsing of its body. -/
def Env.startLine (h : Env) (s : PS) (kind : DefKind) (name : Str) (args : List (Str × Option Str)) (p bp : Nat) : PS :=
  if asMethod kind (h.nestedDef s.stack 1) then { s.emit [.startMethod name args] p with bp := bp }
  else { s.emit [.addClosure name args] p with bp := bp, st := { s.st with useSearchList := false } }

/-- Parser.py 2096-2104: the commands that end a definition on one line; `nested` is `isNestedDef` of 2087-2089. -/
def Env.endLine (h : Env) (kind : DefKind) (name : Str) (nested : Bool) : List Cmd :=
  match kind with
  | .def_ => if nested then [.dedent] else [.closeDef]
  | .block => h.marker kind name ++ [.closeBlock]
  | .closure => [.dedent]

/-- Parser.py 2166-2170: the setting is restored after a definition on one line. For a `#block` inside a `#def` the variable is
not set: an UnboundLocalError. -/
def restoreLine (s : PS) (kind : DefKind) (nested : Bool) (t : PS) : Except Err PS :=
  if kind = .closure ∨ nested then
    if kind = .block then .error .unbound else .ok { t with st := { t.st with useSearchList := s.st.useSearchList } }
  else .ok t

/-- Parser.py 1544-1559 without directives: what is eaten at a position. -/
def Px.simple (x : Px) (h : Env) (st : GenVar.Settings) (p : Nat) : Option Tag → Except Err (List Cmd × Nat)
  | some .comment => x.eatComment p
  | some .mlComment => x.eatMlComment p
  | some .psp => if h.disabled c!"psp" then .error (.parse p .other) else x.eatPsp p
  | some .slurp => x.slurp p
  | none => (x.eatPlainText p).map fun (s, q) => ([.strConst s], q)
  | some _ => (x.placeholder st p).map fun (ph, q) => ([.placeholder ph.expr ph.raw ph.filterArgs ph.cache ph.silent], q)

mutual
/-- Parser.py 1543-1559, the loop of `parse`. -/
def Env.loop (h : Env) : Nat → PS → Except Err PS
  | 0, _ => .error .fuel
  | n + 1, s =>
    if s.bp ≤ s.pos then .ok s
    else do
      let t ← (h.px s.bp).tagAt s.pos
      if t = some .directive then do
        let s ← h.eatDirective n s
        h.loop n s
      else do
        let (cs, q) ← (h.px s.bp).simple h s.st s.pos t
        h.loop n (s.emit cs q)

/-- Parser.py 1671-1708 `eatDirective`. -/
def Env.eatDirective (h : Env) : Nat → PS → Except Err PS
  | 0, _ => .error .fuel
  | n + 1, s =>
    match (h.px s.bp).matchDirective s.pos with
    | .error e => .error e
    | .ok none => .error .assertion
    | .ok (some name) =>
      if h.disabled name then .error (.parse s.pos .other)
      else do
        let a ← (h.px s.bp).directive h s.st name s.pos
        h.perform n s a

/-- What a directive does to the state: Parser.py 1780-1783, 1800-1822, 1840-1872, 2018-2021, 2084-2118,
1536-1565 (`parse` with a break point). -/
def Env.perform (h : Env) : Nat → PS → Act → Except Err PS
  | 0, _, _ => .error .fuel
  | n + 1, s, a =>
    match a with
    | .go cs p => .ok (s.emit cs p)
    | .opened name cs p => .ok { s.emit cs p with stack := name :: s.stack }
    | .closed name cs p => do
      let stack ← pop name p s.stack
      h.endBlock { s.emit cs p with stack := stack } name
    | .stop => .ok { s with bp := s.pos }
    | .line before p bp after => do
      let t ← h.loop n { s.emit before p with bp := bp }
      .ok { t with bp := s.bp, cmds := t.cmds ++ after }
    | .defOpen kind name args cs p => .ok (h.openDef s kind name args cs p)
    | .defLine kind name args p bp clear eol => do
      let t ← h.loop n (h.startLine s kind name args p bp)
      let nested := h.nestedDef s.stack 1
      let t ← restoreLine s kind nested t
      let (cs, q) ← (h.px s.bp).restTag clear eol t.pos
      .ok { t with bp := s.bp, cmds := t.cmds ++ h.endLine kind name nested ++ cs, pos := q }
    | .decorated cs p => h.eatDirective n (s.emit cs p)
end

/-- Parser.py 1536-1563 `parse()`, from the start of the source: the commands given to the compiler.
The number bounds the recursion; it is never reached (`C39_parse_terminates`). -/
def Env.parse (h : Env) (st : GenVar.Settings) : Except Err (List Cmd) := do
  let s ← h.loop (3 * h.src.length + 4) { pos := 0, bp := h.src.length, st := st }
  if s.stack = [] then .ok s.cmds else .error (.parse s.pos (.unclosed s.stack.reverse))

end Cheetah.Parser
