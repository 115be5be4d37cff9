import Verif.PyStr
import Verif.SourceReader
import Verif.Interval
/-
Model of the token level of Cheetah/Parser.py: the start and end tokens, the placeholder
and directive starts, directive names, plain text, and comments (lines 423-568, 573-648,
741-870, 1567-1625).

The regular expressions are matched against the whole source from a position, as
`re.match(src, pos)` does, and moving the cursor is checked against the break point, as
SourceReader.py does.  A position is a natural number.
-/
namespace Cheetah.Parser

/-- Exceptions raised while parsing.
Models Parser.py 267-276 and SourceReader.py 11-12. -/
inductive Msg where
  | eof (opened : Char)                            -- "EOF was reached before a matching ..."
  | mismatch (found : Char) (at_ : Nat) (opened : Char)  -- "A ']' was found ... before a matching ..."
  | nothingToEnd                                   -- "#end found, but nothing to end"
  | wrongEnd (found expected : Str)                -- "#end for found, expected #end if"
  | unclosed (open_ : List Str)                    -- "Some #directives are missing ..."
  | other
  deriving DecidableEq, Repr

/-- Models Parser.py 267-276 (ParseError, ForbiddenDirective) and SourceReader.py 11-12
(Error); `index`, `assertion` and `unbound` are IndexError, AssertionError and UnboundLocalError. `unsupported` marks the
parts of the parser that are not modelled; `fuel` is no exception of the program: it marks
a recursion cut short by the model (never, by `C39_parse_terminates`). -/
inductive Err where
  | parse (pos : Nat) (msg : Msg)
  | reader
  | index
  | assertion
  | unbound
  | unsupported
  | fuel
  deriving DecidableEq, Repr

/-- The compiler settings that the parser reads (Parser.py 431-436, 449-554, 1425-1483;
defaults in Compiler.py 44-135). `names` are the keys of `_directiveNamesAndParsers`. -/
structure Cfg where
  var : Str
  com : Str
  mlStart : Str
  mlEnd : Str
  dir : Str
  dirEnd : Str
  psp : Str
  pspEnd : Str
  slurp : Str
  wsAfterDir : Bool
  gobbleMl : Bool
  filterArgs : Bool
  names : List Str
  deriving DecidableEq, Repr

/-- The keys of `directiveNamesAndParsers` and the built-in macro (Parser.py 171-241, 1476). -/
def stdNames : List Str :=
  [c!"import", c!"from", c!"extends", c!"implements", c!"super", c!"slurp", c!"raw", c!"include", c!"cache",
   c!"filter", c!"echo", c!"silent", c!"transform", c!"call", c!"arg", c!"capture", c!"attr", c!"def", c!"block",
   c!"@", c!"defmacro", c!"closure", c!"set", c!"del", c!"if", c!"while", c!"for", c!"else", c!"elif", c!"pass",
   c!"break", c!"continue", c!"stop", c!"return", c!"yield", c!"repeat", c!"unless", c!"assert", c!"raise",
   c!"try", c!"except", c!"finally", c!"errorCatcher", c!"breakpoint", c!"compiler", c!"compiler-settings",
   c!"shBang", c!"encoding", c!"end", c!"i18n"]

/-- The default settings (Compiler.py 95-135). -/
def Cfg.std : Cfg :=
  { var := c!"$", com := c!"##", mlStart := c!"#*", mlEnd := c!"*#", dir := c!"#", dirEnd := c!"#",
    psp := c!"<%", pspEnd := c!"%>", slurp := c!"#", wsAfterDir := false, gobbleMl := true, filterArgs := true,
    names := stdNames }

/-- What the parser reads from: settings, source, break point.
Models SourceReader.py 16-24 and Parser.py 1399-1405. -/
structure Cx where
  cfg : Cfg
  src : Str
  bp : Nat

/-- SourceReader.py 150-153 `peek`, guarded by `atEnd` (144-145); `none` at the end. -/
def Cx.peek (x : Cx) (p : Nat) : Option Char := if p < x.bp then x.src[p]? else none

/-- SourceReader.py 150-153 `peek` without a guard: past the last character of the source
it is an IndexError; at a break point inside the source the character after it. -/
def Cx.peek! (x : Cx) (p : Nat) : Except Err Char :=
  if x.bp < p then .error .reader
  else match x.src[p]? with
    | some c => .ok c
    | none => .error .index

/-- SourceReader.py 97-110, 169-196: moving to a position checks it. -/
def Cx.goto (x : Cx) (p : Nat) : Except Err Nat := if p ≤ x.bp then .ok p else .error .reader

/-- Parser.py 154 `escCharLookBehind`: at the start of the source, or not after a backslash. -/
def Cx.unescaped (x : Cx) (p : Nat) : Bool := p == 0 || x.src[p - 1]? != some '\\'

/-- The text from a position on, as `re.match(src, pos)` sees it (Parser.py 611-642). -/
def Cx.rest (x : Cx) (p : Nat) : Str := x.src.drop p

/-- Parser.py 520-531, 545-554: a token, not escaped; the position after it.
Models matchCommentStartToken, matchMultiLineCommentStartToken, matchMultiLineCommentEndToken,
matchDirectiveEndToken, matchPSPStartToken, matchPSPEndToken (Parser.py 621-642, 789-814). -/
def Cx.matchTok (x : Cx) (t : Str) (p : Nat) : Option Nat :=
  if x.unescaped p && startsWith (x.rest p) t then some (p + t.length) else none

/-- Parser.py 80, 155 identchars and nameCharLookAhead. -/
def identStart (c : Char) : Bool := c.isAlpha || c == '_'

/-- Parser.py 81, 156 namechars. -/
def identChar (c : Char) : Bool := c.isAlphanum || c == '_'

/-- Parser.py 151 `[ \t\f]`, SourceReader.py 244-247 WSchars. -/
def isWs (c : Char) : Bool := c == ' ' || c == '\t' || c == '\x0c'

/-- Parser.py 486, 506: an opening bracket. -/
def isOpen (c : Char) : Bool := c == '{' || c == '(' || c == '['

/-- Parser.py 1008, 1185: a closing bracket. -/
def isClose (c : Char) : Bool := c == '}' || c == ')' || c == ']'

/-- Does the list start with a character satisfying `f`? A regular expression lookahead
(Parser.py 155, 486-492, 506, 539). -/
def headIs (f : Char → Bool) : Str → Bool
  | [] => false
  | c :: _ => f c

/-- Parser.py 472-477: an optional `!`. -/
def afterSilent : Str → Str
  | '!' :: r => r
  | r => r

/-- The `enclosure` group and the lookahead of Parser.py 486, after the cache token. -/
def enclosureThenName (s : Str) : Bool :=
  headIs identStart s ||
  match s with
  | c :: r => isOpen c && headIs identStart (r.dropWhile isWs)
  | [] => false

/-- Parser.py 480-486 `cheetahVarStartRE` (matchCheetahVarStart and matchVariablePlaceholderStart,
828-830 and 841-843). -/
def Cx.matchVarStart (x : Cx) (p : Nat) : Bool :=
  x.unescaped p &&
  match stripPrefix? x.cfg.var (x.rest p) with
  | some r => enclosureThenName (Interval.readToken (afterSilent r)).2
  | none => false

/-- The end of `expressionPlaceholderStartRE` after the cache token: a bracket, optional white
space, and a character that closes no bracket (white space itself is one). Parser.py 506. -/
def openThenExpr : Str → Bool
  | c :: d :: _ => isOpen c && !isClose d
  | _ => false

/-- Parser.py 500-506 (matchExpressionPlaceholderStart, 845-847). -/
def Cx.matchExprStart (x : Cx) (p : Nat) : Bool :=
  x.unescaped p &&
  match stripPrefix? x.cfg.var (x.rest p) with
  | some r => openThenExpr (Interval.readToken r).2
  | none => false

/-- Parser.py 487-493 (matchCheetahVarStartToken, 832-834): the position after the token. -/
def Cx.matchVarTok (x : Cx) (p : Nat) : Option Nat :=
  if x.unescaped p then
    match stripPrefix? x.cfg.var (x.rest p) with
    | some r => if headIs (fun c => identStart c || c == '*' || c == '!' || isOpen c) r then some (p + x.cfg.var.length) else none
    | none => none
  else none

/-- Parser.py 495-498 (matchCheetahVarInExpressionStartToken, 836-839). -/
def Cx.matchVarInExpr (x : Cx) (p : Nat) : Bool :=
  match stripPrefix? x.cfg.var (x.rest p) with
  | some r => headIs identStart r
  | none => false

/-- Parser.py 539-544 (matchDirectiveStartToken, 780-781): the position after the token. -/
def Cx.matchDirStart (x : Cx) (p : Nat) : Option Nat :=
  if x.unescaped p then
    match stripPrefix? x.cfg.dir (x.rest p) with
    | some r =>
      let w := if x.cfg.wsAfterDir then r.takeWhile (fun c => c == ' ' || c == '\t') else []
      if headIs (fun c => identStart c || c == '@') (r.drop w.length) then some (p + x.cfg.dir.length + w.length) else none
    | none => none
  else none

/-- Parser.py 753 `directiveNameChars`. -/
def dirNameChar (c : Char) : Bool := identChar c || c == '-' || c == '@'

/-- Parser.py 759-775, the loop of `matchDirectiveName`: `possible` are the names that start
with `name`, what was read so far; the text ends at the break point. -/
def nameLoop (possible : List Str) (name : Str) : Str → Option Str
  | [] => none
  | c :: cs =>
    if !dirNameChar c then none
    else if name ++ [c] = ['@'] then (if headIs identStart cs then some ['@'] else none)
    else
      let possible' := possible.filter fun dn => startsWith dn (name ++ [c])
      if possible' = [] then none
      else if possible'.contains (name ++ [c]) && !headIs dirNameChar cs then some (name ++ [c])
      else nameLoop possible' (name ++ [c]) cs

/-- Parser.py 752-778 `matchDirectiveName`. -/
def Cx.matchDirName (x : Cx) (p : Nat) : Option Str := nameLoop x.cfg.names [] ((x.src.take x.bp).drop p)

/-- Parser.py 741-750 `matchDirective`; the error is that of readTo past the break point. -/
def Cx.matchDirective (x : Cx) (p : Nat) : Except Err (Option Str) :=
  match x.matchDirStart p with
  | none => .ok none
  | some q => (x.goto q).map x.matchDirName

/-- The length of the line end a text starts with (Parser.py 152, 157); 0 if it starts with none. -/
def eolLen : Str → Nat
  | '\r' :: '\n' :: _ => 2
  | '\r' :: _ => 1
  | '\n' :: _ => 1
  | _ => 0

/-- Parser.py 508-515, 611-613 `matchEOLSlurpToken`: the only token that is not subject to
the escape look-behind. -/
def Cx.matchSlurp (x : Cx) (p : Nat) : Bool :=
  x.cfg.slurp != [] &&
  match stripPrefix? x.cfg.slurp (x.rest p) with
  | some r => eolLen (r.dropWhile isWs) != 0
  | none => false

/-- The tokens tried in turn by `parse` and by `matchTopLevelToken` (Parser.py 437-445, 1544-1557). -/
inductive Tag where
  | comment | mlComment | varPlaceholder | exprPlaceholder | directive | psp | slurp
  deriving DecidableEq, Repr

/-- Parser.py 1544-1557 and 587-590: the first matcher that succeeds at a position. -/
def Cx.tagAt (x : Cx) (p : Nat) : Except Err (Option Tag) :=
  if (x.matchTok x.cfg.com p).isSome then .ok (some .comment)
  else if (x.matchTok x.cfg.mlStart p).isSome then .ok (some .mlComment)
  else if x.matchVarStart p then .ok (some .varPlaceholder)
  else if x.matchExprStart p then .ok (some .exprPlaceholder)
  else do
    if (← x.matchDirective p).isSome then .ok (some .directive)
    else if (x.matchTok x.cfg.psp p).isSome then .ok (some .psp)
    else if x.matchSlurp p then .ok (some .slurp)
    else .ok none

/-- Parser.py 431-436 `_possibleNonStrConstantChars`, and 586: is the character one of them? -/
def Cfg.mayStart (g : Cfg) (c : Char) : Bool :=
  [g.com, g.mlStart, g.var, g.dir, g.psp].any fun t => t.head? == some c

/-- Parser.py 573-591 `matchTopLevelToken`, before the end. -/
def Cx.topLevel (x : Cx) (p : Nat) : Except Err (Option Tag) :=
  match x.src[p]? with
  | some c => if x.cfg.mayStart c then x.tagAt p else .ok none
  | none => .ok none

/-- Parser.py 1569-1575, the loop of `eatPlainText`: where the text ends. The number is what is left
up to the break point. -/
def Cx.plainEnd (x : Cx) : Nat → Nat → Except Err Nat
  | 0, p => .ok p
  | n + 1, p => do
    match ← x.topLevel p with
    | some _ => .ok p
    | none => x.plainEnd n (p + 1)

/-- `s[i:j]` of the source (SourceReader.py 183-188). -/
def Cx.slice (x : Cx) (i j : Nat) : Str := (x.src.take j).drop i

/-- Parser.py 556-568, 1577-1578: the two replacements. -/
def unescape (g : Cfg) (s : Str) : Str :=
  replaceStr ('\\' :: g.dir) g.dir (replaceStr ('\\' :: g.var) g.var s)

/-- Parser.py 1567-1580 `eatPlainText`: the text handed to the compiler, and where it ends. -/
def Cx.eatPlainText (x : Cx) (p : Nat) : Except Err (Str × Nat) := do
  let q ← x.plainEnd (x.bp - p) p
  .ok (unescape x.cfg (x.slice p q), q)

/-- SourceReader.py 220-228 `findEOL`. -/
def Cx.eol (x : Cx) (p : Nat) : Nat := (Reader.eolSearch x.src p).1

/-- SourceReader.py 220-228 `findEOL(gobble=True)`. -/
def Cx.eolGobble (x : Cx) (p : Nat) : Nat := (Reader.eolSearch x.src p).2

/-- SourceReader.py 190-196 `readToEOL`: the text and the new position. -/
def Cx.readToEOL (x : Cx) (gobble : Bool) (p : Nat) : Except Err (Str × Nat) := do
  let q ← x.goto (if gobble then x.eolGobble p else x.eol p)
  .ok (x.slice p q, q)

/-- SourceReader.py 230-236 `isLineClearToPos` for a position on the line of the cursor. -/
def Cx.lineClear (x : Cx) (p : Nat) : Bool :=
  let b := Reader.findBOL x.src p
  b == p || (x.slice b p).all isSpace

/-- SourceReader.py 247-258 `getWhiteSpace` without a maximum: the white space from here to the break point. -/
def Cx.ws (x : Cx) (p : Nat) : Str := (x.slice p x.bp).takeWhile isWs

/-- SourceReader.py 247-258 `getWhiteSpace(max=1)`: the new position. -/
def Cx.skip1 (x : Cx) (p : Nat) : Nat := if headIs isWs (x.slice p x.bp) then p + 1 else p

/-- SourceReader.py 247-258 `getWhiteSpace()`: the new position. -/
def Cx.skip (x : Cx) (p : Nat) : Nat := p + (x.ws p).length

/-- Parser.py 1597-1609, the loop of `eatMultiLineComment`: returns `endPos`. `level` counts
the open comments; `n` is fuel. After every token, and after every other
character, the cursor is advanced by one more character (1609). -/
def Cx.mlScan (x : Cx) : Nat → Nat → Nat → Except Err Nat
  | 0, _, _ => .error .fuel
  | n + 1, level, p =>
    if x.bp ≤ p then .ok p
    else match x.matchTok x.cfg.mlStart p with
      | some q => do
        let q ← x.goto q
        let q ← x.goto (q + 1)
        x.mlScan n (level + 1) q
      | none =>
        match x.matchTok x.cfg.mlEnd p with
        | some q => do
          let q ← x.goto q
          if level - 1 = 0 then .ok p
          else do
            let q ← x.goto (q + 1)
            x.mlScan n (level - 1) q
        | none => x.mlScan n level (p + 1)

/-- Commands the parser gives to the compiler, in order; the names are those of the
methods called (Parser.py 1579-2763). Source positions (`lineCol`, `parserComment`) are left out. -/
inductive Cmd where
  | strConst (s : Str)
  | comment (s : Str)
  | handleWS
  | commit
  | placeholder (expr raw : Str) (filterArgs : Option Str) (cache : Interval.Token) (silent : Bool)
  | psp (s : Str)
  | indenting (name expr : Str)
  | reindenting (name expr : Str) (dedent : Bool)
  | ternary (c t f : Str)
  | dedent
  | simple (name expr : Str)
  | set (lvalue op rvalue : Str) (style : Nat)
  | raw (s : Str)
  | include_ (expr : Str) (fromStr isRaw : Bool)
  | startCall (fn args : Str)
  | endCall
  | callArg (name : Str)
  | startCapture (e : Str)
  | endCapture
  | startCache (args : List (Str × Option Str))
  | endCache
  | setFilter (f : Str) (isKlass : Bool)
  | closeFilter
  | setTransform (f : Str) (isKlass : Bool)
  | errorCatcher (name : Str)
  | errorCatcherOff
  | startMethod (name : Str) (args : List (Str × Option Str))
  | addClosure (name : Str) (args : List (Str × Option Str))
  | closeDef
  | closeBlock
  | attr (name expr : Str)
  | decorator (e : Str)
  | extends_ (e : Str)
  | implements_ (name : Str) (args : List (Str × Option Str))
  | super (args : List (Str × Option Str))
  | shBang (s : Str)
  | encoding (s : Str)
  deriving DecidableEq, Repr

/-- Parser.py 1582-1588 `eatComment`. -/
def Cx.eatComment (x : Cx) (p : Nat) : Except Err (List Cmd × Nat) := do
  let clear := x.lineClear p
  match x.matchTok x.cfg.com p with
  | none => .error (.parse p .other)
  | some q =>
    let q ← x.goto q
    let (s, r) ← x.readToEOL clear q
    .ok ((if clear then [.handleWS] else []) ++ [.comment s], r)

/-- Parser.py 1615-1625, the end of `eatMultiLineComment`, from the position after the end token. -/
def Cx.afterMl (x : Cx) (clear : Bool) (eol1 : Nat) (comm : Str) (p : Nat) : Except Err (List Cmd × Nat) := do
  if p < x.bp && x.cfg.gobbleMl then
    let e ← x.goto (x.eol p)
    let q ← if strip (x.slice p e) = [] then (do let (_, q) ← x.readToEOL clear p; .ok q) else .ok p
    .ok ((if clear && (x.bp ≤ q || eol1 < q) then [.handleWS] else []) ++ [.comment comm], q)
  else .ok ([.comment comm], p)

/-- Parser.py 1590-1625 `eatMultiLineComment`. -/
def Cx.eatMlComment (x : Cx) (p : Nat) : Except Err (List Cmd × Nat) := do
  match x.matchTok x.cfg.mlStart p with
  | none => .error (.parse p .other)
  | some q =>
    let q ← x.goto q
    let e ← x.mlScan (x.bp + 1 - q) 1 q
    let comm := x.slice q e
    if e < x.bp then
      match x.matchTok x.cfg.mlEnd e with
      | none => .error (.parse e .other)
      | some r => do
        let r ← x.goto r
        x.afterMl (x.lineClear p) (x.eol p) comm r
    else x.afterMl (x.lineClear p) (x.eol p) comm e

/-- Parser.py 1648-1652, the loop of `eatPSP`: where the end token is, or the break point. -/
def Cx.pspScan (x : Cx) : Nat → Nat → Nat
  | 0, p => p
  | n + 1, p =>
    if (x.matchTok x.cfg.pspEnd p).isSome then p else x.pspScan n (p + 1)

/-- Parser.py 1642-1657 `eatPSP`, with the directive enabled and no expression filters. -/
def Cx.eatPsp (x : Cx) (p : Nat) : Except Err (List Cmd × Nat) := do
  match x.matchTok x.cfg.psp p with
  | none => .error (.parse p .other)
  | some q =>
    let q ← x.goto q
    let e := x.pspScan (x.bp - q) q
    match x.matchTok x.cfg.pspEnd e with
    | none => .error (.parse e .other)
    | some r => do
      let r ← x.goto r
      .ok ([.psp (strip (x.slice q e))], r)

end Cheetah.Parser
