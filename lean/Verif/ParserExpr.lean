import Verif.ParserTok
import Verif.GenVar
/-
Model of the expression level of Cheetah/Parser.py: dotted names, placeholders inside
expressions, call arguments, expressions, argument lists of definitions and top-level
placeholders (lines 359-391, 593-609, 686-715, 872-968, 970-1265, 1323-1391).

Python's own tokenizer (`tokenize.PseudoToken`) is a parameter: `tok` gives the length of the
token a text starts with (triple-quoted strings included, Parser.py 593-601), or none.
The recursion of the functions is bounded by a number (`fuel`) that is never reached
(`C39_expression_terminates`).
-/
namespace Cheetah.Parser
open GenVar (Chunk)

/-- The parser's surroundings, with the Python tokenizer. Models Parser.py 593-609 (`tok`). -/
structure Px extends Cx where
  tok : Str → Option Nat

/-- Parser.py 133 `closurePairsRev`. -/
def closeOf (c : Char) : Char := if c = '(' then ')' else if c = '[' then ']' else '}'

/-- Parser.py 603-609 `getPyToken`; a malformed triple-quoted string counts as no token. -/
def Px.pyTok (x : Px) (p : Nat) : Except Err (Str × Nat) :=
  match x.tok (x.rest p) with
  | none => .error (.parse p .other)
  | some n => do
    let q ← x.goto (p + n)
    .ok (x.slice p q, q)

/-- Parser.py 1267-1302 `transformToken`: `c'...'` strings are not modelled, other tokens
are left alone. -/
def Px.transform (x : Px) (t : Str) (p : Nat) : Except Err Str :=
  if t = c!"c" ∧ (x.peek p = some '\'' ∨ x.peek p = some '"') then .error .unsupported else .ok t

/-- Parser.py 708-715 `getIdentifier`. -/
def Px.identifier (x : Px) (p : Nat) : Except Err (Str × Nat) :=
  if headIs identStart (x.rest p) then do
    let q ← x.goto (p + ((x.rest p).takeWhile identChar).length)
    .ok (x.slice p q, q)
  else .error (.parse p .other)

/-- Parser.py 693-704, the loop of `getDottedName`; the number is what is left up to the break point. -/
def Px.dottedLoop (x : Px) : Nat → Nat → Except Err (Str × Nat)
  | 0, p => .ok ([], p)
  | n + 1, p =>
    match x.peek p with
    | none => .ok ([], p)
    | some c =>
      if identChar c then do
        let (a, q) ← x.identifier p
        let (b, r) ← x.dottedLoop n q
        .ok (a ++ b, r)
      else if c = '.' ∧ (x.peek (p + 1)).any identStart then do
        let (b, r) ← x.dottedLoop n (p + 1)
        .ok ('.' :: b, r)
      else .ok ([], p)

/-- Parser.py 686-706 `getDottedName`. -/
def Px.dottedName (x : Px) (p : Nat) : Except Err (Str × Nat) := do
  let c ← x.peek! p
  if identStart c then x.dottedLoop (x.bp - p) p else .error (.parse p .other)

/-- Parser.py 864-870 and 856-862: the optional `!` and the cache token; an error moving there becomes a
ParseError. -/
def Px.silentAndCache (x : Px) (p : Nat) : Except Err (Bool × Interval.Token × Nat) :=
  let r := x.rest p
  let r1 := afterSilent r
  let (t, r2) := Interval.readToken r1
  let q := p + (r.length - r2.length)
  if q ≤ x.bp then .ok (r.length != r1.length, t, q) else .error (.parse p .other)

/-- Parser.py 900-901 and 849-854 `getCheetahVarStartToken`. -/
def Px.varStart (x : Px) (skip : Bool) (p : Nat) : Except Err Nat :=
  if skip then .ok p
  else match x.matchVarTok p with
    | some q => x.goto q
    | none => .error (.parse p .other)

/-- `genCheetahVar` (Compiler.py 187-193); an empty list of chunks is an IndexError. -/
def genVar (st : GenVar.Settings) (plain : Bool) (cs : List Chunk) : Except Err Str :=
  match GenVar.genCheetahVar st plain cs with
  | some s => .ok s
  | none => .error .index

mutual
/-- Parser.py 1142-1250 `getExpressionParts`: `enclosed`, `pyTokensToBreakAt`, `enclosures` (innermost
first) and the position. Line ends inside brackets are dropped (1215-1217). -/
def Px.exprParts (x : Px) : Nat → GenVar.Settings → Bool → List Str → List (Char × Nat) → Nat → Except Err ((List Str) × Nat)
  | 0, _, _, _, _, _ => .error .fuel
  | n + 1, st, enclosed, brk, enc, p =>
    match x.peek p with
    | none =>
      match enc with
      | (o, q) :: _ => .error (.parse q (.eof o))
      | [] => .ok ([], p)
    | some c =>
      if isOpen c then do
        let (bs, r) ← x.exprParts n st enclosed brk ((c, p) :: enc) (p + 1)
        .ok ([c] :: bs, r)
      else if enclosed ∧ enc = [] then .ok ([], p)
      else if isClose c then
        match enc with
        | [] => .error (.parse p .other)
        | (o, q) :: enc' =>
          if closeOf o = c then do
            let (bs, r) ← x.exprParts n st enclosed brk enc' (p + 1)
            .ok ([c] :: bs, r)
          else .error (.parse q (.mismatch c p o))
      else if isWs c then do
        let (bs, r) ← x.exprParts n st enclosed brk enc (p + (x.ws p).length)
        .ok (x.ws p :: bs, r)
      else if (x.matchTok x.cfg.dirEnd p).isSome ∧ enc = [] then .ok ([], p)
      else if c = '\\' ∧ p + 1 < x.bp then
        if eolLen (x.rest (p + 1)) = 0 then .error (.parse (p + 1) .other)
        else do
          let q ← x.goto (p + 1 + eolLen (x.rest (p + 1)))
          x.exprParts n st enclosed brk enc q
      else if c = '\r' ∨ c = '\n' then
        if enc = [] then .ok ([], p) else x.exprParts n st enclosed brk enc (p + 1)
      else if x.matchVarInExpr p then do
        let (v, q) ← x.cheetahVar n st false false p
        let (bs, r) ← x.exprParts n st enclosed brk enc q
        .ok (v :: bs, r)
      else if x.matchVarStart p then .error (.parse p .other)
      else do
        let (t, q) ← x.pyTok p
        if enc = [] ∧ t ∈ brk then .ok ([], p)
        else do
          let t ← x.transform t q
          if headIs identStart t then
            if t = c!"for" then do
              let (e, q2) ← x.exprParts n { st with useNameMapper := false } false [c!"in"] [] q
              let (bs, r) ← x.exprParts n st enclosed brk enc q2
              .ok (t :: e.flatten :: bs, r)
            else
              let w := x.ws q
              let q2 := q + w.length
              if x.peek q2 = some '(' then do
                let (a, q3) ← x.callArgs n st [('(', q2)] (q2 + 1)
                let (bs, r) ← x.exprParts n st enclosed brk enc q3
                .ok (t :: w :: ('(' :: a) :: bs, r)
              else do
                let (bs, r) ← x.exprParts n st enclosed brk enc q2
                .ok (t :: w :: bs, r)
          else do
            let (bs, r) ← x.exprParts n st enclosed brk enc q
            .ok (t :: bs, r)

/-- Parser.py 998-1047, the loop of `getCallArgString`; the result lacks the first `(` (995). A caller that
starts at a `(` has read it (985-993). -/
def Px.callArgs (x : Px) : Nat → GenVar.Settings → List (Char × Nat) → Nat → Except Err (Str × Nat)
  | 0, _, _, _ => .error .fuel
  | n + 1, st, enc, p =>
    match x.peek p with
    | none =>
      match enc with
      | (o, q) :: _ => .error (.parse q (.eof o))
      | [] => .error .index
    | some c =>
      if isClose c then
        match enc with
        | [] => .error (.parse p .other)
        | (o, _) :: _ => if closeOf o = c then .ok ([')'], p + 1) else .error (.parse (p + 1) .other)
      else if isWs c ∨ c = '\r' ∨ c = '\n' then do
        let (s, r) ← x.callArgs n st enc (p + 1)
        .ok (c :: s, r)
      else if x.matchVarInExpr p then do
        let (v, q) ← x.cheetahVar n st false false p
        let w := x.ws q
        let q2 := q + w.length
        if x.peek q2 = some '=' then do
          let (t, q3) ← x.pyTok q2
          if t = c!"=" then do
            let (v', _) ← x.cheetahVar n st true false p
            let (s, r) ← x.callArgs n st enc q3
            .ok (v' ++ w ++ t ++ s, r)
          else do
            let (s, r) ← x.callArgs n st enc q3
            .ok (v ++ w ++ t ++ s, r)
        else do
          let (s, r) ← x.callArgs n st enc q2
          .ok (v ++ w ++ s, r)
      else if x.matchVarStart p then .error (.parse p .other)
      else do
        let (t, q) ← x.pyTok p
        if t = c!"{" ∨ t = c!"(" ∨ t = c!"[" then do
          let (e, q2) ← x.exprParts n st true [] [] (q - 1)
          let (s, r) ← x.callArgs n st enc q2
          .ok (e.flatten ++ s, r)
        else do
          let t ← x.transform t q
          let (s, r) ← x.callArgs n st enc q
          .ok (t ++ s, r)

/-- Parser.py 939-968, the loop of `getCheetahVarNameChunks`. -/
def Px.nameChunks (x : Px) : Nat → GenVar.Settings → Nat → Except Err ((List Chunk) × Nat)
  | 0, _, _ => .error .fuel
  | n + 1, st, p =>
    match x.peek p with
    | none => .ok ([], p)
    | some c =>
      if ¬ (identStart c ∨ c = '.') then .ok ([], p)
      else if c = '.' ∧ ¬ (x.peek (p + 1)).any identStart then .ok ([], p)
      else do
        let (d, q) ← x.dottedName (if c = '.' then p + 1 else p)
        if x.peek q = some '(' then do
          let (a, q2) ← x.callArgs n st [('(', q)] (q + 1)
          let (cs, r) ← x.nameChunks n st q2
          .ok (GenVar.splitChunk d ('(' :: a) ++ cs, r)
        else if x.peek q = some '[' then do
          let (e, q2) ← x.exprParts n st true [] [] q
          let (cs, r) ← x.nameChunks n st q2
          .ok (GenVar.splitChunk d e.flatten ++ cs, r)
        else do
          let (cs, r) ← x.nameChunks n st q
          .ok (GenVar.splitChunk d [] ++ cs, r)

/-- Parser.py 895-909 `getCheetahVar`: `plain`, `skipStartToken`. -/
def Px.cheetahVar (x : Px) : Nat → GenVar.Settings → Bool → Bool → Nat → Except Err (Str × Nat)
  | 0, _, _, _, _ => .error .fuel
  | n + 1, st, plain, skip, p => do
    let p1 ← x.varStart skip p
    let (_, _, p2) ← x.silentAndCache p1
    let (cs, q) ← x.nameChunks n st p2
    let v ← genVar st plain cs
    .ok (v, q)
end

/-- The fuel used for an expression from `p` on. Models no code in /repo: Python has no such bound
(Parser.py 1165 is `while True`). -/
def Px.fuel (x : Px) (p : Nat) : Nat := 4 * (x.bp - p) + 4

/-- Parser.py 1252-1265 `getExpression`. -/
def Px.expression (x : Px) (st : GenVar.Settings) (enclosed : Bool) (brk : List Str) (enc : List (Char × Nat)) (p : Nat) : Except Err (Str × Nat) := do
  let (bs, q) ← x.exprParts (x.fuel p) st enclosed brk enc p
  .ok (bs.flatten, q)

/-- Parser.py 970-1053 `getCallArgString` without enclosures, from the `(` on. -/
def Px.callArgString (x : Px) (st : GenVar.Settings) (p : Nat) : Except Err (Str × Nat) := do
  let c ← x.peek! p
  if c = '(' then do
    let (s, q) ← x.callArgs (x.fuel p) st [('(', p)] (p + 1)
    .ok ('(' :: s, q)
  else .error (.parse p .other)

/-- What `eatPlaceholder` gets (Parser.py 1388-1389). -/
structure Placeholder where
  expr : Str
  raw : Str
  filterArgs : Option Str
  cache : Interval.Token
  silent : Bool
  deriving DecidableEq, Repr

/-- `s[:-1]` if the last character closes the bracket (Parser.py 1370-1372, 1377-1378). -/
def dropClose (o : Char) (s : Str) : Str := if s.getLast? = some (closeOf o) then s.dropLast else s

/-- Parser.py 1344-1350: the enclosure of a placeholder. -/
def Px.phOpen (x : Px) (p : Nat) : Except Err (List (Char × Nat) × Nat) := do
  let c ← x.peek! p
  if isOpen c then do
    let q ← x.goto (p + 1)
    .ok ([(c, p)], x.skip q)
  else .ok ([], p)

/-- Parser.py 1360-1373: what follows the name in a placeholder with an enclosure `o`: the rest of the
expression and the filter arguments. The `restOfExpr[-1]` of an empty string is an IndexError. -/
def Px.phRest (x : Px) (st : GenVar.Settings) (o : Char) (enc : List (Char × Nat)) (p : Nat) : Except Err ((Str × Option Str) × Nat) := do
  let d ← x.peek! p
  if x.cfg.filterArgs ∧ d = ',' then do
    let (a, q) ← x.callArgs (x.fuel p) st enc p
    .ok (([], some a.dropLast), q)
  else if d = closeOf o then do
    let q ← x.goto (p + 1)
    .ok (([], none), q)
  else do
    let (r, q) ← x.expression st true [] enc p
    if r = [] then .error .index else .ok ((dropClose o r, none), q)

/-- Parser.py 1353-1379: the expression of a placeholder and its filter arguments. -/
def Px.phBody (x : Px) (st : GenVar.Settings) (enc : List (Char × Nat)) (p : Nat) : Except Err ((Str × Option Str) × Nat) :=
  if headIs identStart (x.rest p) then do
    let (cs, q) ← x.nameChunks (x.fuel p) st p
    let e ← genVar st false cs
    match enc with
    | [] => .ok ((e, none), q)
    | (o, _) :: _ => do
      let ((r, f), q2) ← x.phRest st o enc (q + (x.ws q).length)
      .ok ((e ++ x.ws q ++ r, f), q2)
  else do
    let (r, q) ← x.expression st true [] enc p
    match enc with
    | [] => .error .index
    | (o, _) :: _ => if r = [] then .error .index else .ok ((dropClose o r, none), q)

/-- Parser.py 1323-1391 `getPlaceholder(allowCacheTokens=True, returnEverything=True)`, without hooks and
expression filters. -/
def Px.placeholder (x : Px) (st : GenVar.Settings) (p : Nat) : Except Err (Placeholder × Nat) := do
  let p1 ← x.varStart false p
  let (silent, cache, p2) ← x.silentAndCache p1
  let (enc, p3) ← x.phOpen p2
  let ((e, f), q) ← x.phBody st enc p3
  .ok (⟨e, x.slice p q, f, cache, silent⟩, q)

/-! ### Argument lists of definitions -/

/-- Parser.py 359-378 `ArgList`. -/
structure ArgList where
  names : List Str := []
  defaults : List (Option Str) := []
  count : Nat := 0
  deriving DecidableEq, Repr

/-- Parser.py 367-369 `add_argument`. -/
def ArgList.addArgument (a : ArgList) (name : Str) : ArgList :=
  { a with names := a.names ++ [name], defaults := a.defaults ++ [none] }

/-- Parser.py 371-372 `next`. -/
def ArgList.next (a : ArgList) : ArgList := { a with count := a.count + 1 }

/-- Parser.py 374-378 `add_default`; an IndexError if there is no such argument. -/
def ArgList.addDefault (a : ArgList) (t : Str) : Except Err ArgList :=
  match a.defaults[a.count]? with
  | none => .error .index
  | some d => .ok { a with defaults := a.defaults.set a.count (some (d.getD [] ++ t)) }

/-- Parser.py 380-388 `merge` (the two lists have the same length). -/
def ArgList.merge (a : ArgList) : List (Str × Option Str) :=
  (a.names.zip a.defaults).map fun (n, d) =>
    (strip n, match d with
      | some s => if strip s = [] then none else some (strip s)
      | none => none)

/-- Parser.py 1113-1126: one token of a default value. -/
def Px.defaultToken (x : Px) (st : GenVar.Settings) (p : Nat) : Except Err (Str × Nat) :=
  if x.matchVarInExpr p then x.cheetahVar (x.fuel p) st false false p
  else if x.matchVarStart p then .error (.parse p .other)
  else do
    let (t, q) ← x.pyTok p
    if t = c!"{" ∨ t = c!"(" ∨ t = c!"[" then x.expression st true [] [] (q - 1)
    else do
      let t ← x.transform t q
      .ok (t, q)

/-- Parser.py 1084-1136, the loop of `getDefArgList`: `exitPos`, `onDefVal` and the list so far. -/
def Px.defArgs (x : Px) : Nat → GenVar.Settings → Option Nat → Bool → ArgList → Nat → Except Err (ArgList × Nat)
  | 0, _, _, _, _, _ => .error .fuel
  | n + 1, st, exit, onDef, a, p =>
    match x.peek p with
    | none => .error (.parse p (.eof '('))
    | some c =>
      if exit = some p then .ok (a, p)
      else if c = ')' ∨ (x.matchTok x.cfg.dirEnd p).isSome then .ok (a, p)
      else if c = ':' then .ok (a, p)
      else if isWs c ∨ c = '\r' ∨ c = '\n' then
        if onDef then do
          let a ← a.addDefault [c]
          x.defArgs n st exit onDef a (p + 1)
        else x.defArgs n st exit onDef a (p + 1)
      else if c = '=' then x.defArgs n st exit true a (p + 1)
      else if c = ',' then x.defArgs n st exit false a.next (p + 1)
      else if startsWith (x.rest p) x.cfg.var ∧ onDef = false then do
        let q ← x.goto (p + x.cfg.var.length)
        x.defArgs n st exit onDef a q
      else if identStart c ∧ onDef = false then do
        let (i, q) ← x.identifier p
        x.defArgs n st exit onDef (a.addArgument i) q
      else if onDef then do
        let (t, q) ← x.defaultToken st p
        let a ← a.addDefault t
        x.defArgs n st exit onDef a q
      else if c = '*' then do
        let d ← x.peek! (p + 1)
        let stars := if d = '*' then c!"**" else c!"*"
        if headIs identStart (x.rest (p + stars.length)) then do
          let (i, q) ← x.identifier (p + stars.length)
          x.defArgs n st exit onDef (a.addArgument (stars ++ i)) q
        else .error (.parse (p + stars.length) .other)
      else .error (.parse p .other)

/-- Parser.py 1055-1140 `getDefArgList`. -/
def Px.defArgList (x : Px) (st : GenVar.Settings) (useNameMapper : Bool) (p : Nat) : Except Err ((List (Str × Option Str)) × Nat) := do
  let c ← x.peek! p
  let (exit, p1) := if c = '(' then ((none : Option Nat), p + 1) else (some (x.eol p), p)
  let p1 ← x.goto p1
  let (a, q) ← x.defArgs (x.bp - p1 + 1) { st with useNameMapper := useNameMapper } exit false {} p1
  .ok (a.merge, q)

/-- Compiler.py 1188-1200, the argument string in `methodSignature`; `kind` is `none` for an ordinary method,
`some false` for a class method and `some true` for a static method. -/
def argString (kind : Option Bool) (args : List (Str × Option Str)) : Str :=
  joinStr c!", " (args.filterMap fun (name, d) =>
    if name = c!"self" ∧ kind = some true then none
    else
      let chunk := if name = c!"self" ∧ kind = some false then c!"cls" else name
      some (match d with
        | some v => chunk ++ c!"=" ++ v
        | none => chunk))

end Cheetah.Parser
