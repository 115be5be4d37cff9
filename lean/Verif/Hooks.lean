import Verif.ParserHigh
/-!
# Expression filter hooks

Models `_applyExpressionFilters` (Parser.py 1485-1523) with hooks that give back the expression unchanged or raise an exception
("to implement restricted execution safeguards"), and what each part of the parser shows to the hooks before it goes on.
A hook that changes the expression is not modelled.
-/
namespace Cheetah.Parser

/-- What a hook is given (Parser.py 1504-1517): the type, the expression and `rawExpr`; `#cache` gives a list of arguments in
place of an expression (2521-2523). -/
inductive Shown where
  | expr (type e : Str) (raw : Option Str)
  | args (as : List (Str × Option Str))
  deriving DecidableEq, Repr

/-- What was read by a part of the parser; nothing if it raised an exception (then nothing is given to the compiler either). -/
def seen {α : Type} (f : α → List Shown) : Except Err α → List Shown
  | .ok a => f a
  | .error _ => []

/-- Parser.py 1776-1779: the type is the first word of the expression. -/
def Px.simpleExprShown (x : Px) (st : GenVar.Settings) (name : Str) (p : Nat) : List Shown :=
  seen id do
    let q ← x.nameStart (name = c!"silent" ∨ name = c!"echo") name p
    let (e, _) ← x.expression st false [] [] q
    .ok [.expr ((strip e).takeWhile (fun c => !isSpace c)) (strip e) none]

/-- Parser.py 1799-1801. -/
def Px.simpleIndentingShown (x : Px) (st : GenVar.Settings) (name : Str) (p : Nat) : List Shown :=
  seen id do
    let q ← x.nameStart (name = c!"repeat" ∨ name = c!"unless") name p
    let (e, _) ← x.expression st false [c!":"] [] (x.skip q)
    .ok [.expr name e none]

/-- Parser.py 1888-1902: `#shBang` and `#encoding`. -/
def Px.textShown (x : Px) (name type : Str) (p : Nat) : List Shown :=
  seen id do
    let q ← x.afterName name p
    let (s, _) ← x.readToEOL true (x.skip q)
    .ok [.expr type (strip s) none]

/-- Parser.py 2009-2010. -/
def Px.attrShown (x : Px) (st : GenVar.Settings) (p : Nat) : List Shown :=
  seen id do
    let q ← x.afterName c!"attr" p
    let q ← x.skipVar (x.skip q)
    let (_, q) ← x.identifier q
    let (_, q) ← x.assignOp (x.skip q)
    let (e, _) ← x.expression st false [] [] q
    .ok [.expr c!"attr" e none]

/-- Parser.py 2021-2023. -/
def Px.decoratorShown (x : Px) (st : GenVar.Settings) (p : Nat) : List Shown :=
  seen id do
    let q ← x.dirStart p
    let (e, _) ← x.expression st false [] [] q
    .ok [.expr c!"decorator" e none]

/-- Parser.py 2081-2082: the source of the definition, from the directive to the end of its arguments; the type is always `def`. -/
def Px.definitionShown (x : Px) (st : GenVar.Settings) (kind : DefKind) (p : Nat) : List Shown :=
  seen id do
    let q ← x.afterName kind.name p
    let q ← x.skipVar (x.skip q)
    let (_, q) ← x.identifier q
    let (_, q) ← x.optArgs st (x.skip q)
    .ok [.expr c!"def" (x.slice p q) none]

/-- Parser.py 2185-2186. -/
def Px.extendsShown (x : Px) (exprAllowed : Bool) (st : GenVar.Settings) (p : Nat) : List Shown :=
  seen id do
    let q ← x.afterName c!"extends" p
    let (e, _) ← x.baseName exprAllowed st (x.skip q)
    .ok [.expr c!"extends" e none]

/-- Parser.py 2210-2211. -/
def Px.implementsShown (x : Px) (st : GenVar.Settings) (p : Nat) : List Shown :=
  seen id do
    let q ← x.afterName c!"implements" p
    let q0 := x.skip q
    let (_, q) ← x.identifier q0
    let (_, q) ← x.optArgs' st q
    .ok [.expr c!"implements" (x.slice q0 q) none]

/-- Parser.py 2235-2236. -/
def Px.superShown (x : Px) (st : GenVar.Settings) (p : Nat) : List Shown :=
  seen id do
    let q ← x.afterName c!"super" p
    let q0 := x.skip q
    let (_, q) ← x.optArgs' st q0
    .ok [.expr c!"super" (x.slice q0 q) none]

/-- Parser.py 2267-2273. -/
def Px.setShown (x : Px) (st : GenVar.Settings) (p : Nat) : List Shown :=
  seen id do
    let q ← x.afterName c!"set" p
    let (_, q) ← x.setStyle (x.skip q)
    let (l, q) ← x.expression { st with useNameMapper := false } false assignOps [] q
    let (op, q) ← x.assignOp q
    let (r, _) ← x.expression st false [] [] q
    .ok [.expr c!"set" (strip l ++ c!" " ++ op ++ c!" " ++ strip r) none]

/-- Parser.py 2339-2341. -/
def Px.includeShown (x : Px) (st : GenVar.Settings) (p : Nat) : List Shown :=
  seen id do
    let q ← x.afterName c!"include" p
    let q := x.skip q
    let q ← x.goto (if startsWith (x.rest q) c!"raw" then q + 3 else q)
    let (_, q) ← x.includeSource (x.skip q)
    let (e, _) ← x.expression st false [] [] q
    .ok [.expr c!"include" e none]

/-- Parser.py 2520-2523: the list of arguments is given to the hooks. -/
def Px.cacheShown (x : Px) (st : GenVar.Settings) (p : Nat) : List Shown :=
  seen id do
    let q ← x.afterName c!"cache" p
    let (as, _) ← x.defArgList st true q
    .ok [.args as]

/-- Parser.py 2551-2563: the source of the function's name; the arguments are read after that (2566). -/
def Px.callShown (x : Px) (st : GenVar.Settings) (p : Nat) : List Shown :=
  seen id do
    let q0 ← x.afterName c!"call" p
    let (_, q) ← x.callName st (x.skip q0)
    .ok [.expr c!"call" (x.slice q0 q) none]

/-- Parser.py 2591-2594. -/
def Px.argShown (x : Px) (p : Nat) : List Shown :=
  seen id do
    let q ← x.afterName c!"arg" p
    let (name, _) ← x.identifier (x.skip q)
    .ok [.expr c!"arg" name none]

/-- Parser.py 2611-2618, 2644-2651: `#filter` and `#transform`. -/
def Px.filterShown (x : Px) (st : GenVar.Settings) (name : Str) (p : Nat) : List Shown :=
  seen id do
    let q ← x.afterName name p
    let (f, _, _) ← x.filterName st (x.skip q)
    .ok [.expr name f none]

/-- Parser.py 2666-2668. -/
def Px.errorCatcherShown (x : Px) (p : Nat) : List Shown :=
  seen id do
    let q ← x.afterName c!"errorCatcher" p
    let (name, _) ← x.identifier (x.skip q)
    .ok [.expr c!"errorcatcher" name none]

/-- Parser.py 2685-2686. -/
def Px.captureShown (x : Px) (st : GenVar.Settings) (p : Nat) : List Shown :=
  seen id do
    let q ← x.afterName c!"capture" p
    let (e, _) ← x.expression st false [c!":"] [] (x.skip q)
    .ok [.expr c!"capture" e none]

/-- Parser.py 2710-2712. -/
def Px.ifShown (x : Px) (st : GenVar.Settings) (p : Nat) : List Shown :=
  seen id do
    let q ← x.dirStart p
    let (ws, _) ← x.exprParts (x.fuel q) st false [c!":"] [] q
    .ok [.expr c!"if" (strip ws.flatten) none]

/-- Parser.py 171-241, 1671-1706: what the eater of a directive shows to the hooks. `#end`, `#raw`, `#slurp` and `#breakpoint`
show nothing. -/
def Px.shown (x : Px) (h : Env) (st : GenVar.Settings) (name : Str) (p : Nat) : List Shown :=
  if name ∈ indentingNames then x.simpleIndentingShown st name p
  else if name ∈ exprNames then x.simpleExprShown st name p
  else if name = c!"if" then x.ifShown st p
  else if name = c!"set" then x.setShown st p
  else if name = c!"def" then x.definitionShown st .def_ p
  else if name = c!"block" then x.definitionShown st .block p
  else if name = c!"closure" then x.definitionShown st .closure p
  else if name = c!"@" then x.decoratorShown st p
  else if name = c!"call" then x.callShown st p
  else if name = c!"arg" then x.argShown p
  else if name = c!"capture" then x.captureShown st p
  else if name = c!"cache" then x.cacheShown st p
  else if name = c!"filter" then x.filterShown st name p
  else if name = c!"transform" then x.filterShown st name p
  else if name = c!"errorCatcher" then x.errorCatcherShown p
  else if name = c!"include" then x.includeShown st p
  else if name = c!"attr" then x.attrShown st p
  else if name = c!"extends" then x.extendsShown h.exprExtends st p
  else if name = c!"implements" then x.implementsShown st p
  else if name = c!"super" then x.superShown st p
  else if name = c!"shBang" then x.textShown name c!"shbang" p
  else if name = c!"encoding" then x.textShown name c!"encoding" p
  else []

/-- What placeholders and PSP code show: Parser.py 1381-1383, 1653-1655. -/
def simpleShown : List Cmd → List Shown
  | [.placeholder e raw _ _ _] => [.expr c!"placeholder" e (some raw)]
  | [.psp s] => [.expr c!"psp" s none]
  | _ => []

mutual
/-- Parser.py 1543-1559, the loop of `parse`, with hooks: `ok` says which expressions they let pass. An exception of a hook is
given as a ParseError of that place (ForbiddenExpression, 271-272). -/
def Env.loopF (h : Env) (ok : Shown → Bool) : Nat → PS → Except Err PS
  | 0, _ => .error .fuel
  | n + 1, s =>
    if s.bp ≤ s.pos then .ok s
    else do
      let t ← (h.px s.bp).tagAt s.pos
      if t = some .directive then do
        let s ← h.eatDirectiveF ok n s
        h.loopF ok n s
      else do
        let (cs, q) ← (h.px s.bp).simple h s.st s.pos t
        if (simpleShown cs).all ok then h.loopF ok n (s.emit cs q) else .error (.parse s.pos .other)

/-- Parser.py 1671-1708 `eatDirective`, with hooks. -/
def Env.eatDirectiveF (h : Env) (ok : Shown → Bool) : Nat → PS → Except Err PS
  | 0, _ => .error .fuel
  | n + 1, s =>
    match (h.px s.bp).matchDirective s.pos with
    | .error e => .error e
    | .ok none => .error .assertion
    | .ok (some name) =>
      if h.disabled name then .error (.parse s.pos .other)
      else if ((h.px s.bp).shown h s.st name s.pos).all ok then do
        let a ← (h.px s.bp).directive h s.st name s.pos
        h.performF ok n s a
      else .error (.parse s.pos .other)

/-- What a directive does to the state, as `Env.perform` (Parser.py 1780-1783, 1800-1822, 1840-1872, 2018-2021, 2084-2118,
1536-1565); the source within a directive is parsed with the hooks too. -/
def Env.performF (h : Env) (ok : Shown → Bool) : Nat → PS → Act → Except Err PS
  | 0, _, _ => .error .fuel
  | n + 1, s, a =>
    match a with
    | .go cs p => .ok (s.emit cs p)
    | .opened name cs p => .ok { s.emit cs p with stack := name :: s.stack }
    | .closed name cs p => do
      let stack ← pop name p s.stack
      h.endBlock { s.emit cs p with stack := stack } name
    | .stop => .ok { s with bp := s.pos }
    | .line before p bp after => do
      let t ← h.loopF ok n { s.emit before p with bp := bp }
      .ok { t with bp := s.bp, cmds := t.cmds ++ after }
    | .defOpen kind name args cs p => .ok (h.openDef s kind name args cs p)
    | .defLine kind name args p bp clear eol => do
      let t ← h.loopF ok n (h.startLine s kind name args p bp)
      let nested := h.nestedDef s.stack 1
      let t ← restoreLine s kind nested t
      let (cs, q) ← (h.px s.bp).restTag clear eol t.pos
      .ok { t with bp := s.bp, cmds := t.cmds ++ h.endLine kind name nested ++ cs, pos := q }
    | .decorated cs p => h.eatDirectiveF ok n (s.emit cs p)
end

/-- Parser.py 1536-1563 `parse()` with hooks. -/
def Env.parseF (h : Env) (ok : Shown → Bool) (st : GenVar.Settings) : Except Err (List Cmd) := do
  let s ← h.loopF ok (3 * h.src.length + 4) { pos := 0, bp := h.src.length, st := st }
  if s.stack = [] then .ok s.cmds else .error (.parse s.pos (.unclosed s.stack.reverse))

end Cheetah.Parser
