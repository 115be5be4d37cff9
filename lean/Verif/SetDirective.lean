import Verif.PyStr
/-
Model of the `#set` directive: the style word (Cheetah/Parser.py 2246-2264, eatSet) and the
assignment statement (Cheetah/Compiler.py 572-600, MethodCompiler.addSet).
-/
namespace Cheetah.SetDirective

/-- Parser.py 72-74 `SET_LOCAL`, `SET_GLOBAL`, `SET_MODULE`. -/
inductive Style where
  | «local»
  | global
  | module
  deriving DecidableEq, Repr

/-- `[a-zA-Z_]` (Parser.py 156). -/
def identStart (c : Char) : Bool := c.isAlpha || c == '_'
/-- `[a-zA-Z_0-9]` (Parser.py 156). -/
def identChar (c : Char) : Bool := c.isAlphanum || c == '_'

/-- Parser.py 711-715 `getIdentifier`: what is left after the identifier; `none` is ParseError. -/
def afterIdent : Str → Option Str
  | c :: s => if identStart c then some (s.dropWhile identChar) else none
  | [] => none

/-- SourceReader.py 247-258 `getWhiteSpace`: what is left after blanks, form feeds and tabs. -/
def afterSpace (s : Str) : Str := s.dropWhile fun c => c == ' ' || c == '\x0c' || c == '\t'

/-- Parser.py 2251-2264: the source after `#set`; the style and the source where the left-hand
side starts. -/
def readStyle (s : Str) : Option (Style × Str) :=
  let s := afterSpace s
  if startsWith s c!"local" then (afterIdent s).map fun r => (.local, afterSpace r)
  else if startsWith s c!"global" then (afterIdent s).map fun r => (.global, afterSpace r)
  else if startsWith s c!"module" then (afterIdent s).map fun r => (.module, afterSpace r)
  else some (.local, s)

/-- `s.find(c)`: the index of the first `c`, or -1. -/
def find (c : Char) : Str → Int
  | [] => -1
  | d :: s => if d = c then 0 else
    let n := find c s
    if n = -1 then -1 else n + 1

/-- Compiler.py 577-592: `(primary, secondary)`. -/
def splitTarget (lvalue : Str) : Str × Str :=
  let pos1 := find '.' lvalue
  let pos2 := find '[' lvalue
  let pos :=
    if pos1 > 0 ∧ pos2 = -1 then pos1
    else if pos1 > 0 ∧ pos1 < max pos2 0 then pos1
    else pos2
  if pos > 0 then (lvalue.take pos.toNat, lvalue.drop pos.toNat) else (lvalue, [])

/-- The start of the target of a global assignment, Compiler.py 594. -/
def globalPrefix : Str := c!"self._CHEETAH__globalSetVars[\""

/-- Where the generated line goes: into the method or to the top of the module
(Compiler.py 597-600). -/
inductive Placed where
  | inMethod (line : Str)
  | inModule (line : Str)
  deriving DecidableEq, Repr

/-- Parser.py 2271 and Compiler.py 572-600. Simplification: no expression filters (Parser.py 2273). -/
def addSet (lvalue op rvalue : Str) : Style → Placed
  | .global =>
    let (primary, secondary) := splitTarget lvalue
    .inMethod (globalPrefix ++ primary ++ c!"\"]" ++ secondary ++ c!" " ++ op ++ c!" " ++ strip rvalue)
  | .local => .inMethod (lvalue ++ c!" " ++ op ++ c!" " ++ strip rvalue)
  | .module => .inModule (lvalue ++ c!" " ++ op ++ c!" " ++ strip rvalue)

end Cheetah.SetDirective
