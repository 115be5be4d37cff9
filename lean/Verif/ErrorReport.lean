import Verif.SourceReader
import Verif.Indenter
import Verif.PyStr
/-
Model of the two error reports: `ParseError.report` (Parser.py 267-331) and the report
made of an error in the generated Python code (Template.py 1982-2054).
-/
namespace Cheetah.ErrReport
open Cheetah.Reader

/-- What making or printing a report can raise instead (Parser.py 271-272, 289-308). -/
inductive Fail where
  | reader (e : Err)     -- SourceReader.Error or TypeError from the reader
  | indexError           -- `lines[i]`
  deriving DecidableEq, Repr

/-- A `ParseError` (Parser.py 267-277): its reader's file name, source and position, the two messages, the given line and column. -/
structure PErr where
  file : Str
  src : Str
  pos : Nat
  msg : Str
  ext : Str
  lineno : Option Nat
  col : Option Nat
  deriving DecidableEq, Repr

/-- `ParseError.__init__` (Parser.py 268-277) for a reader whose break point is the end of its source:
a position at the end goes back to the last character. -/
def mk (file src : Str) (pos : Nat) (msg ext : Str) (lineno col : Option Nat) : Except Fail PErr :=
  if src.length ≤ pos then
    (if src.length = 0 then .error (.reader .posError)
     else .ok ⟨file, src, src.length - 1, msg, ext, lineno, col⟩)
  else .ok ⟨file, src, pos, msg, ext, lineno, col⟩

/-- `lines[i]` (Parser.py 290, 301, 307; Template.py 2003, 2009). -/
def item (lines : List Str) (i : Nat) : Except Fail Str :=
  match lines[i]? with
  | some l => .ok l
  | none => .error .indexError

/-- `"%(row)-4d|%(line)s\n"` (Parser.py 317-318, 319, 324-325; Template.py 2017-2018, 2025-2026). -/
def numbered (x : Nat × Str) : Str :=
  let d := decimal x.1
  d ++ List.replicate (4 - d.length) ' ' ++ '|' :: x.2 ++ ['\n']

/-- The loop of Parser.py 298-301. -/
def prevLoop (lines : List Str) (row : Nat) : List Nat → Except Fail (List (Nat × Str))
  | [] => .ok []
  | i :: is =>
    if (row : Int) - 1 - i ≤ 0 then .ok []
    else do
      let l ← item lines (row - 1 - i)
      let rest ← prevLoop lines row is
      pure ((row - i, l) :: rest)

/-- The loop of Parser.py 304-307. -/
def nextLoop (lines : List Str) (row : Nat) : List Nat → Except Fail (List (Nat × Str))
  | [] => .ok []
  | i :: is =>
    if ¬ ((row : Int) - 1 + i < lines.length) then .ok []
    else do
      let l ← item lines (row - 1 + i)
      let rest ← nextLoop lines row is
      pure ((row + i, l) :: rest)

/-- `' in file %s'` (Parser.py 284-287). -/
def inFile (file : Str) : Str := if file = [] then [] else c!" in file " ++ file

/-- The heading of the table (Parser.py 312-315). -/
def heading : Str :=
  c!"Line|Cheetah Code\n" ++ c!"----|-----------------------------" ++
    c!"--------------------------------\n"

/-- Row, column and line (Parser.py 289-294, SourceReader.py 75-86). -/
def place (e : PErr) : Except Fail (Nat × Nat × Str) :=
  match e.lineno with
  | some (n + 1) => do
    let l ← item (Indent.splitlines e.src) n
    pure (n + 1, e.col.getD 0, l)
  | _ => match getRowCol e.src e.pos with
    | .error x => .error (.reader x)
    | .ok (row, col) => do
      let l ← item (Indent.splitlines e.src) (row - 1)
      pure (row, col.toNat, l)

/-- `ParseError.report` (Parser.py 282-331). -/
def report (e : PErr) : Except Fail Str := do
  let (row, col, line) ← place e
  let lines := Indent.splitlines e.src
  let prev ← prevLoop lines row [1, 2, 3]
  let next ← nextLoop lines row [1, 2, 3]
  pure (c!"\n\n" ++ e.msg ++ c!"\n" ++ c!"Line " ++ decimal row ++ c!", column " ++ decimal col
    ++ inFile e.file ++ c!"\n\n" ++ heading
    ++ prev.reverse.flatMap numbered ++ numbered (row, line)
    ++ List.replicate 5 ' ' ++ List.replicate (col - 1) ' ' ++ c!"^\n"
    ++ next.reverse.reverse.flatMap numbered
    ++ (if e.ext = [] then [] else e.ext ++ c!"\n"))

/-! ### Errors in the generated Python code -/

/-- The loop of Template.py 2000-2003. -/
def pyPrevLoop (lines : List Str) (n : Nat) : List Nat → Except Fail (List (Nat × Str))
  | [] => .ok []
  | i :: is =>
    if (n : Int) - i ≤ 0 then .ok []
    else do
      let l ← item lines (n - i)
      let rest ← pyPrevLoop lines n is
      pure ((n + 1 - i, l) :: rest)

/-- The loop of Template.py 2006-2009. -/
def pyNextLoop (lines : List Str) (n : Nat) : List Nat → Except Fail (List (Nat × Str))
  | [] => .ok []
  | i :: is =>
    if ¬ (n + i < lines.length) then .ok []
    else do
      let l ← item lines (n + i)
      let rest ← pyNextLoop lines n is
      pure ((n + i, l) :: rest)

/-- The heading of the table (Template.py 2011-2013). -/
def pyHeading : Str :=
  c!"Line|Python Code\n" ++ c!"----|--------------------------" ++
    c!"-----------------------------------\n"

/-- The table of Python lines (Template.py 1997-2026). `offset` is the exception's attribute of that name, if it has one. -/
def pyTable (code : Str) (n : Nat) (offset : Option Nat) : Except Fail Str := do
  let lines := Indent.splitlines code
  let prev ← pyPrevLoop lines n [1, 2, 3]
  let next ← pyNextLoop lines n [1, 2, 3]
  pure (pyHeading ++ prev.reverse.flatMap numbered
    ++ (match offset with | some o => List.replicate (3 + o) ' ' ++ c!"^\n" | none => [])
    ++ next.reverse.reverse.flatMap numbered)

/-- `\d+` at the start of a text and what follows, for ASCII digits (Template.py 2037, 2047). -/
def digits (s : Str) : Option (Nat × Str) :=
  match s.span Char.isDigit with
  | ([], _) => none
  | (ds, r) => some (ds.foldl (fun n c => 10 * n + (c.toNat - 48)) 0, r)

/-- `line (\d+), col (\d+)` at the start of a text (Template.py 2037, 2047). -/
def markAt (s : Str) : Option (Nat × Nat) := do
  let r ← stripPrefix? c!"line " s
  let (l, r) ← digits r
  let r ← stripPrefix? c!", col " r
  let (c, _) ← digits r
  pure (l, c)

/-- `re.search('line (\\d+), col (\\d+)', text)` (Template.py 2037, 2047). -/
def markIn : Str → Option (Nat × Nat)
  | [] => none
  | c :: s => match markAt (c :: s) with
    | some x => some x
    | none => markIn s

/-- `'\n'.join(...)` (Template.py 2048, 2055). -/
def joinLines : List Str → Str
  | [] => []
  | [l] => l
  | l :: m :: ls => l ++ '\n' :: joinLines (m :: ls)

/-- The line and column the report of a Python error gives for the template, and whether they are marked as a guess (Template.py 2037-2053). -/
def cheetahPos (exc code : Str) (n : Nat) : Option (Nat × Nat × Bool) :=
  match markIn exc with
  | some (l, c) => some (l, c, false)
  | none => (markIn (joinLines ((Indent.splitlines code).drop (n - 2)))).map fun x => (x.1, x.2, true)

/-- The `ParseError` made of an error in the generated code (Template.py 1982-2057): `exc` is the
formatted traceback, `text` is `str(exception)`, `n` the line number of the exception. -/
def ofPython (source file code exc text : Str) (n : Nat) (offset : Option Nat) : Except Fail PErr := do
  let table ← pyTable code n offset
  let bar := List.replicate 80 '='
  let found := cheetahPos exc code n
  let say := match found with
    | some (_, _, false) => [c!"\nHere is the corresponding Cheetah code:\n"]
    | some (_, _, true) => [c!"\nHere is the corresponding Cheetah code.",
        c!"** I had to guess the line & column numbers, so they are probably incorrect:\n"]
    | none => []
  mk file source 0 (joinLines ([c!"Error in the Python code which Cheetah generated for this template:",
    bar, [], text, [], table, bar] ++ say)) [] (found.map (·.1)) (found.map (·.2.1))

end Cheetah.ErrReport
