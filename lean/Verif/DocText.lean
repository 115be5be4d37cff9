import Verif.Indenter
import Verif.PyLit
import Verif.Dict
/-
Model of where the text of comments goes in the generated module: `addComment`
(Compiler.py 2001-2030), docstrings, the module header, and special variables.
-/
namespace Cheetah.Doc

/-- What comments leave behind (Compiler.py 348, 1278, 1751-1753): header lines, the three docstrings, the
special variables, and the comment lines in the method (532-534). One method is modelled. -/
structure Docs where
  header : List Str := []
  moduleDoc : List Str := []
  classDoc : List Str := []
  methDoc : List Str := []
  special : Dict Str Str := []
  lines : List Str := []
  deriving Repr

/-- `line.replace('%', '%%')` (Compiler.py 430, 1433). -/
def doublePercent (s : Str) : Str := s.flatMap fun c => if c = '%' then ['%', '%'] else [c]

/-- `re.match(r'#+$', comm)` (Compiler.py 2002); the `$` also matches before a final newline. -/
def isBar (comm : Str) : Bool :=
  let r := comm.dropWhile (· == '#')
  r.length < comm.length && (r.isEmpty || r == ['\n'])

/-- `[a-zA-z_]` (Parser.py 159): the range `A-z` also has the characters between `Z` and `a`. -/
def isVarChar (c : Char) : Bool := ('a' ≤ c && c ≤ 'z') || ('A' ≤ c && c ≤ 'z') || c == '_'

/-- `specialVarRE.match(comm)` (Parser.py 159, Compiler.py 2005): the name and what follows the `@`. -/
def specialVar (comm : Str) : Option (Str × Str) :=
  match comm.takeWhile isVarChar, comm.dropWhile isVarChar with
  | n :: ns, '@' :: r => some (n :: ns, r)
  | _, _ => none

/-- `addSpecialVar` (Compiler.py 1974-1978). -/
def addSpecial (name contents : Str) (d : Docs) : Docs :=
  { d with special := d.special.set (c!"__" ++ name ++ c!"__") (strip contents) }

/-- `addComment` (Compiler.py 2001-2030) with `addMethComment` (532-534), `addMethDocString` (429-430),
`addClassDocString` (1432-1433), `addModuleDocString` and `addModuleHeader` (1958-1966). -/
def addComment (offset : Nat) (comm : Str) (d : Docs) : Docs :=
  if isBar comm then d
  else match specialVar comm with
  | some (name, r) => addSpecial name r d
  | none =>
    match stripPrefix? c!"doc:" comm with
    | some r => { d with methDoc := d.methDoc ++ (Indent.splitlines (strip r)).map doublePercent }
    | none => match stripPrefix? c!"doc-method:" comm with
    | some r => { d with methDoc := d.methDoc ++ (Indent.splitlines (strip r)).map doublePercent }
    | none => match stripPrefix? c!"doc-module:" comm with
    | some r => { d with moduleDoc := d.moduleDoc ++ Indent.splitlines (strip r) }
    | none => match stripPrefix? c!"doc-class:" comm with
    | some r => { d with classDoc := d.classDoc ++ (Indent.splitlines (strip r)).map doublePercent }
    | none => match stripPrefix? c!"header:" comm with
    | some r => { d with header := d.header ++ Indent.splitlines (strip r) }
    | none =>
      { d with lines := d.lines ++ (Indent.splitlines comm).map fun l => '#' :: List.replicate offset ' ' ++ l }

/-- `sep.join(lines)` (Compiler.py 423, 1583, 2136, 2146, 2155). -/
def joinWith (sep : Str) : List Str → Str
  | [] => []
  | [l] => l
  | l :: m :: ls => l ++ sep ++ joinWith sep (m :: ls)

/-- `docString` of a method (Compiler.py 417-426); `step` is the indentation step. -/
def docString (step : Str) (lines : List Str) : Str :=
  if lines = [] then []
  else
    let ind := step ++ step
    ind ++ c!"\"\"\"\n" ++ ind ++ joinWith ('\n' :: ind) (lines.map (replaceStr c!"\"\"\"" c!"'''"))
      ++ '\n' :: ind ++ c!"\"\"\"\n"

/-- What a `%` in a format stands for, and what follows: `%%` or `%(ind)s` (Compiler.py 1583-1586: Python's `%`). -/
def percent (ind : Str) : Str → Option (Str × Str)
  | '%' :: r => some (['%'], r)
  | s => (stripPrefix? c!"(ind)s" s).map fun r => (ind, r)

/-- The `%` operator with `{'ind': ind}` (Compiler.py 1582-1585): `%%` and `%(ind)s`; anything else raises. -/
def format (ind : Str) : Nat → Str → Option Str
  | _, [] => some []
  | 0, _ => none
  | f + 1, c :: s =>
    if c = '%' then match percent ind s with
      | some (out, r) => (format ind f r).map (out ++ ·)
      | none => none
    else (format ind f s).map (c :: ·)

/-- `classDocstring` (Compiler.py 1578-1586). -/
def classDocstring (ind : Str) (lines : List Str) : Option Str :=
  if lines = [] then some []
  else
    let t := c!"%(ind)s\"\"\"\n%(ind)s" ++ joinWith c!"\n%(ind)s" lines ++ c!"\n%(ind)s\"\"\"\n"
    format ind t.length t

/-- `moduleDocstring` (Compiler.py 2142-2147). -/
def moduleDocstring (lines : List Str) : Str :=
  if lines = [] then [] else c!"\"\"\"" ++ joinWith ['\n'] lines ++ c!"\n\"\"\"\n"

/-- `moduleHeader` (Compiler.py 2129-2140). -/
def moduleHeader (offset : Nat) (shBang encoding : Str) (lines : List Str) : Str :=
  let hash : Str := '#' :: List.replicate offset ' '
  shBang ++ ['\n'] ++ encoding ++ ['\n'] ++
    (if lines = [] then [] else hash ++ joinWith ('\n' :: hash) lines ++ ['\n'])

/-- Comparison of strings by code points (used by `sorted`, Compiler.py 2152). -/
def le : Str → Str → Bool
  | [], _ => true
  | _ :: _, [] => false
  | a :: s, b :: t => a.toNat < b.toNat || (a == b && le s t)

/-- Insertion into a sorted list (`sorted`, Compiler.py 2152). -/
def insert (x : Str × Str) : List (Str × Str) → List (Str × Str)
  | [] => [x]
  | y :: ys => if le x.1 y.1 then x :: y :: ys else y :: insert x ys

/-- `specialVars` (Compiler.py 2149-2155). -/
def specialVars (p : Char → Bool) (vars : Dict Str Str) : Str :=
  joinWith ['\n'] ((vars.foldr insert []).map fun kv => kv.1 ++ c!" = " ++ pyRepr p kv.2)

/-- The comment on a `#def` or `#block` (Parser.py 2128-2131), with its row and column written out. -/
def defNote (signature place : Str) : Str :=
  c!"## CHEETAH: generated from " ++ joinWith [' '] ((Indent.splitlines signature).map strip) ++
    c!" at " ++ place ++ ['.']

/-- The comment on a one-line `#def` (Parser.py 2149-2152). -/
def oneLineDefNote (signature place : Str) : Str :=
  c!"## Generated from " ++ signature ++ c!" at " ++ place ++ ['.']

end Cheetah.Doc
