import Verif.ModuleText
/-
Model of `Template.generatedClassCode` (Template.py 1343-1358) and of the frame in which `wrapModuleDef` puts the parts of a
generated module (Compiler.py 2079-2122, 2164-2178), as text.
-/
namespace Cheetah.ClassCode

/-- The parts of a generated module (Compiler.py 2112-2121): header, docstring, imports, constants, special variables, classes
and the name of the class. -/
structure Parts where
  header : Str
  docstring : Str
  imports : Str
  constants : Str
  special : Str
  classes : Str
  name : Str

/-- The lines of the frame as text; one level of indentation is four spaces (Compiler.py 2079-2110, 2164-2178). -/
def flat (ls : List (Nat × Str)) : List Str := ls.map fun l => List.replicate (4 * l.1) ' ' ++ l.2

/-- What `wrapModuleDef` puts in front of the classes (Compiler.py 2079-2099). -/
def front (p : Parts) : List Str :=
  [p.header, p.docstring] ++ flat (ModuleText.heading c!"DEPENDENCIES") ++ [p.imports] ++ flat (ModuleText.heading c!"MODULE CONSTANTS") ++
  [p.constants, p.special] ++ flat ModuleText.versionTest ++ flat (ModuleText.heading c!"CLASSES") ++ [[]]

/-- What follows the line `## END CLASS DEFINITION` (Compiler.py 2103-2111, 2164-2178). -/
def back (p : Parts) : List Str := flat ((ModuleText.ending p.name).drop 2) ++ [[], []]

/-- The text of the module (Compiler.py 2079-2122). -/
def moduleDef (p : Parts) : Str :=
  joinStr c!"\n" (front p ++ [p.classes, [], c!"## END CLASS DEFINITION"] ++ back p)

/-- `str.find`, as called in Template.py 1356-1358; `none` is `-1`. -/
def find (pat : Str) : Str → Option Nat
  | [] => if pat = [] then some 0 else none
  | c :: cs => if startsWith (c :: cs) pat then some 0 else (find pat cs).map (· + 1)

/-- `s[i:j]` with results of `find` (Template.py 1355-1358): `-1` is the last place of the string. -/
def slice (s : Str) (i j : Option Nat) : Str := (s.take (j.getD (s.length - 1))).drop (i.getD (s.length - 1))

/-- The error of `None.find` (Template.py 1356). -/
inductive Err where
  | attributeError
  deriving DecidableEq, Repr

/-- `generatedModuleCode` (Template.py 1343-1348): the code that `compile` has kept, if any (341, 861-863). -/
def generatedModuleCode (kept : Option Str) : Option Str := kept

/-- `generatedClassCode` (Template.py 1350-1358). -/
def generatedClassCode (kept : Option Str) : Except Err (Option Str) :=
  match kept with
  | none => .error .attributeError
  | some s => .ok (some (slice s (find c!"\nclass " s) (find c!"\n## END CLASS DEFINITION" s)))

end Cheetah.ClassCode
