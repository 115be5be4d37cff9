import Verif.Str
/-
Model of what `Template.__init__` does with its arguments before a source is compiled: Template.py 1231-1276, 1300-1337 and the
parts of `_initCheetahInstance` that can fail (1550-1556, 1571-1577, 1583-1606).
-/
namespace Cheetah.TemplateArgs

/-- A value of an argument, as far as Template.py 1235-1270 tells values apart. Of a class: whether it is a subclass of
`Filters.Filter`, or of `ErrorCatchers.ErrorCatcher`, and whether it can be used as such (1591-1592, 1602). -/
inductive Arg where
  | none
  | unspecified
  | str (s : Str)
  | file
  | cls (isFilter isCatcher usable : Bool)
  | module (names : List Str)
  | dict (prioritize : Bool)
  | other
  deriving DecidableEq, Repr

/-- A namespace (Template.py 1304): a dictionary with its keys, or something else. -/
inductive Ns where
  | dict (keys : List Str)
  | other
  deriving DecidableEq, Repr

/-- The arguments `searchList` and `namespaces` (Template.py 1302-1303, 1550-1556): absent, a list, a tuple, or a single namespace. Of an object
that is not a dictionary: its truth, and what a loop over it gives, if it can be looped over. -/
inductive SL where
  | absent
  | list (xs : List Ns)
  | tuple (xs : List Ns)
  | dict (keys : List Str)
  | object (truth : Bool) (loop : Option (List Ns))
  deriving DecidableEq, Repr

/-- The arguments (Template.py 1100-1117). -/
structure Args where
  source : Arg := .none
  file : Arg := .none
  filter : Arg
  filtersLib : Arg
  errorCatcher : Arg := .none
  compilerSettings : Arg := .unspecified
  searchList : SL := .absent
  namespaces : SL := .absent

/-- What is raised in Template.py 1235-1276, 1303, 1551, 1574, 1587, 1592, 1598, 1602. -/
inductive Err where
  | wrong (arg : Str)
  | both
  | notIterable
  | bothLists
  | tuplePlusList
  | noSuchName
  | fromClass
  deriving DecidableEq, Repr

/-- The test of one argument (Template.py 1235-1270): an error that names it. -/
def need (good : Bool) (name : Str) : Except Err Unit := if good then .ok () else .error (.wrong name)

/-- Template.py 1235: `isinstance(source, (NoneType, string_type))`. -/
def okSource : Arg → Bool
  | .none | .str _ => true
  | _ => false

/-- Template.py 1238: `isinstance(file, (NoneType, string_type, filetype))`. -/
def okFile : Arg → Bool
  | .none | .str _ | .file => true
  | _ => false

/-- Template.py 1242-1244: any class passes the first test, so the second does not matter. -/
def okFilter : Arg → Bool
  | .str _ | .cls _ _ _ => true
  | _ => false

/-- Template.py 1249: `isinstance(filtersLib, (string_type, types.ModuleType))`. -/
def okLib : Arg → Bool
  | .str _ | .module _ => true
  | _ => false

/-- Template.py 1255-1261: here too any class passes. -/
def okCatcher : Arg → Bool
  | .none | .str _ | .cls _ _ _ => true
  | _ => false

/-- Template.py 1267-1268. -/
def okSettings : Arg → Bool
  | .unspecified | .dict _ => true
  | _ => false

/-- Template.py 1235-1276: the tests of the arguments, in their order. -/
def check (a : Args) : Except Err Unit := do
  need (okSource a.source) c!"source"
  need (okFile a.file) c!"file"
  need (okFilter a.filter) c!"filter"
  need (okLib a.filtersLib) c!"filtersLib"
  need (okCatcher a.errorCatcher) c!"errorCatcher"
  need (okSettings a.compilerSettings) c!"compilerSettings"
  if a.source ≠ .none ∧ a.file ≠ .none then .error .both else .ok ()

/-- Template.py 1302-1303: what the loop over `searchList` goes through; the keys of a dictionary are no dictionaries. -/
def looped : SL → Except Err (List Ns)
  | .absent => .ok []
  | .list xs | .tuple xs => .ok xs
  | .dict keys => .ok (keys.map fun _ => .other)
  | .object false _ => .ok []
  | .object true none => .error .notIterable
  | .object true (some xs) => .ok xs

/-- `compilerSettings.get('prioritizeSearchListOverSelf')` (Template.py 1310-1312, 1572-1573). -/
def prioritized (a : Args) : Bool := a.compilerSettings == .dict true

/-- Template.py 1303-1328: the names that are logged for one namespace. `reserved` is `Reserved_SearchList` (1979). -/
def logged (reserved : List Str) (prio : Bool) : Ns → List Str
  | .dict keys => if prio then [] else reserved.filter (· ∈ keys)
  | .other => []

/-- Template.py 1550-1577: `namespaces` in place of `searchList`, and the search list made of it. -/
def lists (a : Args) : Except Err Unit :=
  if a.namespaces ≠ .absent ∧ a.searchList ≠ .absent then .error .bothLists
  else
    match (if a.namespaces ≠ .absent then a.namespaces else a.searchList) with
    | .tuple _ => if prioritized a then .error .tuplePlusList else .ok ()
    | _ => .ok ()

/-- Template.py 1585-1592: the filter. A text is the name of an attribute of `filtersLib`; a text has no filters among its attributes. -/
def makeFilter (a : Args) : Except Err Unit :=
  match a.filter, a.filtersLib with
  | .str name, .module names => if name ∈ names then .ok () else .error .noSuchName
  | .str _, _ => .error .noSuchName
  | .cls _ _ usable, _ => if usable then .ok () else .error .fromClass
  | _, _ => .ok ()

/-- Template.py 1595-1606: the error catcher. `catchers` are the names in the module `ErrorCatchers`. -/
def makeCatcher (catchers : List Str) (a : Args) : Except Err Unit :=
  match a.errorCatcher with
  | .str name => if name = [] then .ok () else if name ∈ catchers then .ok () else .error .noSuchName
  | .cls _ _ usable => if usable then .ok () else .error .fromClass
  | _ => .ok ()

/-- `__init__` up to the compilation (Template.py 1231-1337). The result are the names that are logged, for each namespace
that has some. The test of the version (1280-1297) is in `Version`. -/
def init (reserved catchers : List Str) (a : Args) : Except Err (List (List Str)) := do
  check a
  let xs ← looped a.searchList
  lists a
  makeFilter a
  makeCatcher catchers a
  return (xs.map (logged reserved (prioritized a))).filter (· ≠ [])

end Cheetah.TemplateArgs
