import Verif.Driver
/-
Model of the class statement that the compiler writes: Compiler.py 1188-1330 and 1530-1600. Lines are pairs of the
indentation level and the text; the class statement is at level 0.
-/
namespace Cheetah.ClassBody
open Driver (Meth CC Cf)

/-- The settings (Compiler.py 83-92, 110): `addTimestampsToCompilerOutput`, `templateMetaclass`, `setup__str__method`,
`outputMethodsBeforeAttributes`. -/
structure Opts where
  stamps : Bool := true
  metaclass : Str := []
  strMethod : Bool := false
  methodsFirst : Bool := true

/-- Compiler.py 1279-1300: the attributes that every class has. -/
def firstAttribs (o : Opts) : List Str :=
  [c!"_CHEETAH__instanceInitialized = False", c!"_CHEETAH_version = __CHEETAH_version__", c!"_CHEETAH_versionTuple = __CHEETAH_versionTuple__"] ++
  (if o.stamps then [c!"_CHEETAH_genTime = __CHEETAH_genTime__", c!"_CHEETAH_genTimestamp = __CHEETAH_genTimestamp__"] else []) ++
  [c!"_CHEETAH_src = __CHEETAH_src__", c!"_CHEETAH_srcLastModified = __CHEETAH_srcLastModified__"] ++
  if o.metaclass = [] then [] else [c!"__metaclass__ = " ++ o.metaclass]

/-- Compiler.py 1305-1315: `_generatedAttribs` when the class is finished. (The last goes through `addAttribute`, 1431-1443, whose check it
passes, since the names of the class and of the method are identifiers.) -/
def attribs (o : Opts) (cf : Cf) (cc : CC) : List Str :=
  firstAttribs o ++ cc.attribs ++
  (if cc.mainName = c!"respond" ∧ o.strMethod then [c!"def __str__(self): return self.respond()"] else []) ++
  [c!"_mainCheetahMethod_for_" ++ cf.className ++ c!" = " ++ pyRepr cf.printable cc.mainName]

/-- Compiler.py 1212-1219, 1317-1327 `_setupInitMethod`. (`_initMethChunks` is empty unless `monitorSrcFile` is set.) The lines of
`_initMethod_initCheetah` are given with their levels. -/
def initLines (cf : Cf) : List (Nat × Str) :=
  [(1, c!"def __init__(self, *args, **KWs):"),
   (cf.initLev, c!"super(" ++ cf.className ++ c!", self).__init__(*args, **KWs)"),
   (2, c!"if not self._CHEETAH__instanceInitialized:"),
   (3, c!"cheetahKWArgs = {}"),
   (3, c!"allowedKWs = 'searchList namespaces filter filtersLib errorCatcher'.split()"),
   (3, c!"for k,v in KWs.items():"),
   (4, c!"if k in allowedKWs: cheetahKWArgs[k] = v"),
   (3, c!"self._initCheetahInstance(**cheetahKWArgs)")]

/-- Compiler.py 1188-1201: the arguments of a method. -/
def argTexts (m : Meth) : List Str :=
  m.args.filterMap fun (a, d) =>
    let a := if a = c!"self" ∧ c!"@classmethod" ∈ m.decorators then c!"cls" else a
    if a = c!"self" ∧ c!"@staticmethod" ∈ m.decorators then none
    else some (a ++ match d with | some d => c!"=" ++ d | none => [])

/-- Compiler.py 1202-1210 `methodSignature`: the decorators and the `def` line. -/
def signature (m : Meth) : List (Nat × Str) :=
  m.decorators.map (1, ·) ++ [(1, c!"def " ++ m.name ++ c!"(" ++ joinStr c!", " (argTexts m) ++ c!"):")]

/-- Compiler.py 397-407 `wrapCode`; the docstring (see `Doc.docString`) is left out. -/
def methodLines (m : Meth) : List (Nat × Str) := signature m ++ m.chunks

/-- Compiler.py 1542-1548, 1588-1591: the methods; `__init__` is put in front of the others (1327, 1405-1411). -/
def methodsPart (cf : Cf) (cc : CC) : List (Nat × Str) :=
  [(1, List.replicate 50 '#'), (1, c!"## CHEETAH GENERATED METHODS")] ++ initLines cf ++ cc.finished.flatMap methodLines

/-- Compiler.py 1550-1556, 1593-1600: the attributes. -/
def attribsPart (o : Opts) (cf : Cf) (cc : CC) : List (Nat × Str) :=
  [(1, List.replicate 50 '#'), (1, c!"## CHEETAH GENERATED ATTRIBUTES")] ++ (attribs o cf cc).map (1, ·)

/-- Compiler.py 1536-1575 `wrapClassDef`: the class statement, with its docstring left out. -/
def classLines (o : Opts) (cf : Cf) (cc : CC) : List (Nat × Str) :=
  (0, c!"class " ++ cf.className ++ c!"(" ++ cc.base ++ c!"):") ::
    if o.methodsFirst then methodsPart cf cc ++ attribsPart o cf cc else attribsPart o cf cc ++ methodsPart cf cc

end Cheetah.ClassBody
