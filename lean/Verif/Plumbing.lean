import Verif.Dict
/-
Model of how a compiled class is completed (Template.py 1013-1098) and of how an
instance of a `Template` subclass takes on a compiled class (Template.py 1619-1662).
-/
namespace Cheetah.Plumb

/-- Values of attributes, as far as Template.py 1013-1098 and 1645-1653 tell them apart. -/
inductive Val where
  | template (name : Str)             -- what `Template` has under this name
  | text (s : Str)                    -- a string
  | fn (id : Nat)                     -- a function defined in a class body
  | other (id : Nat) (truth : Bool)   -- anything else, with its truth value
  | objectStr                         -- `object.__str__`
  | strMain (meth : Str)              -- the function of lines 1056-1057
  | strRespond                        -- the function of lines 1068-1069
  | strElse (attr : Str)              -- the function of lines 1085-1091
  deriving DecidableEq, Repr

/-- `bool(v)` (Template.py 1647). -/
def Val.truth : Val → Bool
  | .text s => !s.isEmpty
  | .other _ b => b
  | _ => true

/-- The attributes of one class or instance, its `__dict__` (used in Template.py 1013-1098, 1646). -/
abbrev Ns := Dict Str Val

/-- Attribute lookup through the method resolution order (used in Template.py 1023-1047). -/
def lookup : List Ns → Str → Option Val
  | [], _ => none
  | d :: ds, n => match d.get n with
    | some v => some v
    | none => lookup ds n

/-- A class (Template.py 1014): its name, its own attributes, those of the classes after it in its method resolution order. -/
structure Cls where
  name : Str
  own : Ns
  rest : List Ns
  deriving Repr

/-- `getattr(klass, n)` (Template.py 1023-1047). -/
def Cls.get (c : Cls) (n : Str) : Option Val := lookup (c.own :: c.rest) n

/-- `setattr(klass, n, v)` (Template.py 1027, 1097). -/
def Cls.set (c : Cls) (n : Str) (v : Val) : Cls := { c with own := c.own.set n v }

/-- The names of Template.py 280-307, the class attributes with their prefix (1036). -/
def required : List Str :=
  [c!"_initCheetahInstance", c!"searchList", c!"errorCatcher", c!"getVar", c!"varExists",
   c!"getFileContents", c!"i18n", c!"runAsMainProgram", c!"respond", c!"shutdown", c!"webInput",
   c!"serverSidePath", c!"generatedClassCode", c!"generatedModuleCode", c!"_getCacheStore",
   c!"_getCacheStoreIdPrefix", c!"_createCacheRegion", c!"getCacheRegion", c!"getCacheRegions",
   c!"refreshCache", c!"_handleCheetahInclude", c!"_getTemplateAPIClassForIncludeDirectiveCompilation",
   c!"subclass",
   c!"_CHEETAH_cacheRegionClass", c!"_CHEETAH_cacheStore", c!"_CHEETAH_cacheStoreIdPrefix",
   c!"_CHEETAH_cacheStoreClass"]

/-- The three loops of Template.py 1022-1039. Simplification: `klass` is `Template` itself. -/
def addMissing : List Str → Cls → Cls
  | [], c => c
  | n :: ns, c => addMissing ns (if (c.get n).isSome then c else c.set n (.template n))

/-- `'_mainCheetahMethod_for_' + name` (Template.py 1043-1044, Compiler.py 1312-1314). -/
def mainAttr (name : Str) : Str := c!"_mainCheetahMethod_for_" ++ name

/-- The function chosen for `__str__` on Python 3 (Template.py 1045-1094). Simplification: a main
method name that is not a string counts as missing. -/
def strFunction (c : Cls) : Val :=
  match c.get (mainAttr c.name) with
  | some (.text (m :: ms)) => .strMain (m :: ms)
  | _ => match c.get c!"respond" with
    | some v => if v ≠ .template c!"respond" then .strRespond else .strElse (mainAttr c.name)
    | none => .strElse (mainAttr c.name)

/-- Template.py 1041-1098. -/
def addStr (c : Cls) : Cls :=
  if c.get c!"__str__" = none ∨ c.get c!"__str__" = some .objectStr then
    (c.set c!"__str__" (strFunction c)).set c!"__unicode__" (strFunction c)
  else c

/-- `_addCheetahPlumbingCodeToClass` (Template.py 1013-1098). -/
def plumb (c : Cls) : Cls := addStr (addMissing required c)

/-- What the generated module does with its class (Compiler.py 2106-2110). -/
def install (c : Cls) : Cls := if (c.get c!"_initCheetahAttributes").isSome then c else plumb c

/-- A sequence of templates, each extending the one before it (Compiler.py 2106-2110), over a class with
the resolution order `base`: the resolution order of the last one. -/
def chain (base : List Ns) : List (Str × Ns) → List Ns
  | [] => base
  | (name, own) :: ts => chain ((install ⟨name, own, base⟩).own :: base) ts

/-- An instance (Template.py 1619-1662): its own attributes and the resolution order of its class. -/
structure Inst where
  own : Ns
  mro : List Ns
  deriving Repr

/-- `getattr(self, n)` (Template.py 1057, 1069, 1086-1089). -/
def Inst.get (i : Inst) (n : Str) : Option Val := lookup (i.own :: i.mro) n

/-- The object that `str(t)` calls in the end (Template.py 1056-1091). Simplification: without any
`respond` (1091) nothing is called. -/
def strCalls (i : Inst) : Option Val :=
  match lookup i.mro c!"__str__" with
  | some (.strMain m) => i.get m
  | some .strRespond => i.get c!"respond"
  | some (.strElse a) => match i.get a with
    | some v => some v
    | none => i.get c!"respond"
  | v => v

/-! ### Instances of `Template` subclasses -/

/-- The loop of Template.py 1646-1653: the attributes of the instance afterwards. -/
def propagate : Ns → Ns → Ns
  | [], inst => inst
  | (k, v) :: d, inst =>
    propagate d (if !v.truth || startsWith k c!"__" then inst else Dict.set inst k v)

/-- Template.py 1642-1655: the instance takes on the compiled class. `isTemplate`: its class was `Template` itself. -/
def become (isTemplate : Bool) (cls : Ns) (i : Inst) (compiled : List Ns) : Inst :=
  if !isTemplate then ⟨propagate cls i.own, compiled⟩ else ⟨i.own, compiled⟩

/-- Is a function found under a name called with the instance as its first argument? Python binds
functions found in a class (`self.meth()`, used with the attributes of Template.py 1653). -/
def Inst.bound (i : Inst) (n : Str) : Bool := (i.own.get n).isNone && (lookup i.mro n).isSome

end Cheetah.Plumb
