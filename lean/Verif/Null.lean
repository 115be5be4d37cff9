import Verif.NameMapper
/-
Model of Tools/RecursiveNull.py: an object that stands for nothing, in a world of other objects.
-/
namespace Cheetah.Null
open NameMapper (World CWorld Exc)

variable {Obj σ : Type}

/-- The attributes that every object has (Python 3, `dir(object())` with `__dict__`, `__module__` and `__weakref__`); for these `__getattr__`
(Tools/RecursiveNull.py 12) is not asked. With those of the class (Tools/RecursiveNull.py 12-39). -/
def ownAttrs : List Str :=
  [c!"__class__", c!"__delattr__", c!"__dict__", c!"__dir__", c!"__doc__", c!"__eq__", c!"__format__", c!"__ge__", c!"__getattribute__", c!"__getstate__",
   c!"__gt__", c!"__hash__", c!"__init__", c!"__init_subclass__", c!"__le__", c!"__lt__", c!"__module__", c!"__ne__", c!"__new__", c!"__reduce__",
   c!"__reduce_ex__", c!"__repr__", c!"__setattr__", c!"__sizeof__", c!"__str__", c!"__subclasshook__", c!"__weakref__", c!"__getattr__", c!"__getitem__",
   c!"__call__", c!"__bool__"]

/-- A world with one more object, `none`, the null (Tools/RecursiveNull.py 11-19): no mapping, no class, callable; attributes, items and calls
give itself. `own` is what its own attributes are. -/
def withNull (w : CWorld Obj σ) (own : Str → Obj) : CWorld (Option Obj) σ where
  isMapping o := match o with | some o => w.isMapping o | none => false
  item s o k := match o with | some o => (w.item s o k).map some | none => none
  attr s o k := match o with
    | some o => (w.attr s o k).map some
    | none => if k ∈ ownAttrs then .ok (some (own k)) else .ok none
  isType o := match o with | some o => w.isType o | none => false
  callable o := match o with | some o => w.callable o | none => true
  call s o := match o with | some o => (((w.call s o).1).map some, (w.call s o).2) | none => (.ok none, s)
  mappingCheck o := match o with | some o => w.mappingCheck o | none => true
  subscript s o k := match o with | some o => (w.subscript s o k).map some | none => some none
  isFunction o := match o with | some o => w.isFunction o | none => false

/-- What the methods give back where it matters that it is a truth value (Tools/RecursiveNull.py 27-39). -/
inductive Ret where
  | bool (b : Bool)
  | int (i : Int)

/-- `__bool__` (Tools/RecursiveNull.py 27-28). -/
def boolMethod : Ret := .int 0

/-- `bool(x)` from what `__bool__` gives: Python 3 raises `TypeError` for anything but `True` and `False`; nothing stands for that. Python
built-in; models no code in /repo (used wherever a null is tested, Tools/RecursiveNull.py 28). -/
def asTruth : Ret → Option Bool
  | .bool b => some b
  | .int _ => none

/-- The truth of an object; `truth` is that of the others (Tools/RecursiveNull.py 27-28). -/
def truthOf (truth : Obj → Option Bool) : Option Obj → Option Bool
  | some o => truth o
  | none => asTruth boolMethod

/-- `null == x` (Tools/RecursiveNull.py 33-36). -/
def eqNull (truth : Obj → Option Bool) (x : Option Obj) : Option Bool :=
  (truthOf truth x).map fun t => if t then false else true

/-- `null != x` (Tools/RecursiveNull.py 38-39). -/
def neNull (truth : Obj → Option Bool) (x : Option Obj) : Option Bool :=
  (truthOf truth x).map fun t => t && true || false

/-- `str(x)` and `repr(x)` (Tools/RecursiveNull.py 21-25); `str` is that of the others. -/
def strOf (str : Obj → Str) : Option Obj → Str
  | some o => str o
  | none => []

/-- `x[i]` with any object `i` (Tools/RecursiveNull.py 15-16). -/
def getItem (item : Obj → Option Obj → Except Exc (Option Obj)) (x i : Option Obj) : Except Exc (Option Obj) :=
  match x with
  | some o => item o i
  | none => .ok none

/-- `x(args)` (Tools/RecursiveNull.py 18-19). -/
def callWith (call : σ → Obj → List (Option Obj) → Except Exc (Option Obj) × σ) (s : σ) (x : Option Obj) (args : List (Option Obj)) :
    Except Exc (Option Obj) × σ :=
  match x with
  | some o => call s o args
  | none => (.ok none, s)

end Cheetah.Null
