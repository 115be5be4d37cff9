import Verif.Str
/-
Model of Cheetah/NameMapper.py (pure Python implementation) and of the lookup
functions of Cheetah/c/_namemapper.c.

Python objects are abstract: a `World` says, for a program state `σ`, which
objects are mappings, which keys and attributes they have, which are callable,
and what calling them does.  Attribute reads and key reads do not change the
state (simplification: properties with side effects are not modelled); calls
may change the state arbitrarily and may raise.
-/
namespace Cheetah.NameMapper

/-- Exceptions a lookup can raise.  `notFound` carries `exc.args[0]`. -/
inductive Exc where
  | notFound (msg : Str)
  | attributeError
  | valueError            -- C only: "Invalid lookup of empty name"
  | tooManyPeriods        -- C only
  | other (tag : Nat)
deriving DecidableEq, Repr

/-- What the lookup code can ask about Python objects.
Models the protocols used in NameMapper.py 197-243: `isinstance(obj, Mapping)`,
`key in obj`, `obj[key]`, `getattr`, `isinstance(obj, type)`, `callable`, call. -/
structure World (Obj σ : Type) where
  /-- `isinstance(obj, Mapping)` -/
  isMapping : Obj → Bool
  /-- `obj[key]` when `key in obj`, for a mapping -/
  item : σ → Obj → Str → Option Obj
  /-- `getattr(obj, key)` -/
  attr : σ → Obj → Str → Except Exc Obj
  /-- `isinstance(obj, type)` -/
  isType : Obj → Bool
  /-- `callable(obj)` -/
  callable : Obj → Bool
  /-- `obj()` -/
  call : σ → Obj → Except Exc Obj × σ

variable {Obj σ : Type}

/-- `hasattr(obj, key)`: false on `AttributeError`, other exceptions propagate
(Python 3 semantics of the built-in). -/
def hasattr (w : World Obj σ) (s : σ) (o : Obj) (k : Str) : Except Exc Bool :=
  match w.attr s o k with
  | .ok _ => .ok true
  | .error .attributeError => .ok false
  | .error e => .error e

/-- NameMapper.py 197-214 `_isInstanceOrClass`. -/
def isInstanceOrClass (w : World Obj σ) (s : σ) (o : Obj) : Except Exc Bool := do
  if w.isType o then return true
  if ← hasattr w s o c!"__class__" then
    if ← hasattr w s o c!"mro" then return true
    else
      if (← hasattr w s o c!"__func__") then return false
      else if (← hasattr w s o c!"__code__") then return false
      else if (← hasattr w s o c!"__self__") then return false
      else if ← hasattr w s o c!"__init__" then return true
      else return false
  return false

/-- NameMapper.py 217-224 `hasKey`. -/
def hasKey (w : World Obj σ) (s : σ) (o : Obj) (k : Str) : Except Exc Bool :=
  if w.isMapping o && (w.item s o k).isSome then .ok true
  else hasattr w s o k

/-- NameMapper.py 177-181 `_raiseNotFoundException` (message text; the
namespace repr is off by default, line 155). -/
def notFoundMsg (key : Str) : Str := c!"cannot find '" ++ key ++ c!"'"

/-- NameMapper.py 184-194 `_wrapNotFoundException`: annotate once, re-raise. -/
def wrapMsg (msg fullName : Str) : Str :=
  if containsStr c!"while searching" msg then msg
  else msg ++ (c!" while searching for '" ++ fullName ++ c!"'")

/-- The effect of the `except NotFound as e: _wrapNotFoundException(...)`
clauses (NameMapper.py 289-290, 319-320): only NotFound is touched. -/
def wrapExc (fullName : Str) : Exc → Exc
  | .notFound m => .notFound (wrapMsg m fullName)
  | e => e

/-- Outcome of a lookup: value or exception, final program state, and (ghost)
the objects that were called, in order.
The outcome of NameMapper.py 246-318. -/
structure Res (Obj σ : Type) where
  val : Except Exc Obj
  st : σ
  calls : List Obj

/-- The value of one component on one object, before autocalling:
NameMapper.py 230-236. -/
def nextObj (w : World Obj σ) (s : σ) (o : Obj) (k : Str) : Except Exc Obj :=
  match w.isMapping o, w.item s o k with
  | true, some v => .ok v
  | _, _ =>
    match w.attr s o k with
    | .ok v => .ok v
    | .error .attributeError => .error (.notFound (notFoundMsg k))
    | .error e => .error e

/-- NameMapper.py 238-242: autocall or pass the object on. -/
def autocall (w : World Obj σ) (exec : Bool) (s : σ) (v : Obj) : Res Obj σ :=
  if exec && w.callable v then
    match isInstanceOrClass w s v with
    | .error e => ⟨.error e, s, []⟩
    | .ok true => ⟨.ok v, s, []⟩
    | .ok false => ⟨(w.call s v).1, (w.call s v).2, [v]⟩
  else ⟨.ok v, s, []⟩

/-- NameMapper.py 229-243: the loop of `_valueForName` over the name chunks. -/
def valueForChunks (w : World Obj σ) (exec : Bool) : σ → Obj → List Str → Res Obj σ
  | s, o, [] => ⟨.ok o, s, []⟩
  | s, o, k :: ks =>
    match nextObj w s o k with
    | .error e => ⟨.error e, s, []⟩
    | .ok v =>
      match autocall w exec s v with
      | ⟨.error e, s', cs⟩ => ⟨.error e, s', cs⟩
      | ⟨.ok v', s', cs⟩ =>
        let r := valueForChunks w exec s' v' ks
        ⟨r.val, r.st, cs ++ r.calls⟩

/-- NameMapper.py 227-243 `_valueForName`. -/
def valueForName' (w : World Obj σ) (exec : Bool) (s : σ) (o : Obj) (name : Str) : Res Obj σ :=
  valueForChunks w exec s o (splitCh '.' name)

/-- Apply the wrapping `except` clause to an outcome.
Models NameMapper.py 184-194. -/
def Res.wrap (r : Res Obj σ) (fullName : Str) : Res Obj σ :=
  { r with val := r.val.mapError (wrapExc fullName) }

/-- NameMapper.py 286-290 `valueForName`. -/
def valueForName (w : World Obj σ) (exec : Bool) (s : σ) (o : Obj) (name : Str) : Res Obj σ :=
  (valueForName' w exec s o name).wrap name

/-- `name.split('.')[0]` (NameMapper.py 258, 293, 328).  `split` never returns
an empty list, so the second case cannot occur (`splitCh_ne_nil`). -/
def firstChunk (name : Str) : Str :=
  match splitCh '.' name with
  | k :: _ => k
  | [] => []

/-- The search loop shared by NameMapper.py 294-298 and 329-332: first
namespace having the key wins; `found` is what is done with it. -/
def searchLoop (w : World Obj σ) (s : σ) (key : Str) (found : Obj → Res Obj σ) :
    List Obj → Res Obj σ
  | [] => ⟨.error (.notFound (notFoundMsg key)), s, []⟩
  | ns :: rest =>
    match hasKey w s ns key with
    | .error e => ⟨.error e, s, []⟩
    | .ok true => found ns
    | .ok false => searchLoop w s key found rest

/-- NameMapper.py 292-298 `valueFromSearchList` (no wrapping of NotFound). -/
def valueFromSearchList (w : World Obj σ) (exec : Bool) (s : σ) (searchList : List Obj)
    (name : Str) : Res Obj σ :=
  searchLoop w s (firstChunk name) (fun ns => valueForName' w exec s ns name) searchList

/-- The frame of the calling template method: NameMapper.py 246-252. -/
structure Frame (Obj : Type) where
  locals : Obj
  globals : Obj
  builtins : Obj

/-- NameMapper.py 246-252 `_namespaces`. -/
def namespaces (f : Frame Obj) (searchList : List Obj) : List Obj :=
  f.locals :: searchList ++ [f.globals, f.builtins]

/-- NameMapper.py 313-334 `valueFromFrameOrSearchList`. -/
def valueFromFrameOrSearchList (w : World Obj σ) (exec : Bool) (s : σ) (f : Frame Obj)
    (searchList : List Obj) (name : Str) : Res Obj σ :=
  searchLoop w s (firstChunk name) (fun ns => (valueForName' w exec s ns name).wrap name)
    (namespaces f searchList)

/-- NameMapper.py 300-311 `valueFromFrame`: the same with no search list. -/
def valueFromFrame (w : World Obj σ) (exec : Bool) (s : σ) (f : Frame Obj) (name : Str) :
    Res Obj σ :=
  valueFromFrameOrSearchList w exec s f [] name

/-- NameMapper.py 278-284 `valueForKey`. -/
def valueForKey (w : World Obj σ) (s : σ) (o : Obj) (k : Str) : Except Exc Obj :=
  match w.isMapping o, w.item s o k with
  | true, some v => .ok v
  | _, _ =>
    match hasattr w s o k with
    | .error e => .error e
    | .ok true => w.attr s o k
    | .ok false => .error (.notFound (notFoundMsg k))

/-- NameMapper.py 255-265 `hasName` (never autocalls: `executeCallables` keeps
its default `False`). -/
def hasName (w : World Obj σ) (s : σ) (o : Obj) (name : Str) : Except Exc Bool :=
  match hasKey w s o (firstChunk name) with
  | .error e => .error e
  | .ok false => .ok false
  | .ok true =>
    match (valueForName w false s o name).val with
    | .ok _ => .ok true
    | .error (.notFound _) => .ok false
    | .error e => .error e

/-! ### The C implementation (`Cheetah/c/_namemapper.c`) -/

/-- What the C code can ask in addition: `PyMapping_Check(obj)` and whether
`obj[key]` succeeds (`PyMapping_HasKeyString`/`PyMapping_GetItemString`,
_namemapper.c 142, 155, 188), and whether the type name is "function"
(_namemapper.c 92). -/
structure CWorld (Obj σ : Type) extends World Obj σ where
  mappingCheck : Obj → Bool
  subscript : σ → Obj → Str → Option Obj
  isFunction : Obj → Bool

/-- `PyObject_HasAttrString`: every exception counts as "no attribute".
Models c/_namemapper.c 140-150. -/
def cHasAttr (w : CWorld Obj σ) (s : σ) (o : Obj) (k : Str) : Bool :=
  (w.attr s o k).toOption.isSome

/-- _namemapper.c 75-109 `isInstanceOrClass` (Python 3 build: the old-style
class test, lines 76-81, is compiled out). -/
def cIsInstanceOrClass (w : CWorld Obj σ) (s : σ) (o : Obj) : Bool :=
  if !cHasAttr w s o c!"__class__" then false
  else if w.isType o || cHasAttr w s o c!"mro" then true
  else if w.isFunction o then false
  else if cHasAttr w s o c!"__func__" || cHasAttr w s o c!"__code__"
      || cHasAttr w s o c!"__self__" then false
  else if !cHasAttr w s o c!"mro" && cHasAttr w s o c!"__init__" then true
  else false

/-- _namemapper.h 51 `MAXCHUNKS`. -/
def maxChunks : Nat := 15

/-- _namemapper.c 112-137 `getNameChunks`.  `cur` is the current chunk, reversed,
`acc` the chunks already stored, reversed (so `acc.length` is `currChunkNum`).
A trailing empty chunk is dropped (line 133). -/
def getNameChunksAux : List Str → Str → Str → Except Exc (List Str)
  | acc, cur, [] =>
    match cur with
    | [] => .ok acc.reverse
    | _ :: _ => .ok (cur.reverse :: acc).reverse
  | acc, cur, c :: cs =>
    if c = '.' then
      if acc.length ≥ maxChunks - 2 then .error .tooManyPeriods
      else getNameChunksAux (cur.reverse :: acc) [] cs
    else getNameChunksAux acc (c :: cur) cs

/-- _namemapper.c 112-137. -/
def getNameChunks (name : Str) : Except Exc (List Str) := getNameChunksAux [] [] name

/-- _namemapper.c 140-148 `PyNamemapper_hasKey`. -/
def cHasKey (w : CWorld Obj σ) (s : σ) (o : Obj) (k : Str) : Bool :=
  (w.mappingCheck o && (w.subscript s o k).isSome) || cHasAttr w s o k

/-- _namemapper.c 182-229: the value of one component. -/
def cNextObj (w : CWorld Obj σ) (s : σ) (o : Obj) (k : Str) : Except Exc Obj :=
  match w.mappingCheck o, w.subscript s o k with
  | true, some v => .ok v
  | _, _ =>
    match w.attr s o k with
    | .ok v => .ok v
    | .error .attributeError => .error (.notFound (notFoundMsg k))
    | .error e => .error e

/-- _namemapper.c 173-246: the loop of `PyNamemapper_valueForName`.  Signal
checks (line 175) are not modelled. -/
def cValueForChunks (w : CWorld Obj σ) (exec : Bool) : σ → Obj → List Str → Res Obj σ
  | s, o, [] => ⟨.ok o, s, []⟩
  | s, o, k :: ks =>
    match cNextObj w s o k with
    | .error e => ⟨.error e, s, []⟩
    | .ok v =>
      if exec && w.callable v && !cIsInstanceOrClass w s v then
        match (w.call s v).1 with
        | .error e => ⟨.error e, (w.call s v).2, [v]⟩
        | .ok v' =>
          let r := cValueForChunks w exec (w.call s v).2 v' ks
          ⟨r.val, r.st, v :: r.calls⟩
      else cValueForChunks w exec s v ks

/-- _namemapper.c 42-72 `wrapInternalNotFoundException`, for an exception whose
value is still the plain message string (raised by C code).  When the message
is already annotated `newExcValue` stays `NULL` (lines 45, 58-68), so the
message is lost. -/
def cWrapExc (fullName : Str) : Exc → Exc
  | .notFound m =>
    if containsStr c!"while searching" m then .notFound []
    else .notFound (m ++ (c!" while searching for '" ++ fullName ++ c!"'"))
  | e => e

/-- Apply `wrapInternalNotFoundException` to an outcome.
Models c/_namemapper.c 42-72. -/
def Res.cWrap (r : Res Obj σ) (fullName : Str) : Res Obj σ :=
  { r with val := r.val.mapError (cWrapExc fullName) }

/-- _namemapper.c 267-300 `namemapper_valueForName`. -/
def cValueForName (w : CWorld Obj σ) (exec : Bool) (s : σ) (o : Obj) (name : Str) : Res Obj σ :=
  match getNameChunks name with
  | .error e => ⟨.error e, s, []⟩
  | .ok [] => ⟨.error .valueError, s, []⟩
  | .ok (k :: ks) => (cValueForChunks w exec s o (k :: ks)).cWrap name

/-- The C search loop: _namemapper.c 337-350, _namemapper.h 65-76. -/
def cSearchLoop (w : CWorld Obj σ) (s : σ) (key : Str) (found : Obj → Res Obj σ) :
    List Obj → Res Obj σ
  | [] => ⟨.error (.notFound (notFoundMsg key)), s, []⟩
  | ns :: rest => if cHasKey w s ns key then found ns else cSearchLoop w s key found rest

/-- _namemapper.c 302-356 `namemapper_valueFromSearchList`. -/
def cValueFromSearchList (w : CWorld Obj σ) (exec : Bool) (s : σ) (searchList : List Obj)
    (name : Str) : Res Obj σ :=
  match getNameChunks name with
  | .error e => ⟨.error e, s, []⟩
  | .ok [] => ⟨.error .valueError, s, []⟩
  | .ok (k :: ks) =>
    cSearchLoop w s k (fun ns => (cValueForChunks w exec s ns (k :: ks)).cWrap name) searchList

/-- _namemapper.c 358-426 `namemapper_valueFromFrameOrSearchList`. -/
def cValueFromFrameOrSearchList (w : CWorld Obj σ) (exec : Bool) (s : σ) (f : Frame Obj)
    (searchList : List Obj) (name : Str) : Res Obj σ :=
  match getNameChunks name with
  | .error e => ⟨.error e, s, []⟩
  | .ok [] => ⟨.error .valueError, s, []⟩
  | .ok (k :: ks) =>
    cSearchLoop w s k (fun ns => (cValueForChunks w exec s ns (k :: ks)).cWrap name)
      (namespaces f searchList)

end Cheetah.NameMapper
