import Verif.NameMapper
/-
Model of the run-time part of Cheetah/Template.py: the search list of a template
instance, getVar/varExists, and the #include directive.
-/
namespace Cheetah.Template
open Cheetah.NameMapper
variable {Obj σ : Type}

/-- Ways of passing the `searchList` (or `namespaces`) argument
(Template.py 1550-1556): not at all, a list, a tuple, or one other object. -/
inductive SLArg (Obj : Type) where
  | absent | list (xs : List Obj) | tuple (xs : List Obj) | single (o : Obj)
  deriving DecidableEq, Repr

/-- The namespaces the argument denotes, in order.
Models Template.py 1550-1556. -/
def SLArg.items : SLArg Obj → List Obj
  | .absent => [] | .list xs => xs | .tuple xs => xs | .single o => [o]

/-- Keyword arguments of `_initCheetahInstance` that bear on the search list.
Models Template.py 1520-1562. -/
structure InitArgs (Obj : Type) where
  searchList : SLArg Obj
  namespaces : SLArg Obj
  /-- `compilerSettings` is a dict with a true `prioritizeSearchListOverSelf`. -/
  prioritize : Bool
  globalSetVars : Option Obj
  preBuilt : Option (List Obj)

/-- Failures of the constructor.
Models Template.py 1551, 1576. -/
inductive InitErr where
  | assertion   -- both `namespaces` and `searchList` given
  | typeError   -- `tuple + list`
  deriving DecidableEq, Repr

/-- A template instance, as far as the search list is concerned.
Models Template.py 1558-1579. -/
structure Inst (Obj : Type) where
  self : Obj
  globalSetVars : Obj
  searchList : List Obj
  deriving DecidableEq, Repr

/-- Template.py 1550-1581 `_initCheetahInstance`, search-list part. `self` is the
template object, `newDict` the fresh `{}` of line 1558. -/
def initInstance (self newDict : Obj) (a : InitArgs Obj) : Except InitErr (Inst Obj) := do
  -- 1550-1553: `namespaces` is another name for `searchList`
  let sl ← match a.namespaces, a.searchList with
    | .absent, s => pure s
    | n, .absent => pure n
    | _, _ => throw .assertion
  -- 1554-1556: a single namespace is wrapped in a list
  let sl := match sl with
    | .single o => SLArg.list [o]
    | s => s
  -- 1558-1562
  let g := a.globalSetVars.getD newDict
  match a.preBuilt with
  | some pre => return ⟨self, g, pre ++ [self]⟩       -- 1564-1567
  | none =>
    match sl with
    | .absent => return ⟨self, g, [g, self]⟩          -- 1570
    | .list xs =>
      if a.prioritize then return ⟨self, g, xs ++ [g, self]⟩  -- 1572-1575
      else return ⟨self, g, [g, self] ++ xs⟩          -- 1577
    | .tuple xs =>
      if a.prioritize then throw InitErr.typeError           -- `searchList + list`
      else return ⟨self, g, [g, self] ++ xs⟩
    | .single _ => throw InitErr.typeError                   -- unreachable, wrapped above

/-- Template.py 1543-1544: a second `_initCheetahInstance` on an initialised
instance does nothing. -/
def initOnce (cur : Option (Inst Obj)) (self newDict : Obj) (a : InitArgs Obj) :
    Except InitErr (Inst Obj) :=
  match cur with
  | some i => .ok i
  | none => initInstance self newDict a

/-- `varName.replace('$', '')`.
Models Template.py 1451, 1463. -/
def stripDollar (name : Str) : Str := name.filter (· ≠ '$')

/-- Template.py 1443-1456 `getVar`. -/
def getVar (w : World Obj σ) (s : σ) (t : Inst Obj) (name : Str) (default : Option Obj)
    (autoCall : Bool) : Res Obj σ :=
  let r := valueFromSearchList w autoCall s t.searchList (stripDollar name)
  match r.val, default with
  | .error (.notFound _), some d => ⟨.ok d, r.st, r.calls⟩
  | _, _ => r

/-- Template.py 1458-1466 `varExists` (`hasVar`): a Boolean or another exception. -/
def varExists (w : World Obj σ) (s : σ) (t : Inst Obj) (name : Str) (autoCall : Bool) :
    Except Exc Bool :=
  match (valueFromSearchList w autoCall s t.searchList (stripDollar name)).val with
  | .ok _ => .ok true
  | .error (.notFound _) => .ok false
  | .error e => .error e

/-! ### #include -/

/-- The instance created for a non-raw `#include` (Template.py 1691-1693). -/
def nestedInst (outer : Inst Obj) (nestedSelf newDict : Obj) : Except InitErr (Inst Obj) :=
  initInstance nestedSelf newDict
    { searchList := .absent, namespaces := .absent, prioritize := false,
      globalSetVars := some outer.globalSetVars, preBuilt := some outer.searchList }

/-- A chain of includes: each template includes the next one.
Models Template.py 1689-1702, repeated. -/
def nestedChain (outer : Inst Obj) (newDict : Obj) : List Obj → Except InitErr (Inst Obj)
  | [] => .ok outer
  | t :: ts => match nestedInst outer t newDict with
    | .ok i => nestedChain i newDict ts
    | .error e => .error e

/-! ### The include cache -/

/-- What the per-instance include cache holds (Template.py 1664-1714): a compiled
nested template or raw text. `φ` is the type of filters. -/
inductive Inc (T φ : Type) where
  | tmpl (t : T) (initialFilter currentFilter : φ)
  | text (s : Str)
  deriving DecidableEq, Repr

/-- The environment of an `#include`: what compiling a source (or reading a file,
for raw includes) gives at that moment.
Models Template.py 1670-1709. -/
structure IncEnv (T : Type) where
  /-- class compiled from the argument (path or source), lines 1670-1690 -/
  compile : Str → T
  /-- `self.getFileContents(path)`, lines 1704-1707 -/
  readFile : Str → Str

/-- What happens on an `#include`.
Models Template.py 1711-1714. -/
inductive IncEff (T φ : Type) where
  | respond (t : T) (filter : φ)      -- nested template rendered with that filter
  | write (s : Str)                   -- raw text written
  | attributeError                    -- `.respond` on a str
  | writeTemplate                     -- a template object handed to `write`
  deriving DecidableEq, Repr

/-- Include cache of an instance, most recent first (keys are never removed).
Models Template.py 1581, 1668-1669. -/
abbrev IncCache (T φ : Type) := List (Str × Inc T φ)

/-- Models Template.py 1669, 1712, 1714. -/
def IncCache.find {T φ : Type} (c : IncCache T φ) (k : Str) : Option (Inc T φ) := List.lookup k c

/-- Template.py 1664-1714 `_handleCheetahInclude`. `initF` is the including
template's initial filter. -/
def handleInclude {T φ : Type} (env : IncEnv T) (initF : φ) (c : IncCache T φ)
    (srcArg : Str) (fromFile raw : Bool) : IncEff T φ × IncCache T φ :=
  let (entry, c') := match c.find srcArg with
    | some e => (e, c)
    | none =>
      let e := if raw then (if fromFile then Inc.text (env.readFile srcArg) else .text srcArg)
        else .tmpl (env.compile srcArg) initF initF
      (e, (srcArg, e) :: c)
  let eff := match raw, entry with
    | false, .tmpl t _ f => .respond t f
    | false, .text _ => .attributeError
    | true, .text s => .write s
    | true, .tmpl .. => .writeTemplate
  (eff, c')

end Cheetah.Template
