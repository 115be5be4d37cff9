import Verif.PyLit
import Verif.PyStr
import Verif.NameMapper
/-
Model of error catchers: the wrapper methods generated by Cheetah/Compiler.py 1466-1504
(ClassCompiler.addErrorCatcherCall) and called by 545-548 (MethodCompiler.addPlaceholder), and
Cheetah/ErrorCatchers.py.
-/
namespace Cheetah.ErrorCatcher
open NameMapper (Exc)

/-- A generated wrapper method: its name, the source of its `return eval(...)` line after
`return eval(`, and the `rawCode` it passes to `warn` (Compiler.py 1473-1499). -/
structure Wrapper where
  name : Str
  evalArgs : Str
  raw : Str
  deriving DecidableEq, Repr

/-- `_placeholderToErrorCatcherMap`, `_errorCatcherCount` and the finished wrapper methods
(Compiler.py 1300-1301, 1407-1413). -/
structure State where
  map : List (Str × Str)
  count : Nat
  wrappers : List Wrapper

/-- Models Compiler.py 1300-1301. -/
def State.init : State := ⟨[], 0, []⟩

/-- Compiler.py 1466-1504 `addErrorCatcherCall`: the new state and the method name. Doc strings and
comments are left out. -/
def addErrorCatcherCall (st : State) (code raw : Str) : State × Str :=
  match st.map.lookup raw with
  | some name => (st, name)
  | none =>
    let n := st.count + 1
    let name := c!"__errorCatcher" ++ decimal n
    ({ map := (raw, name) :: st.map
       count := n
       wrappers := st.wrappers ++
         [⟨name, c!"'''" ++ code ++ c!"''', globals(), localsDict)", raw⟩] }, name)

/-- A class with these placeholders (code, raw text) in order: the final state and the wrapper name
each placeholder calls (Compiler.py 545-548). -/
def addAll (st : State) : List (Str × Str) → State × List Str
  | [] => (st, [])
  | (code, raw) :: ps =>
    let (st, n) := addErrorCatcherCall st code raw
    let (st, ns) := addAll st ps
    (st, n :: ns)

/-- The catchers of ErrorCatchers.py.
Models ErrorCatchers.py 10-56. -/
inductive Catcher where
  | echo
  | bigEcho
  | keyError
  | listErrors
  deriving DecidableEq, Repr

/-- What a wrapper call gives.
Models Compiler.py 1487-1499. -/
inductive Outcome (Obj : Type) where
  | value (o : Obj)
  | text (s : Str)
  | raised (e : Exc)
  /-- `raise` of something that is not an exception -/
  | typeError
  deriving DecidableEq, Repr

/-- ErrorCatchers.py 19-20, 28-29, 33-35, 46-52 `warn`. In 34-35 `KeyError` is the class being defined,
an `ErrorCatcher` and not an exception, so `raise` fails with a TypeError. -/
def warn {Obj : Type} (c : Catcher) (raw : Str) : Outcome Obj :=
  match c with
  | .echo => .text raw
  | .bigEcho => .text (c!"===============&lt;" ++ raw ++ c!" could not be found&gt;===============")
  | .keyError => .typeError
  | .listErrors => .text raw

/-- Compiler.py 1487-1499 with ErrorCatchers.py 11, 16-17: run a wrapper whose expression has the
result `r`. `ListErrors` also gets its list of errors extended. -/
def call {Obj : Type} (c : Catcher) (raw : Str) (errors : List Str) (r : Except Exc Obj) : Outcome Obj × List Str :=
  match r with
  | .ok v => (.value v, errors)
  | .error (.notFound _) => (warn c raw, if c = .listErrors then errors ++ [raw] else errors)
  | .error e => (.raised e, errors)

end Cheetah.ErrorCatcher
