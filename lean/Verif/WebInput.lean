import Verif.PyInt
import Verif.Interval
import Verif.Dict
/-
Model of Cheetah/Utils/WebInputMixin.py, `useOrRaise` (Utils/Misc.py 16-23) and
`Template.webInput` (Template.py 1729-1975).
-/
namespace Cheetah.WebInput

/-- Values that webInput hands out (WebInputMixin.py 68-91): strings, converted numbers
(floats as rationals, see `Interval.parseFloat`), and whatever else a caller gives as a
default. -/
inductive V where
  | str (s : Str) | int (n : Int) | float (q : Rat) | other (id : Nat)
  deriving DecidableEq

/-- What `useOrRaise` gets (Misc.py 16-23): an exception class, or anything else. -/
inductive Thing where
  | val (v : V) | exc (cls : Str)
  deriving DecidableEq

/-- What may be raised: TypeError for an unknown suffix (WebInputMixin.py 66) or source
(Template.py 1952), RuntimeError (1936, 1938), or the caller's exception class. -/
inductive Err where
  | typeError | runtimeError | user (cls : Str)
  deriving DecidableEq

/-- `useOrRaise(thing)` (Misc.py 16-23); the message is not modelled. -/
def useOrRaise : Thing → Except Err V
  | .exc c => .error (.user c)
  | .val v => .ok v

/-- What the lookup function returns (WebInputMixin.py 52): None, a string or a list. -/
inductive Raw where
  | none | one (s : Str) | many (l : List Str)
  deriving DecidableEq

/-- Truth value (WebInputMixin.py 49): None, the empty string and the empty list are false. -/
def Raw.truthy : Raw → Bool
  | .none => false
  | .one s => !s.isEmpty
  | .many l => !l.isEmpty

/-- Step 3 (WebInputMixin.py 55-58). -/
def Raw.toList : Raw → List Str
  | .none => []
  | .one s => [s]
  | .many l => l

/-- `_Converter` (WebInputMixin.py 15-26); `func` gives none where the Python function
raises TypeError or ValueError. -/
structure Conv where
  func : Option (Str → Option V)
  default : Thing
  error : Thing

/-- Step 1 (WebInputMixin.py 39-45): `shortName` and `ext`. -/
def cutSuffix : Str → Str × Str
  | [] => ([], [])
  | c :: s => if c = ':' then ([], s) else (c :: (cutSuffix s).1, (cutSuffix s).2)

/-- Step 2 (WebInputMixin.py 48-51). -/
def find (func : Str → Raw) (name : Str) : Raw :=
  let short := (cutSuffix name).1
  if name ≠ short then (if (func name).truthy then func name else func short)
  else func short

/-- One element in step 5 (WebInputMixin.py 74-79). -/
def convertOne (f : Str → Option V) (error : Thing) (s : Str) : Except Err V :=
  match f s with
  | some v => .ok v
  | none => useOrRaise error

/-- The loop of step 5 (WebInputMixin.py 71-80). -/
def convertAll (f : Str → Option V) (error : Thing) : List Str → Except Err (List V)
  | [] => .ok []
  | s :: l =>
    match convertOne f error s with
    | .error e => .error e
    | .ok v =>
      match convertAll f error l with
      | .error e => .error e
      | .ok vs => .ok (v :: vs)

/-- Step 5 (WebInputMixin.py 70-80). -/
def convert (c : Conv) (l : List Str) : Except Err (List V) :=
  match c.func with
  | none => .ok (l.map .str)
  | some f => convertAll f c.error l

/-- A value of the resulting dictionary (WebInputMixin.py 87-91). -/
inductive Entry where
  | single (v : V) | multi (l : List V)
  deriving DecidableEq

/-- Step 6 (WebInputMixin.py 87-91). -/
def shape (c : Conv) (multi : Bool) (values : List V) : Except Err Entry :=
  if multi then .ok (.multi values)
  else
    match values with
    | [] => (useOrRaise c.default).map .single
    | v :: _ => .ok (.single v)

/-- `_lookup(name, func, multi, converters)` (WebInputMixin.py 29-91). -/
def lookup (name : Str) (func : Str → Raw) (multi : Bool) (converters : Str → Option Conv) :
    Except Err (Str × Entry) :=
  let values := (find func name).toList
  match converters (cutSuffix name).2 with
  | none => .error .typeError
  | some c =>
    match convert c values with
    | .error e => .error e
    | .ok vs => (shape c multi vs).map fun v => ((cutSuffix name).1, v)

/-- The arguments of webInput that fill in missing and bad values (Template.py 1729-1730). -/
structure Defaults where
  default : Thing
  defaultInt : Thing
  defaultFloat : Thing
  badInt : Thing
  badFloat : Thing

/-- `converters` (Template.py 1953-1957). -/
def converters (d : Defaults) (ext : Str) : Option Conv :=
  if ext = [] then some ⟨none, d.default, d.default⟩
  else if ext = c!"int" then some ⟨some fun s => (pyInt s).map .int, d.defaultInt, d.badInt⟩
  else if ext = c!"float" then some ⟨some fun s => (Interval.parseFloat s).map .float, d.defaultFloat, d.badFloat⟩
  else none

/-- One of the loops over names (Template.py 1960-1965). -/
def fill (func : Str → Raw) (multi : Bool) (conv : Str → Option Conv) :
    List Str → Dict Str Entry → Except Err (Dict Str Entry)
  | [], dic => .ok dic
  | n :: ns, dic =>
    match lookup n func multi conv with
    | .error e => .error e
    | .ok (k, v) => fill func multi conv ns (Dict.set dic k v)

/-- Where the values come from (Template.py 1924-1952). -/
inductive Source where
  | form | requestField | requestCookie | requestValue | requestSession
  deriving DecidableEq

/-- One character of `src.lower()` (Template.py 1922). Simplification: only ASCII letters
are changed; no other character has f, v, c or s as its lower case. -/
def lowerCh (c : Char) : Char := if 65 ≤ c.toNat ∧ c.toNat ≤ 90 then Char.ofNat (c.toNat + 32) else c

/-- `src.lower()` and the choice of `func` (Template.py 1922-1952).
The branches at 1939-1942 are never reached: `isCgi` with 'v' and 's' is dealt with above. -/
def source (isCgi : Bool) (src : Str) : Except Err Source :=
  let src := src.map lowerCh
  if isCgi ∧ (src = c!"f" ∨ src = c!"v") then .ok .form
  else if isCgi ∧ src = c!"c" then .error .runtimeError
  else if isCgi ∧ src = c!"s" then .error .runtimeError
  else if src = c!"f" then .ok .requestField
  else if src = c!"c" then .ok .requestCookie
  else if src = c!"v" then .ok .requestValue
  else if src = c!"s" then .ok .requestSession
  else .error .typeError

/-- The template and the process (Template.py 1923-1934, 1974): whether it runs under a
servlet engine, the module global `_formUsedByWebInput`, and its search list. -/
structure State where
  isCgi : Bool
  form : Option (Str → Raw)
  searchList : List (Dict Str Entry)

/-- The outside world at the time of the call: the query string's fields (1929, 1933) and
what the servlet engine's request gives for each source. -/
structure Outside where
  query : Str → Raw
  request : Source → Str → Raw

/-- `webInput(names, namesMulti, ...)` (Template.py 1729-1975), without `debug`. -/
def webInput (st : State) (out : Outside) (names namesMulti : List Str) (d : Defaults) (src : Str) :
    Except Err (Dict Str Entry) × State :=
  match source st.isCgi src with
  | .error e => (.error e, st)
  | .ok s =>
    let form := match st.form with
      | some f => f
      | none => out.query
    let st' := if s = .form then { st with form := some form } else st
    let func := if s = .form then form else out.request s
    match fill func false (converters d) names [] with
    | .error e => (.error e, st')
    | .ok dic =>
      match fill func true (converters d) namesMulti dic with
      | .error e => (.error e, st')
      | .ok dic => (.ok dic, { st' with searchList := dic :: st'.searchList })

end Cheetah.WebInput
