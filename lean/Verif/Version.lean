import Verif.PyInt
/-
Model of Cheetah/Version.py: `convertVersionStringToTuple` and Python's comparison of the
tuples it returns.
-/
namespace Cheetah.Version

/-- What may be raised: unpacking `s.split(..)` into two names or `int` (ValueError), and
`versionNum[i]` beyond three components (IndexError) (Version.py 17-32). -/
inductive Err where
  | valueError | indexError
  deriving DecidableEq, Repr

/-- The tuple returned (Version.py 34): three numbers, the name of the release type, its
number. -/
structure Tuple where
  major : Int
  minor : Int
  micro : Int
  kind : Str
  sub : Int
  deriving DecidableEq, Repr

/-- Put a character in front of the first piece (helper of `split`, Version.py 17-23). -/
def consPiece (c : Char) : List Str → List Str
  | [] => [[c]]
  | p :: ps => (c :: p) :: ps

/-- `s.split('rc')` (Version.py 23). -/
def splitRc : Str → List Str
  | [] => [[]]
  | [c] => [[c]]
  | c :: d :: s => if c = 'r' ∧ d = 'c' then [] :: splitRc s else consPiece c (splitRc (d :: s))

/-- `num, sub = s.split(..)` (Version.py 17, 20, 23). -/
def two : List Str → Except Err (Str × Str)
  | [a, b] => .ok (a, b)
  | _ => .error .valueError

/-- `int(s)` (Version.py 29, 32). -/
def toInt (s : Str) : Except Err Int :=
  match pyInt s with
  | some n => .ok n
  | none => .error .valueError

/-- The loop `for i in range(len(num)): versionNum[i] = int(num[i])` (Version.py 28-29):
`int(num[i])` is evaluated before the assignment to `versionNum[i]` fails. -/
def fill (nums : List Int) (i : Nat) : List Str → Except Err (List Int)
  | [] => .ok nums
  | p :: ps =>
    match toInt p with
    | .error e => .error e
    | .ok n => if i < nums.length then fill (nums.set i n) (i + 1) ps else .error .indexError

/-- Lines 16-26: the number part, the release type and its number (a string, or the int 0
of line 15, which `int` leaves alone). -/
def splitKind (s : Str) : Except Err (Str × Str × Str) :=
  if containsStr c!"a" s then (two (splitCh 'a' s)).map fun p => (p.1, c!"alpha", p.2)
  else if containsStr c!"b" s then (two (splitCh 'b' s)).map fun p => (p.1, c!"beta", p.2)
  else if containsStr c!"rc" s then (two (splitRc s)).map fun p => (p.1, c!"candidate", p.2)
  else .ok (s, c!"final", c!"0")

/-- `convertVersionStringToTuple(s)` (Version.py 12-34). `len(versionNum)` is always 3, so
lines 30-31 never apply. -/
def convert (s : Str) : Except Err Tuple :=
  match splitKind s with
  | .error e => .error e
  | .ok (num, kind, sub) =>
    match fill [0, 0, 0] 0 (splitCh '.' num) with
    | .error e => .error e
    | .ok nums =>
      match toInt sub with
      | .error e => .error e
      | .ok k => .ok ⟨nums[0]!, nums[1]!, nums[2]!, kind, k⟩

/-- `a < b` for Python strings (used by the comparison of tuples, Version.py 45-61). -/
def strLt : Str → Str → Bool
  | _, [] => false
  | [], _ :: _ => true
  | c :: s, d :: t => if c = d then strLt s t else c.toNat < d.toNat

/-- `a < b` for the tuples (Version.py 45-61): the first difference decides. -/
def Tuple.lt (a b : Tuple) : Bool :=
  if a.major ≠ b.major then a.major < b.major
  else if a.minor ≠ b.minor then a.minor < b.minor
  else if a.micro ≠ b.micro then a.micro < b.micro
  else if a.kind ≠ b.kind then strLt a.kind b.kind
  else a.sub < b.sub

end Cheetah.Version
