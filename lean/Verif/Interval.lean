import Verif.PyStr
import Mathlib.Data.Rat.Defs
/-
Model of cache intervals: Cheetah/Compiler.py 146-185 (genTimeInterval, genCacheInfo,
genCacheInfoFromArgList), 838-841 (use of the interval), and the cache token of a placeholder,
Cheetah/Parser.py 449-466.
-/
namespace Cheetah.Interval

/-- Models Compiler.py 148, 149. -/
inductive Err where
  | indexError
  | valueError
  deriving DecidableEq, Repr

/-- The digits after a sign.
Part of `float` (Compiler.py 149). -/
def signed (s : Str) : Int × Str :=
  match s with
  | '-' :: r => (-1, r)
  | '+' :: r => (1, r)
  | r => (1, r)

/-- The exponent of a float literal, `none` if the text does not end there.
Part of `float` (Compiler.py 149). -/
def exponent : Str → Option Int
  | [] => some 0
  | c :: r =>
    if c = 'e' ∨ c = 'E' then
      let (sg, ds) := signed r
      if ds ≠ [] ∧ ds.all isDigit then some (sg * parseDecimal ds) else none
    else none

/-- The digits after a decimal point, if there is one, and what follows them.
Part of `float` (Compiler.py 149). -/
def fraction : Str → Str × Str
  | '.' :: r => (r.takeWhile isDigit, r.dropWhile isDigit)
  | r => ([], r)

/-- `10 ** n` for any integer `n`.
Part of `float` (Compiler.py 149). -/
def tenTo (n : Int) : Rat := if 0 ≤ n then (10 : Rat) ^ n.toNat else 1 / (10 : Rat) ^ (-n).toNat

/-- `float(s)`; `none` is ValueError. Simplifications: exact decimal arithmetic instead of binary
floating point; `inf`, `nan`, underscores and non-ASCII digits are not accepted.
Used in Compiler.py 149-159. -/
def parseFloat (s : Str) : Option Rat :=
  let (sg, t) := signed (strip s)
  let whole := t.takeWhile isDigit
  let (frac, rest) := fraction (t.dropWhile isDigit)
  if whole = [] ∧ frac = [] then none
  else (exponent rest).map fun e =>
    sg * ((parseDecimal (whole ++ frac) : Nat) : Rat) * tenTo (e - frac.length)

/-- `float(s)` times a number of seconds.
Models Compiler.py 149-159. -/
def scaled (s : Str) (n : Rat) : Except Err Rat :=
  match parseFloat s with
  | some x => .ok (x * n)
  | none => .error .valueError

/-- Compiler.py 146-160 `genTimeInterval`. -/
def genTimeInterval (s : Str) : Except Err Rat :=
  match s.getLast? with
  | none => .error .indexError
  | some c =>
    if c = 's' then scaled s.dropLast 1
    else if c = 'm' then scaled s.dropLast 60
    else if c = 'h' then scaled s.dropLast (60 * 60)
    else if c = 'd' then scaled s.dropLast (60 * 60 * 24)
    else if c = 'w' then scaled s.dropLast (60 * 60 * 24 * 7)
    else scaled s 60

/-- Compiler.py 838-841: the number added to the current time for the expiry; `none` if no
expiry is set. -/
def expiry (interval : Option Rat) : Option Rat :=
  match interval with
  | some x => if x = 0 then none else some x
  | none => none

/-- The cache token of a placeholder.
Models Parser.py 463-469. -/
inductive Token where
  | refresh (interval : Str)
  | static
  | none
  deriving DecidableEq, Repr

/-- The optional unit letter in Parser.py 454-460. -/
def unitLetter : Str → Str × Str
  | c :: r => if c = 's' ∨ c = 'm' ∨ c = 'h' ∨ c = 'd' ∨ c = 'w' then ([c], r) else ([], c :: r)
  | [] => ([], [])

/-- Match `\*interval\*` (Parser.py 453-464) at the start. -/
def matchRefresh : Str → Option (Str × Str)
  | '*' :: r =>
    let num := r.takeWhile fun c => isDigit c || c == '.'
    let (u, t) := unitLetter (r.dropWhile fun c => isDigit c || c == '.')
    match t with
    | '*' :: t => if num = [] then .none else some (num ++ u, t)
    | _ => .none
  | _ => .none

/-- Parser.py 463-469 `cacheTokenRE` at the start: the token and what follows it. -/
def readToken (s : Str) : Token × Str :=
  match matchRefresh s with
  | some (i, r) => (.refresh i, r)
  | Option.none =>
    match s with
    | '*' :: r => (.static, r)
    | r => (.none, r)

/-- `cacheInfo` as far as a placeholder sets it (Compiler.py 162-172). -/
inductive CacheInfo where
  | refresh (interval : Rat)
  | static
  | empty
  deriving DecidableEq, Repr

/-- Compiler.py 162-172 `genCacheInfo`. -/
def genCacheInfo : Token → Except Err CacheInfo
  | .refresh i => (genTimeInterval i).map .refresh
  | .static => .ok .static
  | .none => .ok .empty

/-- A value in the `cacheInfo` of a `#cache` directive.
Models Compiler.py 175-184. -/
inductive Val where
  | text (s : Str)
  | num (x : Rat)
  | refreshCache
  deriving DecidableEq, Repr

/-- `d[k] = v` on a dictionary as a function.
Models Compiler.py 184. -/
def put (d : Str → Option Val) (k : Str) (v : Val) : Str → Option Val := fun m => if m = k then some v else d m

/-- Compiler.py 177-178: quotes around a value are cut off. -/
def unquote : Str → Except Err Str
  | [] => .error .indexError
  | c :: s => if c = '"' ∨ c = '\'' then .ok s.dropLast else .ok (c :: s)

/-- Compiler.py 176-184, one argument. -/
def addArg (d : Str → Option Val) (key val : Str) : Except Err (Str → Option Val) := do
  let v ← unquote val
  if key = c!"timer" then
    let x ← genTimeInterval v
    return put d c!"interval" (.num x)
  else return put d key (.text v)

/-- Compiler.py 174-185 `genCacheInfoFromArgList`; arguments without a value (`None`) are not modelled. -/
def fromArgList (args : List (Str × Str)) : Except Err (Str → Option Val) :=
  args.foldlM (fun d a => addArg d a.1 a.2) (put (fun _ => Option.none) c!"type" .refreshCache)

end Cheetah.Interval
