import Verif.Str
/-
Model of Cheetah/Tools/MondoReport.py: `Roman`, `median`, the record statistics and paging.
-/
namespace Cheetah.Mondo

/-- The exceptions the modelled code raises. -/
inductive Err
  | typeError | indexError | notImplemented
  deriving DecidableEq, Repr

/-! ### `Roman` -/

/-- `while n >= step: n = n - step; roman = roman + c` (MondoReport.py 59-76, and 77-79 with
`step` 1, where the test `n < 5` always holds). Returns the new `roman` and `n`. The first
argument bounds the rounds and is supplied by the caller. -/
def strokes (step : Nat) (c : Char) : Nat → Nat → Str → Str × Nat
  | 0, n, roman => (roman, n)
  | fuel + 1, n, roman => if n ≥ step then strokes step c fuel (n - step) (roman ++ [c]) else (roman, n)

/-- One loop, run to its end (MondoReport.py 59-79). -/
def strokeLoop (step : Nat) (c : Char) (st : Str × Nat) : Str × Nat := strokes step c st.2 st.2 st.1

/-- The seven loops (MondoReport.py 58-79). -/
def additive (n : Nat) : Str :=
  (strokeLoop 1 'I' (strokeLoop 5 'V' (strokeLoop 10 'X' (strokeLoop 50 'L'
    (strokeLoop 100 'C' (strokeLoop 500 'D' (strokeLoop 1000 'M' ([], n)))))))).1

/-- The replacements (MondoReport.py 80-85), in order. -/
def replacements : List (Str × Str) :=
  [(c!"DCCCC", c!"CM"), (c!"CCCC", c!"CD"), (c!"LXXXX", c!"XC"), (c!"XXXX", c!"XL"),
   (c!"VIIII", c!"IX"), (c!"IIII", c!"IV")]

/-- `Roman(n)` (MondoReport.py 54-86) for an integer. Below 1 the message is built by adding
an integer to a string, so a TypeError is raised. -/
def Roman (n : Int) : Except Err Str :=
  if n < 1 then .error .typeError
  else .ok (replacements.foldl (fun s r => replaceStr r.1 r.2 s) (additive n.toNat))

/-! ### Record statistics -/

/-- `lis[i]` with Python's negative subscripts (MondoReport.py 105, 192, 206, 208, 384, 385, 412). -/
def pyGet {α : Type} (l : List α) (i : Int) : Except Err α :=
  let j := if i < 0 then i + l.length else i
  if j < 0 then .error .indexError
  else match l[j.toNat]? with
    | some a => .ok a
    | none => .error .indexError

/-- Insertion into a sorted list (of `sorted`, MondoReport.py 104). -/
def insertSorted (a : Int) : List Int → List Int
  | [] => [a]
  | b :: l => if a ≤ b then a :: b :: l else b :: insertSorted a l

/-- `sorted(lis)` for numbers (MondoReport.py 104). Python built-in. -/
def sorted : List Int → List Int
  | [] => []
  | a :: l => insertSorted a (sorted l)

/-- `median(lis)` (MondoReport.py 103-105), for numbers. -/
def median (l : List Int) : Except Err Int := pyGet (sorted l) (l.length / 2 : Nat)

/-- A `RecordStats` object: its `_origList`, `_index`, `_number` and `_item`
(MondoReport.py 128-131, 175-176, 191-194). -/
structure RecordStats (α : Type) where
  origList : List α
  index : Int
  number : Int
  item : α
  deriving DecidableEq, Repr

variable {α : Type}

/-- `RecordStats.__init__` (MondoReport.py 191-194). -/
def mkStats (l : List α) (i : Int) : Except Err (RecordStats α) :=
  match pyGet l i with
  | .ok record => .ok ⟨l, i, i + 1, record⟩
  | .error e => .error e

namespace RecordStats

/-- `length()` (MondoReport.py 196-197). -/
def length (r : RecordStats α) : Nat := r.origList.length

/-- `first()` (MondoReport.py 199-200). -/
def first (r : RecordStats α) : Bool := r.index = 0

/-- `last()` (MondoReport.py 202-203). -/
def last (r : RecordStats α) : Bool := r.index ≥ (r.origList.length : Int) - 1

/-- `even()` (MondoReport.py 141-142). -/
def even (r : RecordStats α) : Bool := r.number % 2 = 0

/-- `odd()` (MondoReport.py 144-145). -/
def odd (r : RecordStats α) : Bool := !r.even

/-- `even_i()` (MondoReport.py 147-148). -/
def even_i (r : RecordStats α) : Bool := r.index % 2 = 0

/-- `odd_i()` (MondoReport.py 150-151). -/
def odd_i (r : RecordStats α) : Bool := !r.even_i

/-- `Letter()` (MondoReport.py 156-158). -/
def Letter (r : RecordStats α) : Char := Char.ofNat ('A'.toNat + r.index.toNat)

/-- `_firstOrLastValue` (MondoReport.py 205-214). Simplification: `key` is the lookup of the
field, or the identity when there is none, and does not raise. -/
def firstOrLastValue {κ : Type} [DecidableEq κ] (r : RecordStats α) (key : α → κ)
    (currentIndex otherIndex : Int) : Except Err Bool :=
  match pyGet r.origList currentIndex with
  | .error e => .error e
  | .ok cur =>
    match pyGet r.origList otherIndex with
    | .error _ => .ok true
    | .ok other => .ok (decide (key cur ≠ key other))

/-- `firstValue(field)` (MondoReport.py 216-217). -/
def firstValue {κ : Type} [DecidableEq κ] (r : RecordStats α) (key : α → κ) : Except Err Bool :=
  r.firstOrLastValue key r.index (r.index - 1)

/-- `lastValue(field)` (MondoReport.py 219-220). -/
def lastValue {κ : Type} [DecidableEq κ] (r : RecordStats α) (key : α → κ) : Except Err Bool :=
  r.firstOrLastValue key r.index (r.index + 1)

end RecordStats

/-- A `PrevNextPage` object (MondoReport.py 381-386): start and end index with their items,
and the length. -/
structure PrevNextPage (α : Type) where
  start : Int × α
  stop : Int × α
  length : Nat
  deriving DecidableEq, Repr

/-- `PrevNextPage.__init__` (MondoReport.py 382-386). -/
def mkPrevNext (l : List α) (size : Nat) (start : Int) : Except Err (PrevNextPage α) :=
  match pyGet l start with
  | .error e => .error e
  | .ok a =>
    match pyGet l (start + size) with
    | .error e => .error e
    | .ok b => .ok ⟨(start, a), (start + size, b), size⟩

namespace RecordStats

/-- `prev()` (MondoReport.py 257-263). -/
def prev (r : RecordStats α) : Except Err (Option (PrevNextPage α)) :=
  if r.index = 0 then .ok none
  else (mkPrevNext r.origList r.length (r.index - r.length)).map some

/-- `next()` (MondoReport.py 265-271). -/
def next (r : RecordStats α) : Except Err (Option (PrevNextPage α)) :=
  if r.index + r.length = r.length then .ok none
  else (mkPrevNext r.origList r.length (r.index + r.length)).map some

end RecordStats

/-! ### Paging -/

/-- `origList[start:end]` for `0 <= start` (MondoReport.py 408). -/
def sliceFrom (l : List α) (start stop : Int) : List α :=
  let stop := if stop < 0 then stop + l.length else stop
  (l.drop start.toNat).take (stop - start).toNat

/-- The loop of `page` (MondoReport.py 410-416) from `rel` on, for the number of rounds given
first. -/
def pageLoop (l slice : List α) (start : Int) :
    Nat → Nat → Except Err (List (α × RecordStats α × RecordStats α))
  | 0, _ => .ok []
  | n + 1, rel =>
    match pyGet slice rel with
    | .error e => .error e
    | .ok r =>
      match mkStats l (start + rel) with
      | .error e => .error e
      | .ok a =>
        match mkStats slice rel with
        | .error e => .error e
        | .ok b =>
          match pageLoop l slice start n (rel + 1) with
          | .error e => .error e
          | .ok rest => .ok ((r, a, b) :: rest)

/-- `MondoReport(l).page(size, start, overlap, orphan)` (MondoReport.py 398-417). -/
def page (l : List α) (size start : Int) (overlap orphan : Int := 0) :
    Except Err (List (α × RecordStats α × RecordStats α)) :=
  if overlap ≠ 0 then .error .notImplemented
  else if orphan ≠ 0 then .error .notImplemented
  else
    let start := max 0 start
    let stop := min (start + size) l.length
    pageLoop l (sliceFrom l start stop) start size.toNat 0

/-- `MondoReport(l).all()` (MondoReport.py 421-423). -/
def all (l : List α) : Except Err (List (α × RecordStats α × RecordStats α)) :=
  page l l.length 0 0 0

end Cheetah.Mondo
