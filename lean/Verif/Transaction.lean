import Verif.PyStr
/-
Model of Cheetah/DummyTransaction.py (Python 3) and of the code that the `#transform`
directive generates (Cheetah/Compiler.py 1009-1013, 1181-1183).
`safeConvert` (31-47) is only reached after a UnicodeDecodeError, which joining `str`
objects cannot raise on Python 3; it is not modelled.
-/
namespace Cheetah.Transaction

/-- What can be passed to `write`: a string, or an object of another type.
Models DummyTransaction.py 49-50. -/
inductive Piece where
  | str (s : Str)
  | other
  deriving DecidableEq, Repr

/-- DummyTransaction.py 25-26 `DummyResponse`, 90-93 `TransformerResponse`: the output chunks
and the transformer's filter, if any. -/
structure Response where
  chunks : List Piece
  filter : Option (Str → Str)

/-- DummyTransaction.py 49-50 `write`. -/
def Response.write (r : Response) (p : Piece) : Response := { r with chunks := r.chunks ++ [p] }

/-- DummyTransaction.py 52-54 `writeln`. -/
def Response.writeln (r : Response) (p : Piece) : Response := (r.write p).write (.str c!"\n")

/-- `u''.join(chunks)`; `none` is TypeError.
Models DummyTransaction.py 59. -/
def join : List Piece → Option Str
  | [] => some []
  | .str s :: ps => (join ps).map (s ++ ·)
  | .other :: _ => none

/-- DummyTransaction.py 56-65, 95-102 `getvalue(outputChunks)`; the filter object is abstracted to its
`filter` function (99-101: a class is instantiated first). -/
def Response.getvalue (r : Response) (given : Option (List Piece)) : Option Str :=
  let chunks := match given with
    | some (c :: cs) => c :: cs
    | _ => r.chunks
  (join chunks).map (r.filter.getD id)

/-- What a caller can do with a response (DummyTransaction.py 28-69). -/
inductive Op where
  | write (p : Piece)
  | writeln (p : Piece)
  | flush
  | getvalue
  | writelines (ps : List Piece)

/-- DummyTransaction.py 28-29, 49-54, 56, 67-69. -/
def step (r : Response) : Op → Response
  | .write p => r.write p
  | .writeln p => r.writeln p
  | .flush => r
  | .getvalue => r
  | .writelines ps => ps.foldl Response.writeln r

/-! ### Methods with `#transform` -/

/-- What the body of a generated method does with its output: `write(...)`, or the lines for
`#transform` (Compiler.py 1009-1013). -/
inductive Act where
  | write (s : Str)
  | transform (f : Str → Str)

/-- The response the method started with, and the one `trans` and `write` were rebound to by the
last `#transform`, if any (Compiler.py 1009-1013). -/
structure Meth where
  orig : Response
  rebound : Option Response

/-- Compiler.py 1009-1013: `trans = TransformerTransaction()`, `trans._response = trans.response()`
(a new response, DummyTransaction.py 109-112), `trans._response._filter = f`,
`write = trans._response.write`; and `write(s)`. -/
def act (m : Meth) : Act → Meth
  | .write s => match m.rebound with
    | some r => { m with rebound := some (r.write (.str s)) }
    | none => { m with orig := m.orig.write (.str s) }
  | .transform f => { m with rebound := some ⟨[], some f⟩ }

/-- Compiler.py 1124-1149 (a DummyTransaction, DummyTransaction.py 81-87, if no transaction is passed;
`_dummyTrans` tells which), 1181-1183: the returned text, and the caller's response afterwards.
`x or ""` is `x` for strings. `self.transaction` is taken to be unset. -/
def callMethod (caller : Option Response) (acts : List Act) : Option Str × Option Response :=
  match caller with
  | some r => (some [], some (acts.foldl act ⟨r, none⟩).orig)
  | none =>
    let m := acts.foldl act ⟨⟨[], none⟩, none⟩
    ((m.rebound.getD m.orig).getvalue none, none)

end Cheetah.Transaction
