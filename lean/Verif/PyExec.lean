import Verif.Compile
/-
The Python side of generated methods: reading indented lines into blocks, and running
them.  This transcribes Python's grammar and semantics for the statements the compiler
emits (Language Reference, "Compound statements", "Simple statements"); it models no
code in /repo, except that the transactions are those of Cheetah/DummyTransaction.py
(15-57): `write` appends, `getvalue` joins.

Simplifications: `break` and `continue` outside a loop are outcomes and not syntax errors;
Python's limits on nesting (100 levels of indentation, 20 blocks) and recursion are not
modelled; a `for` loop goes through the items its iterable has at the start.
-/
namespace Cheetah.Compile

/-! ### Outcomes and loops, for any kind of state -/

/-- How a statement ends.
Python's own semantics; models no code in /repo (runs the lines of Compiler.py 443-1183). -/
inductive Out (X : Type) where
  | ok
  | brk
  | cont
  | ret
  | exc (x : X)

/-- `b` after `a`, if `a` ends normally. `none` is divergence (see `whileLoop`).
Python's own semantics; models no code in /repo (runs the lines of Compiler.py 443-1183). -/
def andThen {X S : Type} (a : Option (Out X × S)) (b : S → Option (Out X × S)) : Option (Out X × S) :=
  match a with
  | some (.ok, s) => b s
  | r => r

/-- A `while` loop, cut off (`none`) after `fuel` tests. Ends with `ok` when the test fails, with
`brk` on `break`.
Python's own semantics; models no code in /repo (runs the lines of Compiler.py 443-1183). -/
def whileLoop {X S : Type} (test : S → Except X Bool × S) (body : S → Option (Out X × S)) :
    Nat → S → Option (Out X × S)
  | 0, _ => none
  | fuel + 1, s =>
    match test s with
    | (.error x, s) => some (.exc x, s)
    | (.ok false, s) => some (.ok, s)
    | (.ok true, s) =>
      match body s with
      | some (.ok, s) => whileLoop test body fuel s
      | some (.cont, s) => whileLoop test body fuel s
      | r => r

/-- A `for` loop over the items.
Python's own semantics; models no code in /repo (runs the lines of Compiler.py 443-1183). -/
def forLoop {X S V : Type} (assign : V → S → Except X Unit × S) (body : S → Option (Out X × S)) :
    List V → S → Option (Out X × S)
  | [], s => some (.ok, s)
  | v :: vs, s =>
    match assign v s with
    | (.error x, s) => some (.exc x, s)
    | (.ok _, s) =>
      match body s with
      | some (.ok, s) => forLoop assign body vs s
      | some (.cont, s) => forLoop assign body vs s
      | r => r

/-- What follows a loop: `break` skips the `else` part.
Python's own semantics; models no code in /repo (runs the lines of Compiler.py 443-1183). -/
def afterLoop {X S : Type} (r : Option (Out X × S)) (els : S → Option (Out X × S)) : Option (Out X × S) :=
  match r with
  | some (.ok, s) => els s
  | some (.brk, s) => some (.ok, s)
  | r => r

/-! ### Blocks -/

variable (L : Lang)

mutual
/-- Python's own semantics; models no code in /repo (runs the lines of Compiler.py 443-1183). -/
inductive PStmt where
  | simple (s : Simple L)
  | compound (h : OpenHdr L) (b : PBlock) (t : PTail)
/-- Python's own semantics; models no code in /repo (runs the lines of Compiler.py 443-1183). -/
inductive PBlock where
  | nil
  | cons (s : PStmt) (b : PBlock)
/-- The further parts of a compound statement.
Python's own semantics; models no code in /repo (runs the lines of Compiler.py 443-1183). -/
inductive PTail where
  | nil
  | cons (h : ContHdr L) (b : PBlock) (t : PTail)
  /-- `except NotFound: pass` -/
  | notFound (t : PTail)
end

variable {L}

/-- The parts a statement may have after its first: `elif`s then `else`; `else`; `except`s,
`else`, `finally`. `stage` is 0 before, 1 after `else`, 2 after `finally`. -/
def PTail.legalFor (h : OpenHdr L) : Nat → PTail L → Bool
  | _, .nil => true
  | stage, .cons k _ t =>
    match h, k with
    | .if_ _, .elif _ => stage == 0 && t.legalFor h 0
    | .ifNot _, .elif _ => stage == 0 && t.legalFor h 0
    | .ifRecache _, .elif _ => stage == 0 && t.legalFor h 0
    | .try_, .except_ _ => stage == 0 && t.legalFor h 0
    | .try_, .finally_ => stage ≤ 1 && t.legalFor h 2
    | _, .else_ => stage == 0 && t.legalFor h 1
    | _, _ => false
  | stage, .notFound t =>
    match h with
    | .try_ => stage == 0 && t.legalFor h 0
    | _ => false

/-- A `try` needs an `except` or a `finally`, and an `else` needs an `except` before it.
Python's own semantics; models no code in /repo (runs the lines of Compiler.py 443-1183). -/
def PTail.startsTry : PTail L → Bool
  | .cons (.except_ _) _ _ => true
  | .cons .finally_ _ _ => true
  | .notFound _ => true
  | _ => false

/-- Python's own semantics; models no code in /repo (runs the lines of Compiler.py 443-1183). -/
def PTail.legal (h : OpenHdr L) (t : PTail L) : Bool :=
  t.legalFor h 0 && match h with
    | .try_ => t.startsTry
    | _ => true

mutual
/-- A block at level `lv`: its statements and the lines after it. A deeper line that does not
follow a block opener is an error, and so is a continuation without its statement.
`fuel` exceeds the number of lines.
Python's own semantics; models no code in /repo (runs the lines of Compiler.py 443-1183). -/
def parseBlock : Nat → Nat → List (Nat × Line L) → Option (PBlock L × List (Nat × Line L))
  | 0, _, _ => none
  | _ + 1, _, [] => some (.nil, [])
  | fuel + 1, lv, (k, l) :: rest =>
    if k < lv then some (.nil, (k, l) :: rest)
    else if lv < k then none
    else match l with
      | .simple s => (parseBlock fuel lv rest).map fun (b, rest) => (.cons (.simple s) b, rest)
      | .opens h =>
        match parseSuite fuel lv rest with
        | none => none
        | some (b, rest) =>
          match parseTail fuel lv rest with
          | none => none
          | some (t, rest) =>
            if t.legal h then
              (parseBlock fuel lv rest).map fun (b', rest) => (.cons (.compound h b t) b', rest)
            else none
      | .conts _ => none
      | .exceptNotFound => none
/-- The indented block after an opening line.
Python's own semantics; models no code in /repo (runs the lines of Compiler.py 443-1183). -/
def parseSuite : Nat → Nat → List (Nat × Line L) → Option (PBlock L × List (Nat × Line L))
  | 0, _, _ => none
  | _ + 1, _, [] => none
  | fuel + 1, lv, (k, l) :: rest => if lv < k then parseBlock fuel k ((k, l) :: rest) else none
/-- The continuations of a compound statement at level `lv`.
Python's own semantics; models no code in /repo (runs the lines of Compiler.py 443-1183). -/
def parseTail : Nat → Nat → List (Nat × Line L) → Option (PTail L × List (Nat × Line L))
  | 0, _, _ => none
  | _ + 1, _, [] => some (.nil, [])
  | fuel + 1, lv, (k, l) :: rest =>
    if k = lv then
      match l with
      | .conts h =>
        match parseSuite fuel lv rest with
        | none => none
        | some (b, rest) => (parseTail fuel lv rest).map fun (t, rest) => (.cons h b t, rest)
      | .exceptNotFound => (parseTail fuel lv rest).map fun (t, rest) => (.notFound t, rest)
      | _ => some (.nil, (k, l) :: rest)
    else some (.nil, (k, l) :: rest)
end

/-- Python's reading of a method body.
Python's own semantics; models no code in /repo (runs the lines of Compiler.py 443-1183). -/
def parseMethod (lv : Nat) (lines : List (Nat × Line L)) : Option (PBlock L) :=
  match parseBlock (3 * lines.length + 1) lv lines with
  | some (b, []) => some b
  | _ => none

/-! ### Running -/

/-- What a generated local variable can hold.
Python's own semantics; models no code in /repo (runs the lines of Compiler.py 443-1183). -/
inductive LVal (L : Lang) where
  | trans (b : Nat)
  | bool (b : Bool)
  | str (s : Str)
  | kws (d : Dict Str Str)
  | filter (f : L.F)

/-- State of a running method: the author's state, `trans` and the transaction whose response
`write` writes to (both as buffer numbers), the buffers, `_v`, the generated locals,
`_filter`, `self._CHEETAH__currentFilter`, `self._CHEETAH__initialFilter`,
`self._CHEETAH__isBuffering`.
Python's own semantics; models no code in /repo (runs the lines of Compiler.py 443-1183). -/
structure St (L : Lang) where
  env : L.σ
  trans : Nat
  write : Nat
  bufs : Nat → Str
  next : Nat
  v : Option L.V
  locals : Loc → Option (LVal L)
  filter : L.F
  current : L.F
  initial : L.F
  buffering : Bool

namespace St

/-- `write(s)`.
Python's own semantics; models no code in /repo (runs the lines of Compiler.py 443-1183). -/
def emit (s : St L) (t : Str) : St L :=
  { s with bufs := fun b => if b = s.write then s.bufs b ++ t else s.bufs b }

/-- A statement writes `t` to the response of `trans`.
Python's own semantics; models no code in /repo (runs the lines of Compiler.py 443-1183). -/
def say (s : St L) (t : Str) : St L :=
  { s with bufs := fun b => if b = s.trans then s.bufs b ++ t else s.bufs b }

/-- Python's own semantics; models no code in /repo (runs the lines of Compiler.py 443-1183). -/
def setLoc (s : St L) (x : Loc) (v : LVal L) : St L :=
  { s with locals := fun y => if y = x then some v else s.locals y }

/-- Run something that only sees the author's state.
Python's own semantics; models no code in /repo (runs the lines of Compiler.py 443-1183). -/
def lift {α : Type} (s : St L) (f : L.σ → Except L.X α × L.σ) : Except L.X α × St L :=
  let (r, e) := f s.env
  (r, { s with env := e })

end St

/-- Turn the result of an effect into an outcome.
Python's own semantics; models no code in /repo (runs the lines of Compiler.py 443-1183). -/
def outOf {X S : Type} : Except X Unit × S → Out X × S
  | (.ok _, s) => (.ok, s)
  | (.error x, s) => (.exc x, s)

/-- Continue with the value of an effect.
Python's own semantics; models no code in /repo (runs the lines of Compiler.py 443-1183). -/
def withVal {X S α : Type} (r : Except X α × S) (k : α → S → Out X × S) : Out X × S :=
  match r with
  | (.ok a, s) => k a s
  | (.error x, s) => (.exc x, s)

/-- The value of an expression of the generated code.
Python's own semantics; models no code in /repo (runs the lines of Compiler.py 443-1183). -/
def evalPE : PE L → St L → Except L.X L.V × St L
  | .user e, s => s.lift (L.eval e)
  | .call f id, s =>
    match s.locals (.callArgVal id) with
    | some (.str t) => s.lift (L.call f t)
    | _ => (.error L.nameError, s)
  | .callKw f id, s =>
    match s.locals (.callKws id) with
    | some (.kws d) => s.lift (L.callKw f d)
    | _ => (.error L.nameError, s)

/-- `_filter(v)` or `str(v)`.
Python's own semantics; models no code in /repo (runs the lines of Compiler.py 443-1183). -/
def filtered (useFilters : Bool) (v : L.V) (s : St L) : Except L.X Str × St L :=
  if useFilters then s.lift (L.filter s.filter v) else s.lift (L.str v)

/-- One simple statement.
Python's own semantics; models no code in /repo (runs the lines of Compiler.py 443-1183). -/
def execSimple : Simple L → St L → Out L.X × St L
  | .writeLit lit, s =>
    match lexTriple lit with
    | some (t, []) => (.ok, s.emit t)
    | _ => (.exc L.syntaxError, s)
  | .setV e, s => withVal (evalPE e s) fun v s => (.ok, { s with v := some v })
  | .writeV uf, s =>
    match s.v with
    | none => (.exc L.nameError, s)
    | some v => if L.isNone v then (.ok, s) else withVal (filtered uf v s) fun t s => (.ok, s.emit t)
  | .writeE uf e, s => withVal (evalPE e s) fun v s => withVal (filtered uf v s) fun t s => (.ok, s.emit t)
  | .user c, s => outOf ((s.say (L.says c s.env)).lift (L.exec c))
  | .pass_, s => (.ok, s)
  | .break_, s => (.brk, s)
  | .continue_, s => (.cont, s)
  | .ret, s => (.ret, s)
  | .saveTrans id, s => (.ok, s.setLoc (.origTrans id) (.trans s.trans))
  | .restoreTrans id, s =>
    match s.locals (.origTrans id) with
    | some (.trans b) => (.ok, { s with trans := b })
    | _ => (.exc L.nameError, s)
  | .bindWrite, s => (.ok, { s with write := s.trans })
  | .saveBuffering id, s => (.ok, s.setLoc (.wasBuffering id) (.bool s.buffering))
  | .setBuffering, s => (.ok, { s with buffering := true })
  | .restoreBuffering id, s =>
    match s.locals (.wasBuffering id) with
    | some (.bool b) => (.ok, { s with buffering := b })
    | _ => (.exc L.nameError, s)
  | .newCollector k id, s =>
    (.ok, { s.setLoc (.collector k id) (.trans s.next) with
      trans := s.next, next := s.next + 1, bufs := fun b => if b = s.next then [] else s.bufs b })
  | .bindCollector k id, s =>
    match s.locals (.collector k id) with
    | some (.trans b) => (.ok, { s with write := b })
    | _ => (.exc L.nameError, s)
  | .captureInto x id, s =>
    match s.locals (.collector .capture id) with
    | some (.trans b) => outOf (s.lift (L.assign x (L.ofStr (s.bufs b))))
    | _ => (.exc L.nameError, s)
  | .setArgVal id, s =>
    match s.locals (.collector .call id) with
    | some (.trans b) => (.ok, s.setLoc (.callArgVal id) (.str (s.bufs b)))
    | _ => (.exc L.nameError, s)
  | .newKws id, s => (.ok, s.setLoc (.callKws id) (.kws []))
  -- nothing reads that variable
  | .noteArg _ _, s => (.ok, s)
  | .setKw id name, s =>
    match s.locals (.callKws id), s.locals (.collector .call id) with
    | some (.kws d), some (.trans b) => (.ok, s.setLoc (.callKws id) (.kws (d.set name (s.bufs b))))
    | _, _ => (.exc L.nameError, s)
  | .saveFilter id, s => (.ok, s.setLoc (.origFilter id) (.filter s.filter))
  | .initialFilter, s => (.ok, { s with filter := s.initial })
  | .setFilter n, s => withVal (s.lift (L.getFilter n)) fun f s => (.ok, { s with filter := f, current := f })
  | .restoreFilter id, s =>
    match s.locals (.origFilter id) with
    | some (.filter f) => (.ok, { s with filter := f, current := f })
    | _ => (.exc L.nameError, s)
  | .cacheProbe id, s =>
    withVal (s.lift (L.cacheProbe id)) fun r s =>
      match r with
      | some t => (.ok, (s.setLoc (.recache id) (.bool false)).emit t)
      | none => (.ok, s.setLoc (.recache id) (.bool true))
  | .cacheExpiry id, s => outOf (s.lift (L.cacheExpiry id))
  | .cacheData id, s =>
    match s.locals (.collector .cache id) with
    | some (.trans b) => (.ok, s.setLoc .cacheData (.str (s.bufs b)))
    | _ => (.exc L.nameError, s)
  | .cacheStore id, s =>
    match s.locals .cacheData with
    | some (.str t) => outOf (s.lift (L.cacheStore id t))
    | _ => (.exc L.nameError, s)
  | .writeCacheData, s =>
    match s.locals .cacheData with
    | some (.str t) => (.ok, s.emit t)
    | _ => (.exc L.nameError, s)
  | .del x, s =>
    match s.locals x with
    | some _ => (.ok, { s with locals := fun y => if y = x then none else s.locals y })
    | none => (.exc L.nameError, s)

/-- A condition.
Python's own semantics; models no code in /repo (runs the lines of Compiler.py 443-1183). -/
def testE (c : L.E) (s : St L) : Except L.X Bool × St L :=
  match s.lift (L.eval c) with
  | (.ok v, s) => (.ok (L.truth v), s)
  | (.error x, s) => (.error x, s)

/-- Python's own semantics; models no code in /repo (runs the lines of Compiler.py 443-1183). -/
def testNot (c : L.E) (s : St L) : Except L.X Bool × St L :=
  match testE c s with
  | (.ok b, s) => (.ok (!b), s)
  | r => r

/-- The items of a `for` loop.
Python's own semantics; models no code in /repo (runs the lines of Compiler.py 443-1183). -/
def itemsOf (iter : L.V → Except L.X (List L.V)) (e : L.E) (s : St L) : Except L.X (List L.V) × St L :=
  match s.lift (L.eval e) with
  | (.ok v, s) => (iter v, s)
  | (.error x, s) => (.error x, s)

mutual
/-- Python's own semantics; models no code in /repo (runs the lines of Compiler.py 443-1183). -/
def execStmt (fuel : Nat) : PStmt L → St L → Option (Out L.X × St L)
  | .simple c, s => some (execSimple c s)
  | .compound h b t, s =>
    match h with
    | .if_ c =>
      match testE c s with
      | (.error x, s) => some (.exc x, s)
      | (.ok true, s) => execBlock fuel b s
      | (.ok false, s) => execElse fuel t s
    | .ifNot c =>
      match testNot c s with
      | (.error x, s) => some (.exc x, s)
      | (.ok true, s) => execBlock fuel b s
      | (.ok false, s) => execElse fuel t s
    | .ifRecache id =>
      match s.locals (.recache id) with
      | some (.bool true) => execBlock fuel b s
      | some (.bool false) => execElse fuel t s
      | _ => some (.exc L.nameError, s)
    | .while_ c => afterLoop (whileLoop (testE c) (execBlock fuel b) fuel s) (execElse fuel t)
    | .for_ x e =>
      match itemsOf L.iter e s with
      | (.error x, s) => some (.exc x, s)
      | (.ok vs, s) =>
        afterLoop (forLoop (fun v s => s.lift (L.assign x v)) (execBlock fuel b) vs s) (execElse fuel t)
    | .forRange _ e =>
      match itemsOf L.range e s with
      | (.error x, s) => some (.exc x, s)
      | (.ok vs, s) => afterLoop (forLoop (fun _ s => (.ok (), s)) (execBlock fuel b) vs s) (execElse fuel t)
    | .try_ =>
      match execBlock fuel b s with
      | none => none
      | some (.exc x, s) => execFinally fuel t (execHandler fuel x t s)
      | some (.ok, s) => execFinally fuel t (execElse fuel t s)
      | some r => execFinally fuel t (some r)
/-- Python's own semantics; models no code in /repo (runs the lines of Compiler.py 443-1183). -/
def execBlock (fuel : Nat) : PBlock L → St L → Option (Out L.X × St L)
  | .nil, s => some (.ok, s)
  | .cons c b, s => andThen (execStmt fuel c s) (execBlock fuel b)
/-- The `elif`s and the `else` of an `if`, or the `else` of a loop or `try`.
Python's own semantics; models no code in /repo (runs the lines of Compiler.py 443-1183). -/
def execElse (fuel : Nat) : PTail L → St L → Option (Out L.X × St L)
  | .nil, s => some (.ok, s)
  | .cons k b t, s =>
    match k with
    | .elif c =>
      match testE c s with
      | (.error x, s) => some (.exc x, s)
      | (.ok true, s) => execBlock fuel b s
      | (.ok false, s) => execElse fuel t s
    | .else_ => execBlock fuel b s
    | _ => execElse fuel t s
  | .notFound t, s => execElse fuel t s
/-- The first `except` clause that catches `x`, if any.
Python's own semantics; models no code in /repo (runs the lines of Compiler.py 443-1183). -/
def execHandler (fuel : Nat) (x : L.X) : PTail L → St L → Option (Out L.X × St L)
  | .nil, s => some (.exc x, s)
  | .cons k b t, s =>
    match k with
    | .except_ m => if L.catches m x then execBlock fuel b s else execHandler fuel x t s
    | _ => execHandler fuel x t s
  | .notFound t, s => if L.notFound x then some (.ok, s) else execHandler fuel x t s
/-- The `finally` part, after the rest ended with `r`.
Python's own semantics; models no code in /repo (runs the lines of Compiler.py 443-1183). -/
def execFinally (fuel : Nat) : PTail L → Option (Out L.X × St L) → Option (Out L.X × St L)
  | .nil, r => r
  | .cons k b t, r =>
    match k with
    | .finally_ =>
      match r with
      | none => none
      | some (o, s) =>
        match execBlock fuel b s with
        | some (.ok, s) => some (o, s)
        | r' => r'
    | _ => execFinally fuel t r
  | .notFound t, r => execFinally fuel t r
end

end Cheetah.Compile
