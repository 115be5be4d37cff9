import Verif.Props.Codegen
/-
What the directives of a template mean, directly on the template: the specification for
C25 and C27-C29.  It knows nothing of the generated code: no transactions, no saved
variables, no pending text.  A region (#capture, #call, #cache) runs its body with an
empty output and afterwards goes on with the output as it was before.
-/
namespace Cheetah.Compile
variable {L : Lang}

/-- The state in which a template runs: the author's state, the output so far, the filter in
force, `self._CHEETAH__currentFilter`, `self._CHEETAH__initialFilter`, and whether
output is being buffered. -/
structure D (L : Lang) where
  env : L.σ
  out : Str
  filter : L.F
  current : L.F
  initial : L.F
  buffering : Bool

/-- Ways a template can be aborted. `dirty`: the exception has left a region before its end.
`leak`: control has left a region before its end in another way, or a dirty exception was
caught. The meaning of the template after a leak is left open here; that generated code
behaves badly then is shown by the counterexamples of C28 and C29. -/
inductive Abort (X : Type) where
  | raised (x : X) (dirty : Bool)
  | leak

abbrev Res (L : Lang) := Option (Out (Abort L.X) × D L)

namespace D

def lift {α : Type} (d : D L) (f : L.σ → Except L.X α × L.σ) : Except L.X α × D L :=
  ((f d.env).1, { d with env := (f d.env).2 })

/-- Append to the output. -/
def emit (d : D L) (t : Str) : D L := { d with out := d.out ++ t }

end D

/-- Use the value of an effect; an exception ends it. -/
def bindD {α : Type} (r : Except L.X α × D L) (k : α → D L → Res L) : Res L :=
  match r with
  | (.ok a, d) => k a d
  | (.error x, d) => some (.exc (.raised x false), d)

/-- Show a value: nothing for `None` (unless that is switched off), otherwise what the filter
makes of it. -/
def showV (st : Settings) (v : L.V) (d : D L) : Res L :=
  if st.alwaysFilterNone && L.isNone v then some (.ok, d)
  else bindD (if st.useFilters then d.lift (L.filter d.filter v) else d.lift (L.str v)) fun t d => some (.ok, d.emit t)

/-- Evaluate and show. -/
def showE (st : Settings) (ev : L.σ → Except L.X L.V × L.σ) (d : D L) : Res L :=
  bindD (d.lift ev) (showV st)

def testD (c : L.E) (d : D L) : Except (Abort L.X) Bool × D L :=
  match d.lift (L.eval c) with
  | (.ok v, d) => (.ok (L.truth v), d)
  | (.error x, d) => (.error (.raised x false), d)

/-- Leave a region whose body ended other than normally. -/
def leave : Out (Abort L.X) × D L → Out (Abort L.X) × D L
  | (.exc (.raised x _), d) => (.exc (.raised x true), d)
  | (_, d) => (.exc .leak, d)

/-- Go on after (part of) the body of a region. -/
def bodyThen (r : Res L) (k : D L → Res L) : Res L :=
  match r with
  | none => none
  | some (.ok, d) => k d
  | some r => some (leave r)

/-- After the body of a region: `k` gets its output, and the state with the output as it was
before the region. -/
def inRegion (r : Res L) (d0 : D L) (k : Str → D L → Res L) : Res L :=
  bodyThen r fun d => k d.out { d with out := d0.out, buffering := d0.buffering }

/-- Would a `#try` with these parts react to the exception? -/
def Tail.touches (x : L.X) : Tail L → Bool
  | .nil => false
  | .cons (.except_ m) _ t => L.catches m x || t.touches x
  | .cons .finally_ _ _ => true
  | .cons _ _ t => t.touches x

/-- `#filter`: the filter for the body. -/
def enterFilter (f : FilterArg L) (d : D L) (k : D L → Res L) : Res L :=
  match f with
  | .none => k { d with filter := d.initial }
  | .named n => bindD (d.lift (L.getFilter n)) fun g d => k { d with filter := g, current := g }
  | .klass n => bindD (d.lift (L.getFilter n)) fun g d => k { d with filter := g, current := g }

/-- After the body of `#filter`: the filter is as before. `#stop` ends the method anyway. -/
def leaveFilter (r : Res L) (d0 : D L) : Res L :=
  match r with
  | none => none
  | some (.ok, d) => some (.ok, { d with filter := d0.filter, current := d0.filter })
  | some (.ret, d) => some (.ret, d)
  | some r => some (leave r)

mutual
/-- Run a template; `none` if some loop makes `fuel` iterations. -/
def run (st : Settings) (fuel : Nat) : T L → D L → Res L
  | .skip, d => some (.ok, d)
  | .seq a b, d => andThen (run st fuel a d) (run st fuel b)
  | .text s, d => some (.ok, d.emit s)
  | .place e silent, d =>
    match showE st (L.eval e) d with
    | some (.exc (.raised x dirty), d) =>
      if silent && L.notFound x then some (.ok, d) else some (.exc (.raised x dirty), d)
    | r => r
  | .ternary c a b, d =>
    match testD c d with
    | (.error x, d) => some (.exc x, d)
    | (.ok true, d) => showE st (L.eval a) d
    | (.ok false, d) => showE st (L.eval b) d
  | .stmt s, d => bindD ((d.emit (L.says s d.env)).lift (L.exec s)) fun _ d => some (.ok, d)
  | .note, d => some (.ok, d)
  | .break_, d => some (.brk, d)
  | .continue_, d => some (.cont, d)
  | .stop, d => some (.ret, d)
  | .compound _ o body tail, d =>
    match o with
    | .if_ c =>
      match testD c d with
      | (.error x, d) => some (.exc x, d)
      | (.ok true, d) => run st fuel body d
      | (.ok false, d) => runElse st fuel tail d
    | .unless c =>
      match testD c d with
      | (.error x, d) => some (.exc x, d)
      | (.ok false, d) => run st fuel body d
      | (.ok true, d) => runElse st fuel tail d
    | .while_ c => afterLoop (whileLoop (testD c) (run st fuel body) fuel d) (runElse st fuel tail)
    | .for_ x e =>
      bindD (d.lift (L.eval e)) fun v d =>
        match L.iter v with
        | .error x => some (.exc (.raised x false), d)
        | .ok vs => afterLoop (forLoop (fun v d =>
            match d.lift (L.assign x v) with
            | (.ok _, d) => (.ok (), d)
            | (.error x, d) => (.error (.raised x false), d)) (run st fuel body) vs d) (runElse st fuel tail)
    | .repeat_ e =>
      bindD (d.lift (L.eval e)) fun v d =>
        match L.range v with
        | .error x => some (.exc (.raised x false), d)
        | .ok vs => afterLoop (forLoop (fun _ d => (.ok (), d)) (run st fuel body) vs d) (runElse st fuel tail)
    | .try_ =>
      match run st fuel body d with
      | none => none
      | some (.exc (.raised x false), d) => runFinally st fuel tail (runHandler st fuel x tail d)
      | some (.exc (.raised x true), d) =>
        if tail.touches x then some (.exc .leak, d) else some (.exc (.raised x true), d)
      | some (.exc .leak, d) => some (.exc .leak, d)
      | some (.ok, d) => runFinally st fuel tail (runElse st fuel tail d)
      | some r => runFinally st fuel tail (some r)
  | .capture _ x body, d =>
    inRegion (run st fuel body { d with out := [], buffering := true }) d fun text d =>
      bindD (d.lift (L.assign x (L.ofStr text))) fun _ d => some (.ok, d)
  | .call _ f body, d =>
    inRegion (run st fuel body { d with out := [], buffering := true }) d fun text d => showE st (L.call f text) d
  | .callKw _ f pre name body more, d =>
    -- the text before the first `#arg` is part of the first argument
    bodyThen (run st fuel pre { d with out := [], buffering := true }) fun d' =>
      bodyThen (run st fuel body d') (runArgs st fuel f name more [] d)
  | .filter _ f body, d => enterFilter f d fun d' => leaveFilter (run st fuel body d') d
  | .cache id timed body, d =>
    bindD (d.lift (L.cacheProbe id)) fun shown d =>
      match shown with
      | some text => some (.ok, d.emit text)
      | none =>
        match (if timed then d.lift (L.cacheExpiry id) else (.ok (), d)) with
        | (.error x, d) => some (.exc (.raised x true), d)
        | (.ok _, d) =>
          inRegion (run st fuel body { d with out := [] }) d fun text d =>
            bindD (d.lift (L.cacheStore id text)) fun _ d => some (.ok, d.emit text)
/-- `#elif`s and `#else`. -/
def runElse (st : Settings) (fuel : Nat) : Tail L → D L → Res L
  | .nil, d => some (.ok, d)
  | .cons k b t, d =>
    match k with
    | .elif c =>
      match testD c d with
      | (.error x, d) => some (.exc x, d)
      | (.ok true, d) => run st fuel b d
      | (.ok false, d) => runElse st fuel t d
    | .else_ => run st fuel b d
    | _ => runElse st fuel t d
/-- The first `#except` that catches `x`. -/
def runHandler (st : Settings) (fuel : Nat) (x : L.X) : Tail L → D L → Res L
  | .nil, d => some (.exc (.raised x false), d)
  | .cons k b t, d =>
    match k with
    | .except_ m => if L.catches m x then run st fuel b d else runHandler st fuel x t d
    | _ => runHandler st fuel x t d
/-- `#finally`, after the rest has ended with `r`. -/
def runFinally (st : Settings) (fuel : Nat) : Tail L → Res L → Res L
  | .nil, r => r
  | .cons k b t, r =>
    match k with
    | .finally_ =>
      match r with
      | none => none
      | some (.exc (.raised _ true), d) => some (.exc .leak, d)
      | some (.exc .leak, d) => some (.exc .leak, d)
      | some (o, d) =>
        match run st fuel b d with
        | some (.ok, d) => some (o, d)
        | r' => r'
    | _ => runFinally st fuel t r
/-- The further `#arg`s of a `#call`, then the call. `d0` is the state before the `#call`, `d`
holds the text of the argument `name`. -/
def runArgs (st : Settings) (fuel : Nat) (f : L.Fn) (name : Str) : Args L → Dict Str Str → D L → D L → Res L
  | .nil, kws, d0, d =>
    showE st (L.callKw f (kws.set name d.out)) { d with out := d0.out, buffering := d0.buffering }
  | .cons name' body more, kws, d0, d =>
    bodyThen (run st fuel body { d with out := [] }) (runArgs st fuel f name' more (kws.set name d.out) d0)
end

/-- What a caller of the method gets: the text or an exception, and the author's state. A stray
`#break` or `#continue` counts as a syntax error. -/
def result : Res L → Option (Except L.X Str × L.σ)
  | none => none
  | some (.ok, d) => some (.ok d.out, d.env)
  | some (.ret, d) => some (.ok d.out, d.env)
  | some (.exc (.raised x _), d) => some (.error x, d.env)
  | some (.exc .leak, d) => some (.error L.syntaxError, d.env)
  | some (.brk, d) => some (.error L.syntaxError, d.env)
  | some (.cont, d) => some (.error L.syntaxError, d.env)

/-- Call the method of template `t` in the author's state `env`, with filter `f`. -/
def callSpec (st : Settings) (fuel : Nat) (t : T L) (env : L.σ) (f : L.F) : Option (Except L.X Str × L.σ) :=
  result (run st fuel t ⟨env, [], f, f, f, false⟩)

/-- What Python's caller gets from the generated method: `return ...getvalue()` of the
transaction that `trans` refers to. -/
def pyResult : Option (Out L.X × St L) → Option (Except L.X Str × L.σ)
  | none => none
  | some (.ok, s) => some (.ok [], s.env)
  | some (.ret, s) => some (.ok (s.bufs s.trans), s.env)
  | some (.exc x, s) => some (.error x, s.env)
  | some (.brk, s) => some (.error L.syntaxError, s.env)
  | some (.cont, s) => some (.error L.syntaxError, s.env)

/-- Compile the template, let Python read the lines, call the method (Compiler.py 1124-1169:
`trans = DummyTransaction()`, `write = trans.response().write`,
`_filter = self._CHEETAH__currentFilter`). -/
def callGenerated (st : Settings) (lev fuel : Nat) (t : T L) (env : L.σ) (f : L.F) : Option (Except L.X Str × L.σ) :=
  match methodLines st lev t with
  | none => some (.error L.syntaxError, env)
  | some lines =>
    match parseMethod lev lines with
    | none => some (.error L.syntaxError, env)
    | some b => pyResult (execBlock fuel b ⟨env, 0, 0, fun _ => [], 1, none, fun _ => none, f, f, f, false⟩)

/-! ### Classes of templates -/

mutual
/-- The numbers of the regions. -/
def T.ids : T L → List Nat
  | .seq a b => a.ids ++ b.ids
  | .compound _ _ body tail => body.ids ++ tail.ids
  | .capture id _ body => id :: body.ids
  | .call id _ body => id :: body.ids
  | .callKw id _ pre _ body more => id :: (pre.ids ++ body.ids ++ more.ids)
  | .filter id _ body => id :: body.ids
  | .cache id _ body => id :: body.ids
  | .skip => []
  | .text _ => []
  | .place _ _ => []
  | .ternary _ _ _ => []
  | .stmt _ => []
  | .note => []
  | .break_ => []
  | .continue_ => []
  | .stop => []
def Tail.ids : Tail L → List Nat
  | .nil => []
  | .cons _ body t => body.ids ++ t.ids
def Args.ids : Args L → List Nat
  | .nil => []
  | .cons _ body more => body.ids ++ more.ids
end

mutual
/-- No region has the number of a region around it (the compiler draws 8 random digits). -/
def T.distinct : T L → Prop
  | .seq a b => a.distinct ∧ b.distinct
  | .compound _ _ body tail => body.distinct ∧ tail.distinct
  | .capture id _ body => id ∉ body.ids ∧ body.distinct
  | .call id _ body => id ∉ body.ids ∧ body.distinct
  | .callKw id _ pre _ body more => id ∉ pre.ids ++ body.ids ++ more.ids ∧ pre.distinct ∧ body.distinct ∧ more.distinct
  | .filter id _ body => id ∉ body.ids ∧ body.distinct
  | .cache id _ body => id ∉ body.ids ∧ body.distinct
  | .skip => True
  | .text _ => True
  | .place _ _ => True
  | .ternary _ _ _ => True
  | .stmt _ => True
  | .note => True
  | .break_ => True
  | .continue_ => True
  | .stop => True
def Tail.distinct : Tail L → Prop
  | .nil => True
  | .cons _ body t => body.distinct ∧ t.distinct
def Args.distinct : Args L → Prop
  | .nil => True
  | .cons _ body more => body.distinct ∧ more.distinct
end

end Cheetah.Compile
