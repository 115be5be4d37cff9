import Verif.Props.ExecSpec
import Verif.Props.StrConst
/-
Generated code behaves as the template's direct meaning (Verif/Props/ExecSpec.lean):
properties C25, C27, C28 and C29.
-/
namespace Cheetah.Compile
variable {L : Lang}

/-! ### The simulation -/

/-- The region number in a generated name. -/
def Loc.id : Loc → Option Nat
  | .origTrans i => some i
  | .wasBuffering i => some i
  | .collector _ i => some i
  | .callArgVal i => some i
  | .callKws i => some i
  | .origFilter i => some i
  | .recache i => some i
  | .cacheData => none

/-- Python state and template state agree, the text `p` being pending. -/
structure Rel (p : Str) (s : St L) (d : D L) : Prop where
  env : s.env = d.env
  write : s.write = s.trans
  lt : s.trans < s.next
  out : s.bufs s.trans ++ p = d.out
  filter : s.filter = d.filter
  current : s.current = d.current
  initial : s.initial = d.initial
  buffering : s.buffering = d.buffering

/-- Code of the regions `I`, started in `s0`, has left alone what does not belong to it. -/
structure Frame (I : Nat → Prop) (s0 s : St L) : Prop where
  trans : s.trans = s0.trans
  next : s0.next ≤ s.next
  bufs : ∀ b, b < s0.next → b ≠ s0.trans → s.bufs b = s0.bufs b
  locals : ∀ x i, x.id = some i → ¬ I i → s.locals x = s0.locals x
  buffering : s.buffering = s0.buffering

theorem Frame.refl (I : Nat → Prop) (s : St L) : Frame I s s := ⟨rfl, Nat.le_refl _, fun _ _ _ => rfl, fun _ _ _ _ => rfl, rfl⟩

theorem Frame.trans' {I : Nat → Prop} {a b c : St L} (h : Frame I a b) (h' : Frame I b c) : Frame I a c :=
  ⟨h'.trans.trans h.trans, Nat.le_trans h.next h'.next,
   fun x hx hn => (h'.bufs x (Nat.lt_of_lt_of_le hx h.next) (h.trans ▸ hn)).trans (h.bufs x hx hn),
   fun x i hi hn => (h'.locals x i hi hn).trans (h.locals x i hi hn), h'.buffering.trans h.buffering⟩

theorem Frame.mono {I J : Nat → Prop} {a b : St L} (hIJ : ∀ i, I i → J i) (h : Frame I a b) : Frame J a b :=
  ⟨h.trans, h.next, h.bufs, fun x i hi hn => h.locals x i hi (fun hI => hn (hIJ i hI)), h.buffering⟩

/-- The run of the code and the run of the template end alike, `q` being the text then pending. -/
def Sim (I : Nat → Prop) (s0 : St L) (q : Str) : Option (Out L.X × St L) → Res L → Prop
  | _, some (.exc .leak, _) => True
  | none, none => True
  | some (.exc x, s), some (.exc (.raised y true), d) => x = y ∧ s.env = d.env
  | some (.exc x, s), some (.exc (.raised y false), d) => x = y ∧ Rel [] s d ∧ Frame I s0 s
  | some (.ok, s), some (.ok, d) => Rel q s d ∧ Frame I s0 s
  | some (.brk, s), some (.brk, d) => Rel [] s d ∧ Frame I s0 s
  | some (.cont, s), some (.cont, d) => Rel [] s d ∧ Frame I s0 s
  | some (.ret, s), some (.ret, d) => Rel [] s d ∧ Frame I s0 s
  | _, _ => False

theorem Sim.ok {I : Nat → Prop} {s0 : St L} {q s d} (h : Rel q s d) (hf : Frame I s0 s) :
    Sim I s0 q (some (.ok, s)) (some (.ok, d)) := ⟨h, hf⟩

theorem Sim.exc {I : Nat → Prop} {s0 : St L} {q s d} (x : L.X) (h : Rel [] s d) (hf : Frame I s0 s) :
    Sim I s0 q (some (.exc x, s)) (some (.exc (.raised x false), d)) := ⟨rfl, h, hf⟩

/-- Case analysis on a simulation. -/
theorem Sim.cases {I : Nat → Prop} {s0 : St L} {q : Str} {a : Option (Out L.X × St L)} {b : Res L} (h : Sim I s0 q a b) :
    (∃ d, b = some (.exc .leak, d)) ∨ (a = none ∧ b = none) ∨
    (∃ x s d, a = some (.exc x, s) ∧ b = some (.exc (.raised x true), d) ∧ s.env = d.env) ∨
    (∃ x s d, a = some (.exc x, s) ∧ b = some (.exc (.raised x false), d) ∧ Rel [] s d ∧ Frame I s0 s) ∨
    (∃ s d, a = some (.ok, s) ∧ b = some (.ok, d) ∧ Rel q s d ∧ Frame I s0 s) ∨
    (∃ s d, a = some (.brk, s) ∧ b = some (.brk, d) ∧ Rel [] s d ∧ Frame I s0 s) ∨
    (∃ s d, a = some (.cont, s) ∧ b = some (.cont, d) ∧ Rel [] s d ∧ Frame I s0 s) ∨
    (∃ s d, a = some (.ret, s) ∧ b = some (.ret, d) ∧ Rel [] s d ∧ Frame I s0 s) := by
  unfold Sim at h
  split at h
  · exact Or.inl ⟨_, rfl⟩
  · exact Or.inr (Or.inl ⟨rfl, rfl⟩)
  · obtain ⟨rfl, h⟩ := h
    exact Or.inr (Or.inr (Or.inl ⟨_, _, _, rfl, rfl, h⟩))
  · obtain ⟨rfl, h⟩ := h
    exact Or.inr (Or.inr (Or.inr (Or.inl ⟨_, _, _, rfl, rfl, h⟩)))
  · exact Or.inr (Or.inr (Or.inr (Or.inr (Or.inl ⟨_, _, rfl, rfl, h⟩))))
  · exact Or.inr (Or.inr (Or.inr (Or.inr (Or.inr (Or.inl ⟨_, _, rfl, rfl, h⟩)))))
  · exact Or.inr (Or.inr (Or.inr (Or.inr (Or.inr (Or.inr (Or.inl ⟨_, _, rfl, rfl, h⟩))))))
  · exact Or.inr (Or.inr (Or.inr (Or.inr (Or.inr (Or.inr (Or.inr ⟨_, _, rfl, rfl, h⟩))))))
  · exact h.elim

theorem Sim.from {I : Nat → Prop} {s0 s1 : St L} {q : Str} {a : Option (Out L.X × St L)} {b : Res L}
    (hf : Frame I s0 s1) (h : Sim I s1 q a b) : Sim I s0 q a b := by
  rcases h.cases with ⟨d, rfl⟩ | ⟨rfl, rfl⟩ | ⟨x, s, d, rfl, rfl, h2⟩ | ⟨x, s, d, rfl, rfl, h, g⟩ | ⟨s, d, rfl, rfl, h, g⟩ |
    ⟨s, d, rfl, rfl, h, g⟩ | ⟨s, d, rfl, rfl, h, g⟩ | ⟨s, d, rfl, rfl, h, g⟩
  · cases a <;> simp [Sim]
  · trivial
  · exact ⟨rfl, h2⟩
  · exact ⟨rfl, h, hf.trans' g⟩
  all_goals exact ⟨h, hf.trans' g⟩

theorem Sim.mono {I J : Nat → Prop} {s0 : St L} {q : Str} {a : Option (Out L.X × St L)} {b : Res L}
    (hIJ : ∀ i, I i → J i) (h : Sim I s0 q a b) : Sim J s0 q a b := by
  rcases h.cases with ⟨d, rfl⟩ | ⟨rfl, rfl⟩ | ⟨x, s, d, rfl, rfl, h2⟩ | ⟨x, s, d, rfl, rfl, h, g⟩ | ⟨s, d, rfl, rfl, h, g⟩ |
    ⟨s, d, rfl, rfl, h, g⟩ | ⟨s, d, rfl, rfl, h, g⟩ | ⟨s, d, rfl, rfl, h, g⟩
  · cases a <;> simp [Sim]
  · trivial
  · exact ⟨rfl, h2⟩
  · exact ⟨rfl, h, g.mono hIJ⟩
  all_goals exact ⟨h, g.mono hIJ⟩

theorem Sim.leak {I : Nat → Prop} {s0 : St L} {q : Str} (a : Option (Out L.X × St L)) (d : D L) :
    Sim I s0 q a (some (.exc .leak, d)) := by
  cases a <;> simp [Sim]

theorem Sim.andThen {I : Nat → Prop} {s0 : St L} {q q' : Str} {a : Option (Out L.X × St L)} {b : Res L}
    {f : St L → Option (Out L.X × St L)} {g : D L → Res L} (h : Sim I s0 q a b)
    (hfg : ∀ s d, Rel q s d → Frame I s0 s → Sim I s q' (f s) (g d)) :
    Sim I s0 q' (andThen a f) (Compile.andThen b g) := by
  rcases h.cases with ⟨d, rfl⟩ | ⟨rfl, rfl⟩ | ⟨x, s, d, rfl, rfl, h2⟩ | ⟨x, s, d, rfl, rfl, h, hf⟩ | ⟨s, d, rfl, rfl, h, hf⟩ |
    ⟨s, d, rfl, rfl, h, hf⟩ | ⟨s, d, rfl, rfl, h, hf⟩ | ⟨s, d, rfl, rfl, h, hf⟩
  · exact Sim.leak _ _
  · trivial
  · exact ⟨rfl, h2⟩
  · exact ⟨rfl, h, hf⟩
  · exact (hfg s d h hf).from hf
  all_goals exact ⟨h, hf⟩

/-! ### Blocks -/

theorem execBlock_append (fuel : Nat) : ∀ (a b : PBlock L) (s : St L),
    execBlock fuel (a ++ b) s = andThen (execBlock fuel a s) (execBlock fuel b)
  | .nil, b, s => by simp [execBlock, andThen]
  | .cons c a, b, s => by
    simp only [PBlock.cons_append, execBlock]
    cases h : execStmt fuel c s with
    | none => rfl
    | some r =>
      obtain ⟨o, s'⟩ := r
      cases o with
      | ok => simp only [andThen]; exact execBlock_append fuel a b s'
      | _ => rfl

/-- Running a list of simple statements. -/
def execSimples : List (Simple L) → St L → Out L.X × St L
  | [], s => (.ok, s)
  | c :: cs, s =>
    match execSimple c s with
    | (.ok, s) => execSimples cs s
    | r => r

theorem execBlock_simples (fuel : Nat) : ∀ (cs : List (Simple L)) (s : St L),
    execBlock fuel (simples cs) s = some (execSimples cs s)
  | [], s => by simp [simples, execBlock, execSimples]
  | c :: cs, s => by
    simp only [simples, execBlock, execStmt, execSimples]
    cases h : execSimple c s with
    | mk o s' =>
      cases o with
      | ok => simp only [andThen]; exact execBlock_simples fuel cs s'
      | _ => rfl

theorem rel_emit {s : St L} {d : D L} (t : Str) (h : Rel [] s d) : Rel [] (s.emit t) (d.emit t) := by
  refine ⟨h.env, h.write, h.lt, ?_, h.filter, h.current, h.initial, h.buffering⟩
  have := h.out
  simp [St.emit, D.emit, h.write] at this ⊢
  rw [this]

theorem frame_emit (I : Nat → Prop) {p : Str} {s : St L} {d : D L} (t : Str) (h : Rel p s d) : Frame I s (s.emit t) := by
  refine ⟨rfl, Nat.le_refl _, fun b _ hb => ?_, fun _ _ _ _ => rfl, rfl⟩
  simp [St.emit, h.write, hb]

/-- Writing pending text. -/
theorem flush_sim (I : Nat → Prop) (st : Settings) (hp : Printable st.printable) (fuel : Nat) {p : Str} {s : St L} {d : D L}
    (h : Rel p s d) : ∃ s', execBlock fuel (flush st p) s = some (.ok, s') ∧ Rel [] s' d ∧ Frame I s s' ∧
      s'.locals = s.locals := by
  by_cases hp0 : p = []
  · subst hp0; exact ⟨s, by simp [execBlock], h, Frame.refl I s, rfl⟩
  · refine ⟨s.emit p, ?_, ?_, frame_emit I p h, rfl⟩
    · have hl := StrConst.C24_literal_evaluates_to_text st.printable hp p []
      rw [List.append_nil] at hl
      simp [flush, if_neg hp0, execBlock_simples, execSimples, execSimple, hl]
    · refine ⟨h.env, h.write, h.lt, ?_, h.filter, h.current, h.initial, h.buffering⟩
      have := h.out
      simp [St.emit, h.write] at this ⊢
      exact this

theorem rel_say {s : St L} {d : D L} (t : Str) (h : Rel [] s d) : Rel [] (s.say t) (d.emit t) := by
  refine ⟨h.env, h.write, h.lt, ?_, h.filter, h.current, h.initial, h.buffering⟩
  have := h.out
  simp [St.say, D.emit] at this ⊢
  rw [this]

theorem frame_say (I : Nat → Prop) (t : Str) (s : St L) : Frame I s (s.say t) := by
  refine ⟨rfl, Nat.le_refl _, fun b _ hb => ?_, fun _ _ _ _ => rfl, rfl⟩
  simp [St.say, hb]

theorem rel_env {p : Str} {s : St L} {d : D L} (h : Rel p s d) (e : L.σ) : Rel p { s with env := e } { d with env := e } :=
  ⟨rfl, h.write, h.lt, h.out, h.filter, h.current, h.initial, h.buffering⟩

theorem frame_env (I : Nat → Prop) (s : St L) (e : L.σ) : Frame I s { s with env := e } :=
  ⟨rfl, Nat.le_refl _, fun _ _ _ => rfl, fun _ _ _ _ => rfl, rfl⟩

theorem lift_eq {α : Type} (s : St L) (f : L.σ → Except L.X α × L.σ) :
    s.lift f = ((f s.env).1, { s with env := (f s.env).2 }) := rfl

theorem execSimples_append (a b : List (Simple L)) (s : St L) : execSimples (a ++ b) s =
    match execSimples a s with
    | (.ok, s) => execSimples b s
    | r => r := by
  induction a generalizing s with
  | nil => rfl
  | cons c a ih =>
    simp only [List.cons_append, execSimples]
    cases h : execSimple c s with
    | mk o s' => cases o <;> simp [ih]

theorem rel_v {p : Str} {s : St L} {d : D L} (h : Rel p s d) (v : Option L.V) : Rel p { s with v := v } d :=
  ⟨h.env, h.write, h.lt, h.out, h.filter, h.current, h.initial, h.buffering⟩

/-- Showing a value. -/
theorem show_sim (I : Nat → Prop) (st : Settings) (e : PE L) (ev : L.σ → Except L.X L.V × L.σ) {s : St L} {d : D L}
    (h : Rel [] s d) (he : evalPE e s = s.lift ev) :
    (∃ s' d', execSimples (filteredLines st e) s = (.ok, s') ∧ showE st ev d = some (.ok, d') ∧ Rel [] s' d' ∧ Frame I s s' ∧
      s'.locals = s.locals) ∨
    (∃ x s' d', execSimples (filteredLines st e) s = (.exc x, s') ∧ showE st ev d = some (.exc (.raised x false), d') ∧ Rel [] s' d' ∧
      Frame I s s') := by
  have henv := h.env
  rw [lift_eq, henv] at he
  have h1 := rel_env h (ev d.env).2
  have f1 := frame_env I s (ev d.env).2
  unfold filteredLines showE
  cases hr : (ev d.env).1 with
  | error x =>
    right
    rw [hr] at he
    refine ⟨x, { s with env := (ev d.env).2 }, { d with env := (ev d.env).2 }, ?_, ?_, h1, f1⟩
    · split <;> simp [execSimples, execSimple, he, withVal]
    · simp [D.lift, hr, bindD]
  | ok v =>
    rw [hr] at he
    by_cases hn : st.alwaysFilterNone = true ∧ L.isNone v = true
    · left
      refine ⟨{ s with env := (ev d.env).2, v := some v }, { d with env := (ev d.env).2 }, ?_, ?_, rel_v h1 _, ?_, rfl⟩
      · simp [hn.1, execSimples, execSimple, he, withVal, hn.2]
      · simp [D.lift, hr, bindD, showV, hn.1, hn.2]
      · exact ⟨rfl, Nat.le_refl _, fun _ _ _ => rfl, fun _ _ _ _ => rfl, rfl⟩
    · have hD : bindD (d.lift ev) (showV st) =
          bindD (if st.useFilters then { d with env := (ev d.env).2 : D L }.lift (L.filter d.filter v)
            else { d with env := (ev d.env).2 : D L }.lift (L.str v)) fun t d => some (.ok, d.emit t) := by
        simp only [D.lift, hr, bindD, showV]
        rw [if_neg (by simpa using hn)]
      rw [hD]
      have hS : ∃ w, execSimples (if st.alwaysFilterNone = true then [Simple.setV e, Simple.writeV st.useFilters]
          else [Simple.writeE st.useFilters e]) s =
          match withVal (filtered st.useFilters v { s with env := (ev d.env).2, v := w }) (fun t s => (.ok, s.emit t)) with
          | (.ok, s) => (.ok, s)
          | r => r := by
        by_cases ha : st.alwaysFilterNone = true
        · have hv : L.isNone v = false := by
            cases hv : L.isNone v
            · rfl
            · exact absurd ⟨ha, hv⟩ hn
          refine ⟨some v, ?_⟩
          rw [if_pos ha]
          simp only [execSimples, execSimple, he, withVal, hv]
          rfl
        · refine ⟨s.v, ?_⟩
          rw [if_neg ha]
          simp only [execSimples, execSimple, he, withVal]
      obtain ⟨w, hS⟩ := hS
      rw [hS]
      generalize hg : (if st.useFilters = true then L.filter d.filter v else L.str v) = g
      have hgD : (if st.useFilters then { d with env := (ev d.env).2 : D L }.lift (L.filter d.filter v)
            else { d with env := (ev d.env).2 : D L }.lift (L.str v)) = { d with env := (ev d.env).2 : D L }.lift g := by
        rw [← hg]; split <;> rfl
      have hgS : filtered st.useFilters v { s with env := (ev d.env).2, v := w } = St.lift { s with env := (ev d.env).2, v := w } g := by
        rw [← hg]; unfold filtered; split <;> simp [h.filter]
      rw [hgD, hgS]
      simp only [lift_eq, D.lift]
      have h2 := rel_v (rel_env h (g (ev d.env).2).2) w
      have f2 : Frame I s { s with env := (g (ev d.env).2).2, v := w } :=
        ⟨rfl, Nat.le_refl _, fun _ _ _ => rfl, fun _ _ _ _ => rfl, rfl⟩
      cases hr2 : (g (ev d.env).2).1 with
      | error x => right; exact ⟨x, _, _, rfl, rfl, h2, f2⟩
      | ok t => left; exact ⟨_, _, rfl, rfl, rel_emit t h2, f2.trans' (frame_emit I t h2), rfl⟩

/-! ### Regions -/

/-- Inside a region `id` that was entered in state `s0`. -/
structure In (k : Kind) (I : Nat → Prop) (id : Nat) (s0 s : St L) : Prop where
  orig : s.locals (.origTrans id) = some (.trans s0.trans)
  coll : s.locals (.collector k id) = some (.trans s.trans)
  le : s0.next ≤ s.trans
  next : s0.next ≤ s.next
  old : ∀ b, b < s0.next → s.bufs b = s0.bufs b
  locals : ∀ x i, x.id = some i → ¬ I i → s.locals x = s0.locals x

/-- The body of a region leaves it intact. -/
theorem In.body {k : Kind} {I J : Nat → Prop} {id : Nat} {s0 s s' : St L} (h : In k I id s0 s) (hf : Frame J s s')
    (hid : ¬ J id) (hJ : ∀ i, J i → I i) : In k I id s0 s' := by
  have hle := h.le
  refine ⟨?_, ?_, ?_, Nat.le_trans h.next hf.next, ?_, ?_⟩
  · rw [hf.locals (.origTrans id) id rfl hid]; exact h.orig
  · rw [hf.locals (.collector k id) id rfl hid, hf.trans]; exact h.coll
  · rw [hf.trans]; exact h.le
  · intro b hb
    rw [hf.bufs b (Nat.lt_of_lt_of_le hb h.next) (by omega)]; exact h.old b hb
  · intro x i hx hi
    rw [hf.locals x i hx (fun hJi => hi (hJ i hJi))]; exact h.locals x i hx hi

/-- After a region, with whatever its own variables then hold. -/
theorem In.restore {k : Kind} {I : Nat → Prop} {id : Nat} {s0 s s3 : St L} {d0 d : D L} (h : In k I id s0 s) (hr0 : Rel [] s0 d0)
    (hr : Rel [] s d) (htr : s3.trans = s0.trans) (hw : s3.write = s0.trans) (hb : s3.bufs = s.bufs)
    (hn : s3.next = s.next) (hf1 : s3.filter = s.filter) (hf2 : s3.current = s.current) (hf3 : s3.initial = s.initial)
    (hbuf : s3.buffering = s0.buffering) (hl : ∀ x i, x.id = some i → ¬ I i → s3.locals x = s.locals x) :
    Rel [] s3 { d with env := s3.env, out := d0.out, buffering := d0.buffering } ∧ Frame I s0 s3 := by
  have hlt := hr0.lt
  have hnx := h.next
  have h0 := hr0.out
  refine ⟨⟨rfl, by rw [hw, htr], by rw [htr, hn]; omega, ?_, by rw [hf1]; exact hr.filter, by rw [hf2]; exact hr.current,
    by rw [hf3]; exact hr.initial, by rw [hbuf]; exact hr0.buffering⟩, htr, by rw [hn]; exact hnx, ?_, ?_, hbuf⟩
  · rw [htr, hb, h.old _ hlt]; exact h0
  · intro b hb1 _; rw [hb]; exact h.old b hb1
  · intro x i hx hi; rw [hl x i hx hi]; exact h.locals x i hx hi

theorem start_region (k : Kind) (I : Nat → Prop) (id : Nat) (hI : I id) {s : St L} {d : D L} (h : Rel [] s d) :
    ∃ s1, execSimples (startRegion k id) s = (.ok, s1) ∧ Rel [] s1 { d with out := [], buffering := true } ∧ In k I id s s1 ∧
      s1.locals (.wasBuffering id) = some (.bool s.buffering) := by
  refine ⟨_, by simp only [startRegion, execSimples, execSimple, St.setLoc, if_true]; rfl, ?_, ?_, ?_⟩
  · refine ⟨h.env, rfl, Nat.lt_succ_self _, ?_, h.filter, h.current, h.initial, rfl⟩
    simp
  · refine ⟨?_, ?_, Nat.le_refl _, Nat.le_succ _, ?_, ?_⟩
    · simp
    · simp
    · intro b hb; simp; intro e; omega
    · intro x i hx hi
      have : i ≠ id := fun e => hi (e ▸ hI)
      cases x <;> simp_all [Loc.id]
  · simp

/-- A region whose body does not end normally. -/
theorem leave_sim {I J : Nat → Prop} {s0 s1 : St L} {q : Str} {a : Option (Out L.X × St L)} {b : Res L}
    {f : St L → Option (Out L.X × St L)} {g : D L → Res L} {q' : Str} (h : Sim J s1 q a b)
    (hok : ∀ s d, Rel q s d → Frame J s1 s → Sim I s0 q' (f s) (g d)) :
    Sim I s0 q' (andThen a f) (bodyThen b g) := by
  rcases h.cases with ⟨d, rfl⟩ | ⟨rfl, rfl⟩ | ⟨x, s, d, rfl, rfl, h2⟩ | ⟨x, s, d, rfl, rfl, h, hf⟩ | ⟨s, d, rfl, rfl, h, hf⟩ |
    ⟨s, d, rfl, rfl, h, hf⟩ | ⟨s, d, rfl, rfl, h, hf⟩ | ⟨s, d, rfl, rfl, h, hf⟩
  · exact Sim.leak _ _
  · trivial
  · exact ⟨rfl, h2⟩
  · exact ⟨rfl, h.env⟩
  · exact hok s d h hf
  all_goals exact Sim.leak _ _

theorem reset_step {k : Kind} {I : Nat → Prop} {id : Nat} (hI : I id) {s0 s : St L} {d0 d : D L} (h : In k I id s0 s) (hr0 : Rel [] s0 d0)
    (hr : Rel [] s d) (hb : s.locals (.wasBuffering id) = some (.bool s0.buffering)) :
    ∃ s3, execSimples (resetCall id) s = (.ok, s3) ∧ Rel [] s3 { d with out := d0.out, buffering := d0.buffering } ∧ Frame I s0 s3 ∧
      s3.bufs = s.bufs ∧ ∀ x, x ≠ .origTrans id → x ≠ .wasBuffering id → s3.locals x = s.locals x := by
  have key := fun s3 => In.restore (s3 := s3) h hr0 hr
  refine ⟨{ s with
      trans := s0.trans, write := s0.trans, buffering := s0.buffering
      locals := fun y => if y = .origTrans id then none else if y = .wasBuffering id then none else s.locals y },
    by simp only [resetCall, execSimples, execSimple, h.orig, hb, reduceCtorEq, if_false], ?_, ?_, rfl, ?_⟩
  · have := (key { s with trans := s0.trans, write := s0.trans, buffering := s0.buffering } rfl rfl rfl rfl rfl rfl rfl rfl
      (fun _ _ _ _ => rfl)).1
    exact ⟨hr.env, this.write, this.lt, this.out, this.filter, this.current, this.initial, this.buffering⟩
  · have := (key { s with trans := s0.trans, write := s0.trans, buffering := s0.buffering } rfl rfl rfl rfl rfl rfl rfl rfl
      (fun _ _ _ _ => rfl)).2
    refine ⟨this.trans, this.next, this.bufs, ?_, this.buffering⟩
    intro x i hx hi
    rw [← this.locals x i hx hi]
    have : i ≠ id := fun e => hi (e ▸ hI)
    cases x <;> simp_all [Loc.id]
  · intro x h1 h2; simp [h1, h2]

theorem arg_step {I : Nat → Prop} {id : Nat} (hI : I id) (name : Str) {s0 s : St L} {d : D L} {kws : Dict Str Str}
    (h : In .call I id s0 s) (hr : Rel [] s d) (hk : s.locals (.callKws id) = some (.kws kws)) :
    ∃ s1, execSimples (endCallArg id name) s = (.ok, s1) ∧ Rel [] s1 { d with out := [] } ∧ In .call I id s0 s1 ∧
      s1.locals (.callKws id) = some (.kws (kws.set name d.out)) ∧ s1.locals (.wasBuffering id) = s.locals (.wasBuffering id) := by
  have hout := hr.out
  have hlt := hr.lt
  have hle := h.le
  have hnx := h.next
  rw [List.append_nil] at hout
  refine ⟨_, by
    simp only [endCallArg, execSimples, execSimple, h.coll, hk, St.setLoc, reduceCtorEq, if_false, if_true]; rfl, ?_, ?_, ?_, ?_⟩
  · refine ⟨hr.env, rfl, Nat.lt_succ_self _, ?_, hr.filter, hr.current, hr.initial, hr.buffering⟩
    simp
  · refine ⟨?_, ?_, hnx, by show s0.next ≤ s.next + 1; omega, ?_, ?_⟩
    · simp [h.orig]
    · simp
    · intro b hb
      have := h.old b hb
      simp only
      rw [if_neg (by omega)]; exact this
    · intro x i hx hi
      have := h.locals x i hx hi
      have : i ≠ id := fun e => hi (e ▸ hI)
      cases x <;> simp_all [Loc.id]
  · simp [hout]
  · simp

theorem andThen_ok {X S : Type} (a : Option (Out X × S)) : andThen a (fun s => some (.ok, s)) = a := by
  match a with
  | none => rfl
  | some (.ok, _) => rfl
  | some (.brk, _) => rfl
  | some (.cont, _) => rfl
  | some (.ret, _) => rfl
  | some (.exc _, _) => rfl

theorem flush_then (st : Settings) (hp : Printable st.printable) (fuel : Nat) {I : Nat → Prop} {p q : Str} {s : St L} {d : D L}
    {B : PBlock L} {R : Res L} (h : Rel p s d)
    (hB : ∀ s', Rel [] s' d → Frame I s s' → s'.locals = s.locals → Sim I s' q (execBlock fuel B s') R) :
    Sim I s q (execBlock fuel (flush st p ++ B) s) R := by
  obtain ⟨s', e, h', f, hl⟩ := flush_sim I st hp fuel h
  rw [execBlock_append, e]
  exact (hB s' h' f hl).from f

theorem suite_sim (st : Settings) (hp : Printable st.printable) (fuel : Nat) {I : Nat → Prop} {q : Str} {s : St L}
    {B : PBlock L} {R : Res L} (h : Sim I s q (execBlock fuel B s) R) :
    Sim I s [] (execBlock fuel (B ++ flush st q) s) R := by
  rw [execBlock_append, ← andThen_ok R]
  refine h.andThen ?_
  intro s' d' h' _
  obtain ⟨s'', e, h'', f'', _⟩ := flush_sim I st hp fuel h'
  rw [e]; exact Sim.ok h'' f''

/-! ### Loops -/

theorem testE_eq (c : L.E) {p : Str} {s : St L} {d : D L} (h : Rel p s d) :
    (∃ b, testE c s = (.ok b, { s with env := (L.eval c d.env).2 }) ∧ testD c d = (.ok b, { d with env := (L.eval c d.env).2 })) ∨
    (∃ x, testE c s = (.error x, { s with env := (L.eval c d.env).2 }) ∧
      testD c d = (.error (.raised x false), { d with env := (L.eval c d.env).2 })) := by
  unfold testE testD
  rw [lift_eq, h.env]
  simp only [D.lift]
  cases (L.eval c d.env).1 with
  | ok v => left; exact ⟨L.truth v, rfl, rfl⟩
  | error x => right; exact ⟨x, rfl, rfl⟩

theorem while_sim {I : Nat → Prop} (c : L.E) {B : St L → Option (Out L.X × St L)} {b : D L → Res L}
    (hB : ∀ s d, Rel [] s d → Sim I s [] (B s) (b d)) : ∀ (n : Nat) (s : St L) (d : D L), Rel [] s d →
    Sim I s [] (whileLoop (testE c) B n s) (whileLoop (testD c) b n d)
  | 0, _, _, _ => trivial
  | n + 1, s, d, h => by
    simp only [whileLoop]
    rcases testE_eq c h with ⟨b', e1, e2⟩ | ⟨x, e1, e2⟩
    · rw [e1, e2]
      have h1 := rel_env h (L.eval c d.env).2
      have f1 := frame_env I s (L.eval c d.env).2
      cases b' with
      | false => exact Sim.ok h1 f1
      | true =>
        refine Sim.from f1 ?_
        simp only
        rcases (hB _ _ h1).cases with ⟨d', e⟩ | ⟨e, e'⟩ | ⟨x, s', d', e, e', h2⟩ | ⟨x, s', d', e, e', h, hf⟩ | ⟨s', d', e, e', h, hf⟩ |
          ⟨s', d', e, e', h, hf⟩ | ⟨s', d', e, e', h, hf⟩ | ⟨s', d', e, e', h, hf⟩
        · rw [e]; exact Sim.leak _ _
        · rw [e, e']; trivial
        · rw [e, e']; exact ⟨rfl, h2⟩
        · rw [e, e']; exact ⟨rfl, h, hf⟩
        · rw [e, e']; exact (while_sim c hB n s' d' h).from hf
        · rw [e, e']; exact ⟨h, hf⟩
        · rw [e, e']; exact (while_sim c hB n s' d' h).from hf
        · rw [e, e']; exact ⟨h, hf⟩
    · rw [e1, e2]; exact Sim.exc x (rel_env h _) (frame_env I s _)

theorem for_sim {I : Nat → Prop} {A : L.V → St L → Except L.X Unit × St L} {a : L.V → D L → Except (Abort L.X) Unit × D L}
    (hA : ∀ v s d, Rel [] s d → (∃ s' d', A v s = (.ok (), s') ∧ a v d = (.ok (), d') ∧ Rel [] s' d' ∧ Frame I s s') ∨
      (∃ x s' d', A v s = (.error x, s') ∧ a v d = (.error (.raised x false), d') ∧ Rel [] s' d' ∧ Frame I s s'))
    {B : St L → Option (Out L.X × St L)} {b : D L → Res L}
    (hB : ∀ s d, Rel [] s d → Sim I s [] (B s) (b d)) : ∀ (vs : List L.V) (s : St L) (d : D L), Rel [] s d →
    Sim I s [] (forLoop A B vs s) (forLoop a b vs d)
  | [], s, d, h => Sim.ok h (Frame.refl I s)
  | v :: vs, s, d, h => by
    simp only [forLoop]
    rcases hA v s d h with ⟨s1, d1, e1, e2, h1, f1⟩ | ⟨x, s1, d1, e1, e2, h1, f1⟩
    · rw [e1, e2]
      refine Sim.from f1 ?_
      simp only
      rcases (hB _ _ h1).cases with ⟨d', e⟩ | ⟨e, e'⟩ | ⟨x, s', d', e, e', h2⟩ | ⟨x, s', d', e, e', h, hf⟩ | ⟨s', d', e, e', h, hf⟩ |
        ⟨s', d', e, e', h, hf⟩ | ⟨s', d', e, e', h, hf⟩ | ⟨s', d', e, e', h, hf⟩
      · rw [e]; exact Sim.leak _ _
      · rw [e, e']; trivial
      · rw [e, e']; exact ⟨rfl, h2⟩
      · rw [e, e']; exact ⟨rfl, h, hf⟩
      · rw [e, e']; exact (for_sim hA hB vs s' d' h).from hf
      · rw [e, e']; exact ⟨h, hf⟩
      · rw [e, e']; exact (for_sim hA hB vs s' d' h).from hf
      · rw [e, e']; exact ⟨h, hf⟩
    · rw [e1, e2]; exact Sim.exc x h1 f1

theorem afterLoop_sim {I : Nat → Prop} {s : St L} {a : Option (Out L.X × St L)} {b : Res L} (h : Sim I s [] a b)
    {f : St L → Option (Out L.X × St L)} {g : D L → Res L} (hfg : ∀ s d, Rel [] s d → Sim I s [] (f s) (g d)) :
    Sim I s [] (afterLoop a f) (afterLoop b g) := by
  rcases h.cases with ⟨d', rfl⟩ | ⟨rfl, rfl⟩ | ⟨x, s', d', rfl, rfl, h2⟩ | ⟨x, s', d', rfl, rfl, h, hf⟩ | ⟨s', d', rfl, rfl, h, hf⟩ |
        ⟨s', d', rfl, rfl, h, hf⟩ | ⟨s', d', rfl, rfl, h, hf⟩ | ⟨s', d', rfl, rfl, h, hf⟩
  · exact Sim.leak _ _
  · trivial
  · exact ⟨rfl, h2⟩
  · exact ⟨rfl, h, hf⟩
  · exact (hfg _ _ h).from hf
  all_goals exact ⟨h, hf⟩

/-- A step that only evaluates something of the author's. -/
theorem lift_sim {I : Nat → Prop} {q : Str} {α : Type} (f : L.σ → Except L.X α × L.σ) {s : St L} {d : D L} (h : Rel [] s d)
    {k : α → St L → Option (Out L.X × St L)} {k' : α → D L → Res L}
    (hk : ∀ a, Sim I { s with env := (f d.env).2 } q (k a { s with env := (f d.env).2 }) (k' a { d with env := (f d.env).2 })) :
    Sim I s q (match s.lift f with
      | (.ok a, s) => k a s
      | (.error x, s) => some (.exc x, s)) (bindD (d.lift f) k') := by
  rw [lift_eq, h.env]
  simp only [D.lift, bindD]
  cases (f d.env).1 with
  | ok a => exact (hk a).from (frame_env I s _)
  | error x => exact Sim.exc x (rel_env h _) (frame_env I s _)

theorem untouched (st : Settings) (fuel : Nat) (x : L.X) : ∀ (t : Tail L) (r : Nat) (s : St L), t.touches x = false →
    execHandler fuel x (compTail st t r).1 s = some (.exc x, s) ∧
    ∀ a, execFinally fuel (compTail st t r).1 a = a
  | .nil, r, s, _ => by simp [compTail, execHandler, execFinally]
  | .cons k b t, r, s, h => by
    have ih := fun h => untouched st fuel x t (comp st b [] r).2.2 s h
    cases k with
    | elif c => simp only [Tail.touches] at h; simpa [compTail, contHdr, execHandler, execFinally] using ih h
    | else_ => simp only [Tail.touches] at h; simpa [compTail, contHdr, execHandler, execFinally] using ih h
    | except_ m =>
      simp only [Tail.touches, Bool.or_eq_false_iff] at h
      simpa [compTail, contHdr, execHandler, execFinally, h.1] using ih h.2
    | finally_ => simp [Tail.touches] at h

theorem execBlock_single (fuel : Nat) (c : PStmt L) (s : St L) : execBlock fuel (.cons c .nil) s = execStmt fuel c s := by
  simp only [execBlock]
  exact andThen_ok _

/-! ### The main simulation -/

/-- Continue after simple statements that are known to end normally. -/
theorem execBlock_simples_then (fuel : Nat) {cs : List (Simple L)} {s s' : St L} (h : execSimples cs s = (.ok, s')) (B : PBlock L) :
    execBlock fuel (simples cs ++ B) s = execBlock fuel B s' := by
  rw [execBlock_append, execBlock_simples, h]; rfl

theorem show_block (I : Nat → Prop) (st : Settings) (fuel : Nat) (e : L.E) {s : St L} {d : D L} (h : Rel [] s d) :
    Sim I s [] (execBlock fuel (simples (filteredLines st (.user e))) s) (showE st (L.eval e) d) := by
  rw [execBlock_simples]
  rcases show_sim I st (.user e) (L.eval e) h rfl with ⟨s', d', e1, e2, h', f', _⟩ | ⟨x, s', d', e1, e2, h', f'⟩
  · rw [e1, e2]; exact Sim.ok h' f'
  · rw [e1, e2]; exact Sim.exc x h' f'

/-- Showing the result of a call, then deleting the variable with the argument. -/
theorem show_del (I : Nat → Prop) (st : Settings) (e : PE L) (ev : L.σ → Except L.X L.V × L.σ) (x : Loc) {i : Nat} (hx : x.id = some i)
    (hi : I i) {s : St L} {d : D L} (h : Rel [] s d) (he : evalPE e s = s.lift ev) (hl : s.locals x ≠ none) :
    Sim I s [] (some (execSimples (filteredLines st e ++ [.del x]) s)) (showE st ev d) := by
  rw [execSimples_append]
  rcases show_sim I st e ev h he with ⟨s', d', e1, e2, h', f', hl'⟩ | ⟨y, s', d', e1, e2, h', f'⟩
  · rw [e1, e2]
    simp only [execSimples, execSimple]
    rw [hl']
    cases hv : s.locals x with
    | none => exact absurd hv hl
    | some v =>
      refine Sim.ok ⟨h'.env, h'.write, h'.lt, h'.out, h'.filter, h'.current, h'.initial, h'.buffering⟩ ⟨f'.trans, f'.next, f'.bufs, ?_, f'.buffering⟩
      intro y j hy hj
      have : y ≠ x := fun e => by subst e; rw [hx] at hy; exact hj (Option.some.inj hy ▸ hi)
      show (if y = x then none else s.locals y) = s.locals y
      rw [if_neg this]
  · rw [e1, e2]; exact Sim.exc y h' f'

mutual
theorem sim (st : Settings) (hp : Printable st.printable) (fuel : Nat) : ∀ (t : T L), t.distinct → ∀ (p : Str) (r : Nat) (s : St L) (d : D L),
    Rel p s d → Sim (· ∈ t.ids) s (comp st t p r).2.1 (execBlock fuel (comp st t p r).1 s) (run st fuel t d)
  | .skip, _, p, r, s, d, h => by
    simp only [comp, execBlock, run]; exact Sim.ok h (Frame.refl _ s)
  | .seq a b, hd, p, r, s, d, h => by
    simp only [T.distinct] at hd
    simp only [comp, execBlock_append, run]
    refine Sim.andThen ((sim st hp fuel a hd.1 p r s d h).mono ?_) ?_
    · intro i hi; simp [T.ids, hi]
    · intro s' d' h' _
      refine (sim st hp fuel b hd.2 _ _ s' d' h').mono ?_
      intro i hi; simp [T.ids, hi]
  | .text t, _, p, r, s, d, h => by
    simp only [comp, execBlock, run]
    refine Sim.ok ⟨h.env, h.write, h.lt, ?_, h.filter, h.current, h.initial, h.buffering⟩ (Frame.refl _ s)
    simp [D.emit, ← h.out]
  | .place e false, _, p, r, s, d, h => by
    simp only [comp, Bool.false_eq_true, if_false, run, Bool.false_and]
    refine flush_then st hp fuel h ?_
    intro s' h' _ _
    have := show_block (· ∈ (T.place e false : T L).ids) st fuel e h'
    revert this
    generalize showE st (L.eval e) d = R
    intro this
    split <;> exact this
  | .place e true, _, p, r, s, d, h => by
    simp only [comp, if_true, run, Bool.true_and]
    refine flush_then st hp fuel h ?_
    intro s' h' _ _
    rw [execBlock_single]
    simp only [execStmt, execBlock_simples]
    rcases show_sim (· ∈ (T.place e true : T L).ids) st (.user e) (L.eval e) h' rfl with ⟨s1, d1, e1, e2, h1, f1, _⟩ | ⟨x, s1, d1, e1, e2, h1, f1⟩
    · rw [e1, e2]
      simp only [execElse, execFinally]
      exact Sim.ok h1 f1
    · rw [e1, e2]
      simp only [execHandler, execFinally]
      split
      · exact Sim.ok h1 f1
      · exact Sim.exc x h1 f1
  | .ternary c a b, _, p, r, s, d, h => by
    simp only [comp, run]
    refine flush_then st hp fuel h ?_
    intro s' h' _ _
    rw [execBlock_single]
    simp only [execStmt]
    rcases testE_eq c h' with ⟨v, e1, e2⟩ | ⟨x, e1, e2⟩
    · rw [e1, e2]
      have h1 := rel_env h' (L.eval c d.env).2
      have f1 := frame_env (· ∈ (T.ternary c a b : T L).ids) s' (L.eval c d.env).2
      cases v
      · simp only [execElse]; exact (show_block _ st fuel b h1).from f1
      · exact (show_block _ st fuel a h1).from f1
    · rw [e1, e2]; exact Sim.exc x (rel_env h' _) (frame_env _ s' _)
  | .note, _, p, r, s, d, h => by
    simp only [comp, run]
    rw [← Compile.PBlock.append_nil (flush st p)]
    refine flush_then st hp fuel h ?_
    intro s' h' _ _
    simp only [execBlock]
    exact Sim.ok h' (Frame.refl _ _)
  | .stmt c, _, p, r, s, d, h => by
    simp only [comp, run]
    refine flush_then st hp fuel h ?_
    intro s' h' _ _
    rw [execBlock_simples]
    have h1 := rel_say (L.says c d.env) h'
    have f1 := frame_say (· ∈ (T.stmt c : T L).ids) (L.says c d.env) s'
    simp only [execSimples, execSimple]
    rw [h'.env]
    generalize hs : s'.say (L.says c d.env) = s1 at h1 f1 ⊢
    generalize d.emit (L.says c d.env) = d1 at h1 ⊢
    rw [lift_eq, h1.env]
    simp only [D.lift, bindD, outOf]
    cases (L.exec c d1.env).1 with
    | ok a => exact Sim.ok (rel_env h1 _) (f1.trans' (frame_env _ s1 _))
    | error x => exact Sim.exc x (rel_env h1 _) (f1.trans' (frame_env _ s1 _))
  | .break_, _, p, r, s, d, h => by
    simp only [comp, run]
    refine flush_then st hp fuel h ?_
    intro s' h' _ _
    rw [execBlock_simples]
    exact ⟨h', Frame.refl _ _⟩
  | .continue_, _, p, r, s, d, h => by
    simp only [comp, run]
    refine flush_then st hp fuel h ?_
    intro s' h' _ _
    rw [execBlock_simples]
    exact ⟨h', Frame.refl _ _⟩
  | .stop, _, p, r, s, d, h => by
    simp only [comp, run]
    refine flush_then st hp fuel h ?_
    intro s' h' _ _
    rw [execBlock_simples]
    exact ⟨h', Frame.refl _ _⟩
  | .compound short o body tail, hd, p, r, s0, d, h0 => by
    simp only [T.distinct] at hd
    simp only [comp, run]
    refine flush_then st hp fuel h0 ?_
    intro s h _ _
    rw [execBlock_single]
    have hB : ∀ s d, Rel [] s d → Sim (· ∈ (T.compound short o body tail).ids) s []
        (execBlock fuel ((comp st body [] (openHdr o r).2).1 ++ flush st (comp st body [] (openHdr o r).2).2.1) s) (run st fuel body d) := by
      intro s d h
      refine (suite_sim st hp fuel (sim st hp fuel body hd.1 [] _ s d h)).mono ?_
      intro i hi; simp [T.ids, hi]
    have hE : ∀ s d, Rel [] s d → Sim (· ∈ (T.compound short o body tail).ids) s []
        (execElse fuel (compTail st tail (comp st body [] (openHdr o r).2).2.2).1 s) (runElse st fuel tail d) := by
      intro s d h
      refine (else_sim st hp fuel tail hd.2 _ s d h).mono ?_
      intro i hi; simp [T.ids, hi]
    cases o with
    | if_ c =>
      simp only [openHdr, execStmt] at hB hE ⊢
      rcases testE_eq c h with ⟨v, e1, e2⟩ | ⟨x, e1, e2⟩
      · rw [e1, e2]
        cases v
        · exact (hE _ _ (rel_env h _)).from (frame_env _ s _)
        · exact (hB _ _ (rel_env h _)).from (frame_env _ s _)
      · rw [e1, e2]; exact Sim.exc x (rel_env h _) (frame_env _ s _)
    | «unless» c =>
      simp only [openHdr, execStmt, testNot] at hB hE ⊢
      rcases testE_eq c h with ⟨v, e1, e2⟩ | ⟨x, e1, e2⟩
      · rw [e1, e2]
        cases v
        · exact (hB _ _ (rel_env h _)).from (frame_env _ s _)
        · exact (hE _ _ (rel_env h _)).from (frame_env _ s _)
      · rw [e1, e2]; exact Sim.exc x (rel_env h _) (frame_env _ s _)
    | while_ c =>
      simp only [openHdr, execStmt] at hB hE ⊢
      exact afterLoop_sim (while_sim c hB fuel s d h) hE
    | for_ x e =>
      simp only [openHdr, execStmt, itemsOf] at hB hE ⊢
      rw [lift_eq, h.env]
      simp only [D.lift, bindD]
      cases hv : (L.eval e d.env).1 with
      | error y => exact Sim.exc y (rel_env h _) (frame_env _ s _)
      | ok v =>
        simp only
        refine Sim.from (frame_env _ s (L.eval e d.env).2) ?_
        cases L.iter v with
        | error y => exact Sim.exc y (rel_env h _) (Frame.refl _ _)
        | ok vs =>
          refine afterLoop_sim (for_sim ?_ hB vs _ _ (rel_env h _)) hE
          intro v s d h
          rw [lift_eq, h.env]
          cases (L.assign x v d.env).1 with
          | ok u => left; exact ⟨_, _, rfl, rfl, rel_env h _, frame_env _ s _⟩
          | error y => right; exact ⟨y, _, _, rfl, rfl, rel_env h _, frame_env _ s _⟩
    | repeat_ e =>
      simp only [openHdr, execStmt, itemsOf] at hB hE ⊢
      rw [lift_eq, h.env]
      simp only [D.lift, bindD]
      cases hv : (L.eval e d.env).1 with
      | error y => exact Sim.exc y (rel_env h _) (frame_env _ s _)
      | ok v =>
        simp only
        refine Sim.from (frame_env _ s (L.eval e d.env).2) ?_
        cases L.range v with
        | error y => exact Sim.exc y (rel_env h _) (Frame.refl _ _)
        | ok vs =>
          refine afterLoop_sim (for_sim ?_ hB vs _ _ (rel_env h _)) hE
          intro v s d h
          left; exact ⟨s, d, rfl, rfl, h, Frame.refl _ _⟩
    | try_ =>
      simp only [openHdr, execStmt] at hB hE ⊢
      have hF : ∀ (a : Option (Out L.X × St L)) (b : Res L), Sim (· ∈ (T.compound short Open.try_ body tail).ids) s [] a b →
          Sim (· ∈ (T.compound short Open.try_ body tail).ids) s []
            (execFinally fuel (compTail st tail (comp st body [] r).2.2).1 a) (runFinally st fuel tail b) := by
        intro a b hab
        exact finally_sim st hp fuel tail hd.2 _ (fun i hi => by simp [T.ids, hi]) s a b hab
      rcases (hB s d h).cases with ⟨d', e⟩ | ⟨e, e'⟩ | ⟨x, s', d', e, e', h2⟩ | ⟨x, s', d', e, e', h, hf⟩ | ⟨s', d', e, e', h, hf⟩ |
          ⟨s', d', e, e', h, hf⟩ | ⟨s', d', e, e', h, hf⟩ | ⟨s', d', e, e', h, hf⟩
      · rw [e]; exact Sim.leak _ _
      · rw [e, e']; trivial
      · rw [e, e']
        by_cases ht : tail.touches x = true
        · simp only [ht, if_true]; exact Sim.leak _ _
        · have ht : tail.touches x = false := by simpa using ht
          obtain ⟨u1, u2⟩ := untouched st fuel x tail (comp st body [] r).2.2 s' ht
          simp only [ht, Bool.false_eq_true, if_false]
          rw [u1, u2]
          exact ⟨rfl, h2⟩
      · rw [e, e']
        refine hF _ _ (Sim.from hf ?_)
        refine (handler_sim st hp fuel x tail hd.2 _ s' d' h).mono ?_
        intro i hi; simp [T.ids, hi]
      · rw [e, e']; exact hF _ _ ((hE s' d' h).from hf)
      · rw [e, e']; exact hF _ _ ⟨h, hf⟩
      · rw [e, e']; exact hF _ _ ⟨h, hf⟩
      · rw [e, e']; exact hF _ _ ⟨h, hf⟩
  | .capture id x body, hd, p, r, s0, d, h0 => by
    simp only [T.distinct] at hd
    simp only [comp, run, PBlock.append_assoc]
    refine flush_then st hp fuel h0 ?_
    intro s h _ _
    have hid : (fun i => i ∈ (T.capture id x body).ids) id := by simp [T.ids]
    obtain ⟨s1, e1, h1, i1, b1⟩ := start_region .capture (· ∈ (T.capture id x body).ids) id hid h
    rw [execBlock_simples_then fuel e1, ← PBlock.append_assoc, execBlock_append]
    refine leave_sim (suite_sim st hp fuel (sim st hp fuel body hd.2 [] r s1 _ h1)) ?_
    intro s2 d2 h2 f2
    have i2 := i1.body f2 hd.1 (fun i hi => by simp [T.ids, hi])
    have b2 : s2.locals (.wasBuffering id) = some (.bool s.buffering) := by
      rw [f2.locals (.wasBuffering id) id rfl hd.1]; exact b1
    have hout := h2.out
    rw [List.append_nil] at hout
    rw [execBlock_simples]
    simp only [endCapture, execSimples, execSimple, i2.orig, b2, i2.coll, hout, lift_eq, h2.env, D.lift, bindD, outOf]
    obtain ⟨k1, k2⟩ := In.restore (s3 := { s2 with trans := s.trans, write := s.trans, buffering := s.buffering, env := (L.assign x (L.ofStr d2.out) d2.env).2 })
        i2 h h2 rfl rfl rfl rfl rfl rfl rfl rfl (fun _ _ _ _ => rfl)
    cases (L.assign x (L.ofStr d2.out) d2.env).1 with
    | error y => exact Sim.exc y k1 k2
    | ok u =>
      simp only [i2.orig, b2, i2.coll, reduceCtorEq, if_false]
      refine Sim.ok ⟨k1.env, k1.write, k1.lt, k1.out, k1.filter, k1.current, k1.initial, k1.buffering⟩
        ⟨k2.trans, k2.next, k2.bufs, ?_, k2.buffering⟩
      intro y i hy hi
      rw [← k2.locals y i hy hi]
      have : i ≠ id := fun e => hi (e ▸ hid)
      cases y <;> simp_all [Loc.id]
  | .call id f body, hd, p, r, s0, d, h0 => by
    simp only [T.distinct] at hd
    simp only [comp, run, PBlock.append_assoc]
    refine flush_then st hp fuel h0 ?_
    intro s h _ _
    have hid : (fun i => i ∈ (T.call id f body).ids) id := by simp [T.ids]
    obtain ⟨s1, e1, h1, i1, b1⟩ := start_region .call (· ∈ (T.call id f body).ids) id hid h
    rw [execBlock_simples_then fuel e1, ← PBlock.append_assoc, execBlock_append]
    refine leave_sim (suite_sim st hp fuel (sim st hp fuel body hd.2 [] r s1 _ h1)) ?_
    intro s2 d2 h2 f2
    have i2 := i1.body f2 hd.1 (fun i hi => by simp [T.ids, hi])
    have b2 : s2.locals (.wasBuffering id) = some (.bool s.buffering) := by
      rw [f2.locals (.wasBuffering id) id rfl hd.1]; exact b1
    have hout := h2.out
    rw [List.append_nil] at hout
    obtain ⟨s3, e3, h3, f3, g3, l3⟩ := reset_step hid i2 h h2 b2
    have c3 : s3.locals (.collector .call id) = some (.trans s2.trans) := by rw [l3 _ (by simp) (by simp)]; exact i2.coll
    have hb3 : s3.bufs s2.trans = d2.out := by rw [g3]; exact hout
    rw [execBlock_simples, endCall, List.append_assoc, List.append_assoc, execSimples_append, e3]
    simp only [List.cons_append, List.nil_append, execSimples, execSimple, c3, St.setLoc, hb3, reduceCtorEq, if_false]
    have f4 : Frame (· ∈ (T.call id f body).ids) s
        { s3 with locals := fun y => if y = .collector .call id then none else if y = .callArgVal id then some (.str d2.out) else s3.locals y } := by
      refine ⟨f3.trans, f3.next, f3.bufs, ?_, f3.buffering⟩
      intro y i hy hi
      rw [← f3.locals y i hy hi]
      have : i ≠ id := fun e => hi (e ▸ hid)
      cases y <;> simp_all [Loc.id]
    refine Sim.from f4 ?_
    refine show_del _ st (.call f id) (L.call f d2.out) (.callArgVal id) rfl hid
      (s := { s3 with locals := fun y => if y = .collector .call id then none else if y = .callArgVal id then some (.str d2.out) else s3.locals y })
      ⟨h3.env, h3.write, h3.lt, h3.out, h3.filter, h3.current, h3.initial, h3.buffering⟩ ?_ ?_
    · simp [evalPE]
    · simp
  | .callKw id f pre name body more, hd, p, r, s0, d, h0 => by
    simp only [T.distinct, List.mem_append, not_or] at hd
    obtain ⟨⟨⟨n1, n2⟩, n3⟩, d1, d2, d3⟩ := hd
    simp only [comp, run, PBlock.append_assoc]
    refine flush_then st hp fuel h0 ?_
    intro s h _ _
    have hid : (fun i => i ∈ (T.callKw id f pre name body more).ids) id := by simp [T.ids]
    obtain ⟨s1, e1, h1, i1, b1⟩ := start_region .call (· ∈ (T.callKw id f pre name body more).ids) id hid h
    rw [execBlock_simples_then fuel e1, ← PBlock.append_assoc (comp st pre [] r).1, execBlock_append]
    have key := suite_sim st hp fuel (sim st hp fuel pre d1 [] r s1 _ h1)
    refine leave_sim key ?_
    intro s2 dd2 h2 f2
    have i2 := i1.body f2 n1 (fun i hi => by simp [T.ids, hi])
    have b2 : s2.locals (.wasBuffering id) = some (.bool s.buffering) := by
      rw [f2.locals (.wasBuffering id) id rfl n1]; exact b1
    have e3 : execSimples [.newKws id, .noteArg id name] s2 = (.ok, s2.setLoc (.callKws id) (.kws [])) := rfl
    rw [execBlock_simples_then fuel e3, execBlock_append]
    have h3 : Rel [] (s2.setLoc (.callKws id) (.kws [])) dd2 := ⟨h2.env, h2.write, h2.lt, h2.out, h2.filter, h2.current, h2.initial, h2.buffering⟩
    have i3 : In .call (· ∈ (T.callKw id f pre name body more).ids) id s (s2.setLoc (.callKws id) (.kws [])) := by
      refine ⟨by simp [St.setLoc, i2.orig], by simp [St.setLoc, i2.coll], i2.le, i2.next, i2.old, ?_⟩
      intro y i hy hi
      rw [← i2.locals y i hy hi]
      have : i ≠ id := fun e => hi (e ▸ hid)
      cases y <;> simp_all [Loc.id, St.setLoc]
    refine leave_sim (sim st hp fuel body d2 [] _ _ _ h3) ?_
    intro s4 dd4 h4 f4
    have i4 := i3.body f4 n2 (fun i hi => by simp [T.ids, hi])
    refine args_sim st hp fuel id f name more d3 n3 hid (fun i hi => by simp [T.ids, hi]) _ _ [] s s4 d dd4 i4 h h4 ?_ ?_
    · rw [f4.locals (.callKws id) id rfl n2]; simp [St.setLoc]
    · rw [f4.locals (.wasBuffering id) id rfl n2]; simp [St.setLoc, b2]
  | .filter id f body, hd, p, r, s0, d, h0 => by
    simp only [T.distinct] at hd
    simp only [comp, run, PBlock.append_assoc]
    refine flush_then st hp fuel h0 ?_
    intro s h _ _
    have hid : (fun i => i ∈ (T.filter id f body).ids) id := by simp [T.ids]
    -- the body and the end, from the state with the new filter
    have key : ∀ s1 d1, Rel [] s1 d1 → Frame (· ∈ (T.filter id f body).ids) s s1 → s1.locals (.origFilter id) = some (.filter s.filter) →
        Sim (· ∈ (T.filter id f body).ids) s []
          (execBlock fuel ((comp st body [] r).1 ++ (flush st (comp st body [] r).2.1 ++ simples [.restoreFilter id])) s1)
          (leaveFilter (run st fuel body d1) d) := by
      intro s1 d1 h1 f1 l1
      rw [← PBlock.append_assoc, execBlock_append]
      refine Sim.from f1 ?_
      have hs := suite_sim st hp fuel (sim st hp fuel body hd.2 [] r s1 d1 h1)
      rcases hs.cases with ⟨d', e⟩ | ⟨e, e'⟩ | ⟨x, s', d', e, e', h2⟩ | ⟨x, s', d', e, e', h2, hf⟩ | ⟨s', d', e, e', h2, hf⟩ |
          ⟨s', d', e, e', h2, hf⟩ | ⟨s', d', e, e', h2, hf⟩ | ⟨s', d', e, e', h2, hf⟩
      · rw [e]; exact Sim.leak _ _
      · rw [e, e']; trivial
      · rw [e, e']; exact ⟨rfl, h2⟩
      · rw [e, e']; exact ⟨rfl, h2.env⟩
      · rw [e, e']
        have l2 : s'.locals (.origFilter id) = some (.filter s.filter) := by rw [hf.locals _ id rfl hd.1]; exact l1
        simp only [andThen, execBlock_simples, execSimples, execSimple, l2, leaveFilter]
        refine Sim.ok ⟨h2.env, h2.write, h2.lt, h2.out, h.filter, h.filter, h2.initial, h2.buffering⟩ ?_
        have hf' := hf.mono (J := (· ∈ (T.filter id f body).ids)) (fun i hi => by simp [T.ids, hi])
        exact ⟨hf'.trans, hf'.next, hf'.bufs, hf'.locals, hf'.buffering⟩
      · rw [e, e']; exact Sim.leak _ _
      · rw [e, e']; exact Sim.leak _ _
      · rw [e, e']; exact ⟨h2, hf.mono (fun i hi => by simp [T.ids, hi])⟩
    have fr : ∀ (e : L.σ) (g g' : L.F), Frame (· ∈ (T.filter id f body).ids) s
        { s.setLoc (.origFilter id) (.filter s.filter) with env := e, filter := g, current := g' } := by
      intro e g g'
      refine ⟨rfl, Nat.le_refl _, fun _ _ _ => rfl, ?_, rfl⟩
      intro y i hy hi
      have : i ≠ id := fun e => hi (e ▸ hid)
      cases y <;> simp_all [Loc.id, St.setLoc]
    rw [execBlock_append, execBlock_simples]
    have named : ∀ n, Sim (· ∈ (T.filter id f body).ids) s []
        (andThen (some (execSimples [.saveFilter id, .setFilter n] s))
          (execBlock fuel ((comp st body [] r).1 ++ (flush st (comp st body [] r).2.1 ++ simples [.restoreFilter id]))))
        (bindD (d.lift (L.getFilter n)) fun g d_1 => leaveFilter (run st fuel body { d_1 with filter := g, current := g }) d) := by
      intro n
      simp only [execSimples, execSimple, lift_eq, withVal, D.lift, bindD]
      have he : (s.setLoc (.origFilter id) (.filter s.filter)).env = d.env := h.env
      rw [he]
      cases hg : (L.getFilter n d.env).1 with
      | error x =>
        refine Sim.exc x ?_ ?_
        · exact ⟨rfl, h.write, h.lt, h.out, h.filter, h.current, h.initial, h.buffering⟩
        · exact fr _ s.filter s.current
      | ok g =>
        refine key _ _ ?_ (fr _ g g) (by simp [St.setLoc])
        exact ⟨rfl, h.write, h.lt, h.out, rfl, rfl, h.initial, h.buffering⟩
    cases f with
    | none =>
      simp only [setFilter, enterFilter, execSimples, execSimple, andThen]
      refine key _ _ ?_ (fr s.env s.initial s.current) (by simp [St.setLoc])
      exact ⟨h.env, h.write, h.lt, h.out, h.initial, h.current, h.initial, h.buffering⟩
    | named n => exact named n
    | klass n => exact named n
  | .cache id timed body, hd, p, r, s0, d0, h0 => by
    simp only [T.distinct] at hd
    simp only [comp, run, PBlock.append_assoc]
    refine flush_then st hp fuel h0 ?_
    intro s h _ _
    have hid : (fun i => i ∈ (T.cache id timed body).ids) id := by simp [T.ids]
    rw [execBlock_append, execBlock_simples]
    simp only [execSimples, execSimple, lift_eq, withVal, D.lift, bindD, h.env]
    cases hc : (L.cacheProbe id d0.env).1 with
    | error x => exact Sim.exc x (rel_env h _) (frame_env _ s _)
    | ok shown =>
      have h1 := rel_env h (L.cacheProbe id d0.env).2
      have fl : ∀ b, Frame (· ∈ (T.cache id timed body).ids) s
          (St.setLoc { s with env := (L.cacheProbe id d0.env).2 } (.recache id) (.bool b)) := by
        intro b
        refine ⟨rfl, Nat.le_refl _, fun _ _ _ => rfl, ?_, rfl⟩
        intro y i hy hi
        have : i ≠ id := fun e => hi (e ▸ hid)
        cases y <;> simp_all [Loc.id, St.setLoc]
      have hl : ∀ b, Rel [] (St.setLoc { s with env := (L.cacheProbe id d0.env).2 } (.recache id) (.bool b))
          { d0 with env := (L.cacheProbe id d0.env).2 } := by
        intro b
        exact ⟨h1.env, h1.write, h1.lt, h1.out, h1.filter, h1.current, h1.initial, h1.buffering⟩
      cases shown with
      | some text =>
        refine Sim.from ((fl false).trans' (frame_emit _ text (hl false))) ?_
        simp only [andThen]
        rw [execBlock_single]
        simp only [execStmt, St.emit, St.setLoc, if_true, execElse]
        exact Sim.ok (rel_emit text (hl false)) (Frame.refl _ _)
      | none =>
        refine Sim.from (fl true) ?_
        simp only [andThen]
        rw [execBlock_single]
        have hr : (St.setLoc { s with env := (L.cacheProbe id d0.env).2 } (.recache id) (.bool true)).locals (.recache id) = some (.bool true) := by
          simp [St.setLoc]
        have hrel := hl true
        revert hrel hr
        generalize St.setLoc { s with env := (L.cacheProbe id d0.env).2 } (.recache id) (.bool true) = sa
        intro hr hrel
        obtain ⟨d, hdd⟩ : ∃ d : D L, d = { d0 with env := (L.cacheProbe id d0.env).2 } := ⟨_, rfl⟩
        rw [← hdd] at hrel
        simp only [execStmt, hr]
        rw [execBlock_append, execBlock_simples]
        simp only [startCacheBody, execSimples_append]
        -- the state in which the body starts
        have start : ∀ e : L.σ, ∃ s1, execSimples [.saveTrans id, .newCollector .cache id, .bindCollector .cache id] sa = (.ok, s1) ∧
            Rel [] { s1 with env := e } { d with env := e, out := [] } ∧ In .cache (· ∈ (T.cache id timed body).ids) id sa { s1 with env := e } ∧
            s1.env = d.env ∧ s1.buffering = sa.buffering := by
          intro e
          refine ⟨{ sa with
              trans := sa.next, write := sa.next, next := sa.next + 1
              bufs := fun b => if b = sa.next then [] else sa.bufs b
              locals := fun y => if y = .collector .cache id then some (.trans sa.next)
                else if y = .origTrans id then some (.trans sa.trans) else sa.locals y },
            by simp only [execSimples, execSimple, St.setLoc, if_true], ?_, ?_, hrel.env, rfl⟩
          · refine ⟨rfl, rfl, Nat.lt_succ_self _, ?_, hrel.filter, hrel.current, hrel.initial, hrel.buffering⟩
            simp
          · refine ⟨?_, ?_, Nat.le_refl _, Nat.le_succ _, ?_, ?_⟩
            · simp
            · simp
            · intro b hb; simp; intro e; omega
            · intro x i hx hi
              have : i ≠ id := fun e => hi (e ▸ hid)
              cases x <;> simp_all [Loc.id]
        -- the body and what follows it
        have rest : ∀ (e : L.σ) (s1 : St L), Rel [] { s1 with env := e } { d with env := e, out := [] } →
            In .cache (· ∈ (T.cache id timed body).ids) id sa { s1 with env := e } → s1.buffering = sa.buffering →
            Sim (· ∈ (T.cache id timed body).ids) sa []
              (execBlock fuel ((comp st body [] r).1 ++ (flush st (comp st body [] r).2.1 ++ simples (endCacheBody id))) { s1 with env := e })
              (inRegion (run st fuel body { d with env := e, out := [] }) { d with env := e } fun text d =>
                bindD (d.lift (L.cacheStore id text)) fun _ d => some (.ok, d.emit text)) := by
          intro e s1 h1 i1 hbuf
          rw [← PBlock.append_assoc, execBlock_append]
          refine leave_sim (suite_sim st hp fuel (sim st hp fuel body hd.2 [] r _ _ h1)) ?_
          intro s2 d2 h2 f2
          have i2 := i1.body f2 hd.1 (fun i hi => by simp [T.ids, hi])
          have hout := h2.out
          rw [List.append_nil] at hout
          have hbuf2 : s2.buffering = sa.buffering := f2.buffering.trans hbuf
          rw [execBlock_simples]
          simp only [endCacheBody, execSimples, execSimple, i2.orig, i2.coll, hout, St.setLoc, if_true, lift_eq, h2.env, D.lift, bindD, outOf]
          obtain ⟨k1, k2⟩ := In.restore (s3 := { s2 with
              trans := sa.trans, write := sa.trans, env := (L.cacheStore id d2.out d2.env).2,
              locals := fun y => if y = Loc.cacheData then some (LVal.str d2.out) else s2.locals y }) i2 hrel h2 rfl rfl rfl rfl rfl rfl rfl hbuf2 (by
                intro y i hy hi
                cases y <;> simp_all [Loc.id])
          cases (L.cacheStore id d2.out d2.env).1 with
          | error y => exact Sim.exc y k1 k2
          | ok u =>
            simp only [i2.orig, i2.coll, St.emit, if_true, reduceCtorEq, if_false]
            have k3 := rel_emit d2.out k1
            have k4 := k2.trans' (frame_emit (· ∈ (T.cache id timed body).ids) d2.out k1)
            refine Sim.ok ⟨k3.env, k3.write, k3.lt, k3.out, k3.filter, k3.current, k3.initial, k3.buffering⟩
              ⟨k4.trans, k4.next, k4.bufs, ?_, k4.buffering⟩
            intro y i hy hi
            rw [← k4.locals y i hy hi]
            have : i ≠ id := fun e => hi (e ▸ hid)
            cases y <;> simp_all [Loc.id, St.emit]
        cases timed with
        | false =>
          obtain ⟨s1, e1, h1, i1, en, hb⟩ := start d.env
          have := rest d.env s1 h1 i1 hb
          have hs : { s1 with env := d.env } = s1 := by rw [← en]
          rw [hs] at this
          rw [e1]
          subst hdd
          exact this
        | true =>
          obtain ⟨s1, e1, h1, i1, en, hb⟩ := start (L.cacheExpiry id d.env).2
          rw [e1]
          subst hdd
          simp only [if_true, execSimples, execSimple, lift_eq, en, outOf]
          cases (L.cacheExpiry id (L.cacheProbe id d0.env).2).1 with
          | error x => exact ⟨rfl, rfl⟩
          | ok u => exact rest _ s1 h1 i1 hb
theorem else_sim (st : Settings) (hp : Printable st.printable) (fuel : Nat) : ∀ (t : Tail L), t.distinct → ∀ (r : Nat) (s : St L) (d : D L),
    Rel [] s d → Sim (· ∈ t.ids) s [] (execElse fuel (compTail st t r).1 s) (runElse st fuel t d)
  | .nil, _, r, s, d, h => by
    simp only [compTail, execElse, runElse]; exact Sim.ok h (Frame.refl _ s)
  | .cons k b t, hd, r, s, d, h => by
    simp only [Tail.distinct] at hd
    have hB : ∀ s d, Rel [] s d → Sim (· ∈ (Tail.cons k b t).ids) s []
        (execBlock fuel ((comp st b [] r).1 ++ flush st (comp st b [] r).2.1) s) (run st fuel b d) := by
      intro s d h
      refine (suite_sim st hp fuel (sim st hp fuel b hd.1 [] _ s d h)).mono ?_
      intro i hi; simp [Tail.ids, hi]
    have hE : ∀ s d, Rel [] s d → Sim (· ∈ (Tail.cons k b t).ids) s []
        (execElse fuel (compTail st t (comp st b [] r).2.2).1 s) (runElse st fuel t d) := by
      intro s d h
      refine (else_sim st hp fuel t hd.2 _ s d h).mono ?_
      intro i hi; simp [Tail.ids, hi]
    cases k with
    | elif c =>
      simp only [compTail, contHdr, execElse, runElse]
      rcases testE_eq c h with ⟨v, e1, e2⟩ | ⟨x, e1, e2⟩
      · rw [e1, e2]
        cases v
        · exact (hE _ _ (rel_env h _)).from (frame_env _ s _)
        · exact (hB _ _ (rel_env h _)).from (frame_env _ s _)
      · rw [e1, e2]; exact Sim.exc x (rel_env h _) (frame_env _ s _)
    | else_ => simp only [compTail, contHdr, execElse, runElse]; exact hB s d h
    | except_ m => simp only [compTail, contHdr, execElse, runElse]; exact hE s d h
    | finally_ => simp only [compTail, contHdr, execElse, runElse]; exact hE s d h
theorem handler_sim (st : Settings) (hp : Printable st.printable) (fuel : Nat) (x : L.X) : ∀ (t : Tail L), t.distinct →
    ∀ (r : Nat) (s : St L) (d : D L),
    Rel [] s d → Sim (· ∈ t.ids) s [] (execHandler fuel x (compTail st t r).1 s) (runHandler st fuel x t d)
  | .nil, _, r, s, d, h => by
    simp only [compTail, execHandler, runHandler]; exact Sim.exc x h (Frame.refl _ s)
  | .cons k b t, hd, r, s, d, h => by
    simp only [Tail.distinct] at hd
    have hB : ∀ s d, Rel [] s d → Sim (· ∈ (Tail.cons k b t).ids) s []
        (execBlock fuel ((comp st b [] r).1 ++ flush st (comp st b [] r).2.1) s) (run st fuel b d) := by
      intro s d h
      refine (suite_sim st hp fuel (sim st hp fuel b hd.1 [] _ s d h)).mono ?_
      intro i hi; simp [Tail.ids, hi]
    have hE : ∀ s d, Rel [] s d → Sim (· ∈ (Tail.cons k b t).ids) s []
        (execHandler fuel x (compTail st t (comp st b [] r).2.2).1 s) (runHandler st fuel x t d) := by
      intro s d h
      refine (handler_sim st hp fuel x t hd.2 _ s d h).mono ?_
      intro i hi; simp [Tail.ids, hi]
    cases k with
    | elif c => simp only [compTail, contHdr, execHandler, runHandler]; exact hE s d h
    | else_ => simp only [compTail, contHdr, execHandler, runHandler]; exact hE s d h
    | except_ m =>
      simp only [compTail, contHdr, execHandler, runHandler]
      split
      · exact hB s d h
      · exact hE s d h
    | finally_ => simp only [compTail, contHdr, execHandler, runHandler]; exact hE s d h
theorem finally_sim (st : Settings) (hp : Printable st.printable) (fuel : Nat) : ∀ (t : Tail L), t.distinct →
    ∀ (r : Nat) {I : Nat → Prop}, (∀ i, i ∈ t.ids → I i) → ∀ (s0 : St L) (a : Option (Out L.X × St L)) (b : Res L),
    Sim I s0 [] a b → Sim I s0 [] (execFinally fuel (compTail st t r).1 a) (runFinally st fuel t b)
  | .nil, _, r, I, hI, s0, a, b, h => by
    simp only [compTail, execFinally, runFinally]; exact h
  | .cons k bd t, hd, r, I, hI, s0, a, b, h => by
    simp only [Tail.distinct] at hd
    have hB : ∀ s d, Rel [] s d → Sim I s []
        (execBlock fuel ((comp st bd [] r).1 ++ flush st (comp st bd [] r).2.1) s) (run st fuel bd d) := by
      intro s d h
      refine (suite_sim st hp fuel (sim st hp fuel bd hd.1 [] _ s d h)).mono ?_
      intro i hi; exact hI i (by simp [Tail.ids, hi])
    have hE := finally_sim st hp fuel t hd.2 (comp st bd [] r).2.2 (I := I) (fun i hi => hI i (by simp [Tail.ids, hi])) s0 a b h
    cases k with
    | elif c => simp only [compTail, contHdr, execFinally, runFinally]; exact hE
    | else_ => simp only [compTail, contHdr, execFinally, runFinally]; exact hE
    | except_ m => simp only [compTail, contHdr, execFinally, runFinally]; exact hE
    | finally_ =>
      simp only [compTail, contHdr, execFinally, runFinally]
      -- the `finally` part runs and, if it ends normally, the old outcome stands
      have after : ∀ (o : Out L.X) (o' : Out (Abort L.X)) (s : St L) (d : D L), Rel [] s d → Frame I s0 s →
          (∀ s d, Rel [] s d → Frame I s0 s → Sim I s0 [] (some (o, s)) (some (o', d))) →
          Sim I s0 [] (match execBlock fuel ((comp st bd [] r).1 ++ flush st (comp st bd [] r).2.1) s with
            | some (.ok, s) => some (o, s)
            | r' => r') (match run st fuel bd d with
            | some (.ok, d) => some (o', d)
            | r' => r') := by
        intro o o' s d h1 f1 ho
        rcases ((hB s d h1).from f1).cases with ⟨d', e⟩ | ⟨e, e'⟩ | ⟨x, s', d', e, e', h2⟩ | ⟨x, s', d', e, e', h, hf⟩ | ⟨s', d', e, e', h, hf⟩ |
          ⟨s', d', e, e', h, hf⟩ | ⟨s', d', e, e', h, hf⟩ | ⟨s', d', e, e', h, hf⟩
        · rw [e]; exact Sim.leak _ _
        · rw [e, e']; trivial
        · rw [e, e']; exact ⟨rfl, h2⟩
        · rw [e, e']; exact ⟨rfl, h, hf⟩
        · rw [e, e']; exact ho s' d' h hf
        all_goals rw [e, e']; exact ⟨h, hf⟩
      rcases h.cases with ⟨d', rfl⟩ | ⟨rfl, rfl⟩ | ⟨x, s', d', rfl, rfl, h2⟩ | ⟨x, s', d', rfl, rfl, h, hf⟩ | ⟨s', d', rfl, rfl, h, hf⟩ |
          ⟨s', d', rfl, rfl, h, hf⟩ | ⟨s', d', rfl, rfl, h, hf⟩ | ⟨s', d', rfl, rfl, h, hf⟩
      · exact Sim.leak _ _
      · trivial
      · exact Sim.leak _ _
      · exact after (.exc x) (.exc (.raised x false)) s' d' h hf (fun _ _ h f => ⟨rfl, h, f⟩)
      · exact after .ok .ok s' d' h hf (fun _ _ h f => ⟨h, f⟩)
      · exact after .brk .brk s' d' h hf (fun _ _ h f => ⟨h, f⟩)
      · exact after .cont .cont s' d' h hf (fun _ _ h f => ⟨h, f⟩)
      · exact after .ret .ret s' d' h hf (fun _ _ h f => ⟨h, f⟩)
theorem args_sim (st : Settings) (hp : Printable st.printable) (fuel : Nat) (id : Nat) (f : L.Fn) (name : Str) : ∀ (as : Args L), as.distinct →
    id ∉ as.ids → ∀ {I : Nat → Prop}, I id → (∀ i, i ∈ as.ids → I i) → ∀ (p : Str) (r : Nat) (kws : Dict Str Str) (s0 s : St L) (d0 d : D L),
    In .call I id s0 s → Rel [] s0 d0 → Rel p s d → s.locals (.callKws id) = some (.kws kws) →
    s.locals (.wasBuffering id) = some (.bool s0.buffering) →
    Sim I s0 [] (execBlock fuel (compArgs st id f name as p r).1 s) (runArgs st fuel f name as kws d0 d)
  | .nil, _, _, I, hI, _, p, r, kws, s0, s, d0, d, hin, hr0, hr, hk, hb => by
    simp only [compArgs, runArgs]
    obtain ⟨s1, e1, h1, f1, l1⟩ := flush_sim (fun _ => False) st hp fuel hr
    rw [execBlock_append, e1]
    simp only [andThen]
    have i1 := hin.body f1 (fun h => h) (fun _ h => h.elim)
    obtain ⟨s2, e2, h2, i2, k2, b2⟩ := arg_step hI name i1 h1 (by rw [l1]; exact hk)
    obtain ⟨s3, e3, h3, f3, g3, l3⟩ := reset_step hI i2 hr0 h2 (by rw [b2, l1]; exact hb)
    rw [execBlock_simples, endCallKw, List.append_assoc, List.append_assoc, execSimples_append, e2]
    simp only
    rw [execSimples_append, e3]
    simp only
    have k3 : s3.locals (.callKws id) = some (.kws (kws.set name d.out)) := by rw [l3 _ (by simp) (by simp)]; exact k2
    refine Sim.from f3 ?_
    refine show_del I st (.callKw f id) (L.callKw f (kws.set name d.out)) (.callKws id) rfl hI h3 ?_ (by simp [k3])
    simp [evalPE, k3]
  | .cons name' body more, hd, hn, I, hI, hIs, p, r, kws, s0, s, d0, d, hin, hr0, hr, hk, hb => by
    simp only [Args.distinct] at hd
    simp only [Args.ids, List.mem_append, not_or] at hn
    simp only [compArgs, runArgs, PBlock.append_assoc]
    obtain ⟨s1, e1, h1, f1, l1⟩ := flush_sim (fun _ => False) st hp fuel hr
    rw [execBlock_append, e1]
    simp only [andThen]
    have i1 := hin.body f1 (fun h => h) (fun _ h => h.elim)
    obtain ⟨s2, e2, h2, i2, k2, b2⟩ := arg_step hI name i1 h1 (by rw [l1]; exact hk)
    rw [execBlock_simples_then fuel e2, execBlock_append]
    refine leave_sim (sim st hp fuel body hd.1 [] r s2 _ h2) ?_
    intro s3 d3 h3 f3
    have i3 := i2.body f3 hn.1 (fun i hi => hIs i (by simp [Args.ids, hi]))
    refine args_sim st hp fuel id f name' more hd.2 hn.2 hI (fun i hi => hIs i (by simp [Args.ids, hi])) _ _ _ s0 s3 d0 d3 i3 hr0 h3 ?_ ?_
    · rw [f3.locals _ id rfl hn.1]; exact k2
    · rw [f3.locals _ id rfl hn.1, b2, l1]; exact hb
end

end Cheetah.Compile
