import Verif.PyExec
/-
The blocks of Python code that the generated lines amount to.  This file holds no model
of code in /repo: it is the bridge between the line generator (Verif/Compile.lean) and
the running of blocks (Verif/PyExec.lean), used in the proofs of C25-C29.
-/
namespace Cheetah.Compile
variable {L : Lang}

/-- Proof device; what Compiler.py 443-1183 amounts to as blocks. Models no code in /repo. -/
def PBlock.append : PBlock L → PBlock L → PBlock L
  | .nil, b => b
  | .cons s a, b => .cons s (a.append b)

instance : Append (PBlock L) := ⟨PBlock.append⟩

@[simp] theorem PBlock.nil_append (b : PBlock L) : PBlock.nil ++ b = b := rfl
@[simp] theorem PBlock.cons_append (s : PStmt L) (a b : PBlock L) : PBlock.cons s a ++ b = .cons s (a ++ b) := rfl
@[simp] theorem PBlock.append_nil (a : PBlock L) : a ++ PBlock.nil = a := by
  induction a using PBlock.rec (motive_1 := fun _ => True) (motive_3 := fun _ => True) with
  | nil => rfl
  | cons s a _ ih => simp [ih]
  | _ => trivial
theorem PBlock.append_assoc (a b c : PBlock L) : a ++ b ++ c = a ++ (b ++ c) := by
  induction a using PBlock.rec (motive_1 := fun _ => True) (motive_3 := fun _ => True) with
  | nil => rfl
  | cons s a _ ih => simp [ih]
  | _ => trivial

/-- A block of simple statements.
Proof device; what Compiler.py 443-1183 amounts to as blocks. Models no code in /repo. -/
def simples : List (Simple L) → PBlock L
  | [] => .nil
  | s :: ss => .cons (.simple s) (simples ss)

theorem simples_append (a b : List (Simple L)) : simples (a ++ b) = simples a ++ simples b := by
  induction a with
  | nil => rfl
  | cons s a ih => simp [simples, ih]

mutual
/-- The lines of a block at level `lv`.
Proof device; what Compiler.py 443-1183 amounts to as blocks. Models no code in /repo. -/
def renderStmt (lv : Nat) : PStmt L → List (Nat × Line L)
  | .simple s => [(lv, .simple s)]
  | .compound h b t => (lv, .opens h) :: (render (lv + 1) b ++ renderTail lv t)
/-- Proof device; what Compiler.py 443-1183 amounts to as blocks. Models no code in /repo. -/
def render (lv : Nat) : PBlock L → List (Nat × Line L)
  | .nil => []
  | .cons s b => renderStmt lv s ++ render lv b
/-- Proof device; what Compiler.py 443-1183 amounts to as blocks. Models no code in /repo. -/
def renderTail (lv : Nat) : PTail L → List (Nat × Line L)
  | .nil => []
  | .cons h b t => (lv, .conts h) :: (render (lv + 1) b ++ renderTail lv t)
  | .notFound t => (lv, .exceptNotFound) :: renderTail lv t
end

theorem render_append (lv : Nat) (a b : PBlock L) : render lv (a ++ b) = render lv a ++ render lv b := by
  induction a using PBlock.rec (motive_1 := fun _ => True) (motive_3 := fun _ => True) with
  | nil => simp [render]
  | cons s a _ ih => simp [render, ih]
  | _ => trivial

theorem render_simples (lv : Nat) (ss : List (Simple L)) :
    render lv (simples ss) = ss.map fun s => (lv, .simple s) := by
  induction ss with
  | nil => simp [simples, render]
  | cons s ss ih => simp [simples, render, renderStmt, ih]

/-- The statement that writes the pending text.
Proof device; what Compiler.py 443-1183 amounts to as blocks. Models no code in /repo. -/
def flush (st : Settings) (p : Str) : PBlock L :=
  if p = [] then .nil else simples [.writeLit (StrConst.literal st.printable p)]

mutual
/-- The block for a template body when the text `p` is pending and `r` `#repeat`s have been
seen; also the text then pending, and the number of `#repeat`s.
Proof device; what Compiler.py 443-1183 amounts to as blocks. Models no code in /repo. -/
def comp (st : Settings) : T L → Str → Nat → PBlock L × Str × Nat
  | .skip, p, r => (.nil, p, r)
  | .seq a b, p, r =>
    let x := comp st a p r
    let y := comp st b x.2.1 x.2.2
    (x.1 ++ y.1, y.2)
  | .text s, p, r => (.nil, p ++ s, r)
  | .place e silent, p, r =>
    let ls := simples (filteredLines st (.user e))
    if silent then (flush st p ++ .cons (.compound .try_ ls (.notFound .nil)) .nil, [], r)
    else (flush st p ++ ls, [], r)
  | .ternary c a b, p, r =>
    (flush st p ++ .cons (.compound (.if_ c) (simples (filteredLines st (.user a)))
      (.cons .else_ (simples (filteredLines st (.user b))) .nil)) .nil, [], r)
  | .stmt s, p, r => (flush st p ++ simples [.user s], [], r)
  | .note, p, r => (flush st p, [], r)
  | .break_, p, r => (flush st p ++ simples [.break_], [], r)
  | .continue_, p, r => (flush st p ++ simples [.continue_], [], r)
  | .stop, p, r => (flush st p ++ simples [.ret], [], r)
  | .compound _ o body tail, p, r =>
    let x := comp st body [] (openHdr o r).2
    let y := compTail st tail x.2.2
    (flush st p ++ .cons (.compound (openHdr o r).1 (x.1 ++ flush st x.2.1) y.1) .nil, [], y.2)
  | .capture id t body, p, r =>
    let x := comp st body [] r
    (flush st p ++ simples (startRegion .capture id) ++ x.1 ++ flush st x.2.1 ++ simples (endCapture t id), [], x.2.2)
  | .call id f body, p, r =>
    let x := comp st body [] r
    (flush st p ++ simples (startRegion .call id) ++ x.1 ++ flush st x.2.1 ++ simples (endCall st f id), [], x.2.2)
  | .callKw id f pre name body more, p, r =>
    let x := comp st pre [] r
    let y := comp st body [] x.2.2
    let z := compArgs st id f name more y.2.1 y.2.2
    (flush st p ++ simples (startRegion .call id) ++ x.1 ++ flush st x.2.1 ++ simples [.newKws id, .noteArg id name] ++ y.1 ++ z.1,
      [], z.2)
  | .filter id f body, p, r =>
    let x := comp st body [] r
    (flush st p ++ simples (setFilter f id) ++ x.1 ++ flush st x.2.1 ++ simples [.restoreFilter id], [], x.2.2)
  | .cache id timed body, p, r =>
    let x := comp st body [] r
    (flush st p ++ simples [.cacheProbe id] ++ .cons (.compound (.ifRecache id)
      (simples (startCacheBody timed id) ++ x.1 ++ flush st x.2.1 ++ simples (endCacheBody id)) .nil) .nil, [], x.2.2)
/-- Proof device; what Compiler.py 443-1183 amounts to as blocks. Models no code in /repo. -/
def compTail (st : Settings) : Tail L → Nat → PTail L × Nat
  | .nil, r => (.nil, r)
  | .cons k body tail, r =>
    let x := comp st body [] r
    let y := compTail st tail x.2.2
    (.cons (contHdr k) (x.1 ++ flush st x.2.1) y.1, y.2)
/-- Proof device; what Compiler.py 443-1183 amounts to as blocks. Models no code in /repo. -/
def compArgs (st : Settings) (id : Nat) (f : L.Fn) (name : Str) : Args L → Str → Nat → PBlock L × Nat
  | .nil, p, r => (flush st p ++ simples (endCallKw st f id name), r)
  | .cons name' body more, p, r =>
    let x := comp st body [] r
    let y := compArgs st id f name' more x.2.1 x.2.2
    (flush st p ++ simples (endCallArg id name) ++ x.1 ++ y.1, y.2)
end

/-! ### `gen` produces those blocks -/

/-- `m'` is `m` with the block `B` added, `q` pending and `r` repeats.
Proof device; what Compiler.py 443-1183 amounts to as blocks. Models no code in /repo. -/
structure Eff (m m' : MC L) (B : PBlock L) (q : Str) (r : Nat) : Prop where
  chunks : m'.chunks = m.chunks ++ render m.lev B
  lev : m'.lev = m.lev
  pending : m'.pending.flatten = q
  repeats : m'.repeats = r

theorem Eff.trans {m m' m'' : MC L} {B B' q q' r r'} (h : Eff m m' B q r) (h' : Eff m' m'' B' q' r') :
    Eff m m'' (B ++ B') q' r' :=
  ⟨by rw [h'.chunks, h.chunks, h.lev, render_append, List.append_assoc], by rw [h'.lev, h.lev], h'.pending, h'.repeats⟩

@[simp] theorem flush_nil (st : Settings) : flush st [] = (.nil : PBlock L) := by simp [flush]

theorem eff_commit (st : Settings) (m : MC L) :
    Eff m (commitStrConst st m) (flush st m.pending.flatten) [] m.repeats := by
  unfold commitStrConst
  by_cases h : m.pending = []
  · rw [if_pos h]; exact ⟨by simp [h, flush, render], rfl, by simp [h], rfl⟩
  · rw [if_neg h]
    by_cases h2 : m.pending.flatten = []
    · simp only [if_pos h2]; exact ⟨by simp [h2, flush, render], rfl, rfl, rfl⟩
    · simp only [if_neg h2]; exact ⟨by rw [flush, if_neg h2, render_simples]; rfl, rfl, rfl, rfl⟩

theorem eff_addSimple (st : Settings) (s : Simple L) (m : MC L) :
    Eff m (addSimple st s m) (flush st m.pending.flatten ++ simples [s]) [] m.repeats := by
  have h := eff_commit st m
  refine ⟨?_, h.lev, h.pending, h.repeats⟩
  simp [addSimple, addChunk, h.chunks, h.lev, render_append, render_simples]

theorem eff_addSimples (st : Settings) : ∀ (ss : List (Simple L)) (m : MC L), ss ≠ [] →
    Eff m (addSimples st ss m) (flush st m.pending.flatten ++ simples ss) [] m.repeats
  | [s], m, _ => eff_addSimple st s m
  | s :: s' :: ss, m, _ => by
    have h1 := eff_addSimple st s m
    have h2 := eff_addSimples st (s' :: ss) (addSimple st s m) (by simp)
    have h := h1.trans h2
    rw [h1.pending, h1.repeats] at h
    simpa [simples, PBlock.append_assoc, addSimples] using h

theorem eff_addSimples_fresh (st : Settings) (ss : List (Simple L)) (m : MC L) (hp : m.pending.flatten = []) (hs : ss ≠ []) :
    Eff m (addSimples st ss m) (simples ss) [] m.repeats := by
  have := eff_addSimples st ss m hs
  rw [hp] at this; simpa using this

theorem addChunk_eq (st : Settings) (l : Line L) (m : MC L) :
    (addChunk st l m).chunks = m.chunks ++ render m.lev (flush st m.pending.flatten) ++ [(m.lev, l)] ∧
    (addChunk st l m).lev = m.lev ∧ (addChunk st l m).pending.flatten = [] ∧ (addChunk st l m).repeats = m.repeats := by
  have h := eff_commit st m
  exact ⟨by simp [addChunk, h.chunks, h.lev], h.lev, h.pending, h.repeats⟩

theorem indent_eq (st : Settings) (l : Line L) (m : MC L) : ∃ m1, indent (addChunk st l m) = m1 ∧
    m1.chunks = m.chunks ++ render m.lev (flush st m.pending.flatten) ++ [(m.lev, l)] ∧
    m1.lev = m.lev + 1 ∧ m1.pending.flatten = [] ∧ m1.repeats = m.repeats := by
  obtain ⟨c1, l1, p1, r1⟩ := addChunk_eq st l m
  exact ⟨_, rfl, c1, congrArg (· + 1) l1, p1, r1⟩

theorem dedent_succ (m : MC L) {n : Nat} (h : m.lev = n + 1) : dedent m = some { m with lev := n } := by
  simp [dedent, h]

theorem filteredLines_ne (st : Settings) (e : PE L) : filteredLines st e ≠ [] := by
  unfold filteredLines; split <;> simp

theorem setFilter_ne (f : FilterArg L) (id : Nat) : setFilter f id ≠ [] := by
  cases f <;> simp [setFilter]

theorem render_compound (lv : Nat) (h : OpenHdr L) (b : PBlock L) (t : PTail L) :
    render lv (.cons (.compound h b t) .nil) = (lv, .opens h) :: (render (lv + 1) b ++ renderTail lv t) := by
  simp [render, renderStmt]

mutual
theorem gen_spec (st : Settings) : ∀ (t : T L) (m : MC L), ∃ m', gen st t m = some m' ∧
    Eff m m' (comp st t m.pending.flatten m.repeats).1 (comp st t m.pending.flatten m.repeats).2.1
      (comp st t m.pending.flatten m.repeats).2.2
  | .skip, m => ⟨m, rfl, by simp [comp, render], rfl, rfl, rfl⟩
  | .seq a b, m => by
    obtain ⟨m1, e1, h1⟩ := gen_spec st a m
    obtain ⟨m2, e2, h2⟩ := gen_spec st b m1
    refine ⟨m2, by simp [gen, e1, e2], ?_⟩
    rw [h1.pending, h1.repeats] at h2
    simpa only [comp] using h1.trans h2
  | .text s, m => ⟨_, rfl, by simp [comp, render, addStrConst], rfl, by simp [comp, addStrConst], rfl⟩
  | .stmt s, m => ⟨_, rfl, eff_addSimple st _ m⟩
  | .note, m => ⟨_, rfl, eff_commit st m⟩
  | .break_, m => ⟨_, rfl, eff_addSimple st _ m⟩
  | .continue_, m => ⟨_, rfl, eff_addSimple st _ m⟩
  | .stop, m => ⟨_, rfl, eff_addSimple st _ m⟩
  | .place e false, m => ⟨_, rfl, eff_addSimples st _ m (filteredLines_ne _ _)⟩
  | .place e true, m => by
    obtain ⟨m1, e1, c1, l1, p1, r1⟩ := indent_eq st (.opens .try_) m
    have h2 := eff_addSimples_fresh st (filteredLines st (.user e)) m1 p1 (filteredLines_ne _ _)
    have e3 := dedent_succ _ (h2.lev.trans l1)
    refine ⟨_, by simp only [gen, addPlaceholder, if_true, e1, e3, Option.map_some]; rfl, ?_⟩
    generalize addSimples st (filteredLines st (.user e)) m1 = m2 at *
    obtain ⟨c4, l4, p4, r4⟩ := addChunk_eq st (Line.exceptNotFound (L := L)) { m2 with lev := m.lev }
    refine ⟨?_, l4, p4, ?_⟩
    · rw [c4]
      simp [h2.pending, render, comp, h2.chunks, c1, l1, render_append, renderStmt, renderTail]
    · rw [r4]; simp [h2.repeats, r1, comp]
  | .ternary c a b, m => by
    obtain ⟨m1, e1, c1, l1, p1, r1⟩ := indent_eq st (.opens (.if_ c)) m
    have h2 := eff_addSimples_fresh st (filteredLines st (.user a)) m1 p1 (filteredLines_ne _ _)
    have e3 := dedent_succ _ (h2.lev.trans l1)
    simp only [gen, addTernaryExpr, addIndentingDirective, e1, e3, Option.bind_eq_bind, Option.bind_some]
    generalize addSimples st (filteredLines st (.user a)) m1 = m2 at *
    obtain ⟨m4, e4, c4, l4, p4, r4⟩ := indent_eq st (.conts .else_) { m2 with lev := m.lev }
    have h5 := eff_addSimples_fresh st (filteredLines st (.user b)) m4 p4 (filteredLines_ne _ _)
    have e6 := dedent_succ _ (h5.lev.trans l4)
    rw [e4, e6]
    refine ⟨_, rfl, ?_⟩
    refine ⟨?_, rfl, h5.pending, ?_⟩
    · simp [h5.chunks, c4, l4, h2.pending, render, comp, h2.chunks, c1, l1, render_append, renderStmt, renderTail]
    · simp [h5.repeats, r4, h2.repeats, r1, comp]
  | .compound short o body tail, m => by
    obtain ⟨c1, l1, p1, r1⟩ := addChunk_eq st (.opens (openHdr o m.repeats).1) { m with repeats := (openHdr o m.repeats).2 }
    generalize hm1 : addChunk st (.opens (openHdr o m.repeats).1) { m with repeats := (openHdr o m.repeats).2 } = m1 at *
    obtain ⟨m2, e2, h2⟩ := gen_spec st body (indent m1)
    have p1' : (indent m1).pending.flatten = [] := p1
    have r1' : (indent m1).repeats = (openHdr o m.repeats).2 := r1
    have l1' : (indent m1).lev = m.lev + 1 := congrArg (· + 1) l1
    have c1' : (indent m1).chunks = m.chunks ++ render m.lev (flush st m.pending.flatten) ++ [(m.lev, .opens (openHdr o m.repeats).1)] := c1
    rw [p1', r1'] at h2
    cases short with
    | true =>
      have h3 := eff_commit st m2
      have e3 := dedent_succ _ (h3.lev.trans (h2.lev.trans l1'))
      obtain ⟨m4, e4, c4, l4, p4, r4⟩ := genShort_spec st tail { commitStrConst st m2 with lev := m.lev } h3.pending
      refine ⟨m4, ?_, ?_⟩
      · simp only [gen, addIndentingDirective, hm1, e2, Option.bind_some, if_true, e3, e4]
      · refine ⟨?_, l4, p4, ?_⟩
        · simp [c4, h3.chunks, h2.chunks, c1', h2.lev, l1', h2.pending, h3.repeats, h2.repeats, comp, render_append, render_compound]
        · simp [r4, h3.repeats, h2.repeats, comp]
    | false =>
      obtain ⟨m3, e3, c3, l3, p3, r3⟩ := genLong_spec st tail m2 m.lev (h2.lev.trans l1')
      have e4 := dedent_succ (commitStrConst st m3) ((eff_commit st m3).lev.trans l3)
      refine ⟨{ commitStrConst st m3 with lev := m.lev }, ?_, ?_, rfl, ?_, ?_⟩
      · simp only [gen, addIndentingDirective, hm1, e2, Option.bind_some, Bool.false_eq_true, if_false, e3, e4]
      · simp [c3, h2.chunks, c1', h2.lev, l1', h2.pending, h2.repeats, comp, render_append, render_compound]
      · exact (eff_commit st m3).pending
      · simp [(eff_commit st m3).repeats, r3, h2.repeats, comp]
  | .capture id x body, m => by
    have h1 := eff_addSimples st (startRegion .capture id) m (by simp [startRegion])
    obtain ⟨m2, e2, h2⟩ := gen_spec st body (addSimples st (startRegion .capture id) m)
    rw [h1.pending, h1.repeats] at h2
    have h3 := eff_addSimples st (endCapture x id) m2 (by simp [endCapture])
    refine ⟨_, by simp only [gen, e2, Option.map_some]; rfl, ?_⟩
    have h := (h1.trans h2).trans h3
    rw [h2.pending, h2.repeats] at h
    simpa only [comp, PBlock.append_assoc] using h
  | .call id f body, m => by
    have h1 := eff_addSimples st (startRegion .call id) m (by simp [startRegion])
    obtain ⟨m2, e2, h2⟩ := gen_spec st body (addSimples st (startRegion .call id) m)
    rw [h1.pending, h1.repeats] at h2
    have h3 := eff_addSimples st (endCall st f id) m2 (by simp [endCall, resetCall])
    refine ⟨_, by simp only [gen, e2, Option.map_some]; rfl, ?_⟩
    have h := (h1.trans h2).trans h3
    rw [h2.pending, h2.repeats] at h
    simpa only [comp, PBlock.append_assoc] using h
  | .callKw id f pre name body more, m => by
    have h1 := eff_addSimples st (startRegion .call id) m (by simp [startRegion])
    obtain ⟨m2, e2, h2⟩ := gen_spec st pre (addSimples st (startRegion .call id) m)
    rw [h1.pending, h1.repeats] at h2
    have h3 := eff_addSimples st [.newKws id, .noteArg id name] m2 (by simp)
    rw [h2.pending, h2.repeats] at h3
    obtain ⟨m4, e4, h4⟩ := gen_spec st body (addSimples st [.newKws id, .noteArg id name] m2)
    rw [h3.pending, h3.repeats] at h4
    obtain ⟨m5, e5, h5⟩ := genArgs_spec st id f name more m4
    rw [h4.pending, h4.repeats] at h5
    refine ⟨m5, by simp only [gen, e2, Option.bind_some, e4, e5], ?_⟩
    have h := ((h1.trans h2).trans h3).trans (h4.trans h5)
    simpa only [comp, PBlock.append_assoc] using h
  | .filter id f body, m => by
    have h1 := eff_addSimples st (setFilter f id) m (setFilter_ne _ _)
    obtain ⟨m2, e2, h2⟩ := gen_spec st body (addSimples st (setFilter f id) m)
    rw [h1.pending, h1.repeats] at h2
    have h3 := eff_addSimple st (.restoreFilter id) m2
    refine ⟨_, by simp only [gen, e2, Option.map_some]; rfl, ?_⟩
    have h := (h1.trans h2).trans h3
    rw [h2.pending, h2.repeats] at h
    simpa only [comp, PBlock.append_assoc] using h
  | .cache id timed body, m => by
    have h0 := eff_addSimple st (.cacheProbe id) m
    obtain ⟨c1, l1, p1, r1⟩ := addChunk_eq st (.opens (.ifRecache id)) (addSimple st (.cacheProbe id) m)
    generalize hm1 : addChunk st (.opens (.ifRecache id)) (addSimple st (.cacheProbe id) m) = m1 at *
    have h2 := eff_addSimples_fresh st (startCacheBody timed id) (indent m1) p1 (by simp [startCacheBody])
    obtain ⟨m3, e3, h3⟩ := gen_spec st body (addSimples st (startCacheBody timed id) (indent m1))
    rw [h2.pending, h2.repeats] at h3
    have r1' : (indent m1).repeats = m.repeats := by rw [indent]; exact r1.trans h0.repeats
    have l1' : (indent m1).lev = m.lev + 1 := congrArg (· + 1) (l1.trans h0.lev)
    have c1' : (indent m1).chunks = _ := c1
    rw [r1'] at h3
    have h4 := eff_addSimples st (endCacheBody id) m3 (by simp [endCacheBody])
    have e5 := dedent_succ _ (h4.lev.trans (h3.lev.trans (h2.lev.trans l1')))
    refine ⟨{ addSimples st (endCacheBody id) m3 with lev := m.lev }, ?_, ?_, rfl, ?_, ?_⟩
    · simp only [gen, addIndentingDirective, hm1, e3, Option.bind_some, e5]
    · simp [h4.chunks, h3.chunks, h2.chunks, c1', h3.lev, h2.lev, l1', h3.pending, h0.pending, h0.lev, h0.chunks, comp, render_append,
        render, renderStmt, renderTail]
    · exact h4.pending
    · simp [h4.repeats, h3.repeats, comp]
theorem genLong_spec (st : Settings) : ∀ (tl : Tail L) (m : MC L) (lv : Nat), m.lev = lv + 1 → ∃ m', genLong st tl m = some m' ∧
    (commitStrConst st m').chunks = m.chunks ++ render (lv + 1) (flush st m.pending.flatten) ++ renderTail lv (compTail st tl m.repeats).1 ∧
    m'.lev = lv + 1 ∧ True ∧ m'.repeats = (compTail st tl m.repeats).2
  | .nil, m, lv, hl => ⟨m, rfl, by simp [(eff_commit st m).chunks, hl, compTail, renderTail], hl, trivial, rfl⟩
  | .cons k body tail, m, lv, hl => by
    have h1 := eff_commit st m
    have e1 := dedent_succ _ (h1.lev.trans hl)
    obtain ⟨c2, l2, p2, r2⟩ := addChunk_eq st (.conts (contHdr k)) { commitStrConst st m with lev := lv }
    generalize hm2 : addChunk st (.conts (contHdr k)) { commitStrConst st m with lev := lv } = m2 at *
    obtain ⟨m3, e3, h3⟩ := gen_spec st body (indent m2)
    have p2' : (indent m2).pending.flatten = [] := p2
    have r2' : (indent m2).repeats = m.repeats := r2.trans h1.repeats
    have l2' : (indent m2).lev = lv + 1 := congrArg (· + 1) l2
    have c2' : (indent m2).chunks = _ := c2
    rw [p2', r2'] at h3
    obtain ⟨m4, e4, c4, l4, p4, r4⟩ := genLong_spec st tail m3 lv (h3.lev.trans l2')
    refine ⟨m4, ?_, ?_, l4, trivial, ?_⟩
    · simp only [genLong, addReIndentingDirective, if_true, e1, Option.map_some, hm2, Option.bind_some, e3, e4]
    · simp [c4, h3.chunks, c2', h1.chunks, hl, h1.pending, h3.pending, h3.repeats, l2', render, compTail, renderTail, render_append]
    · simp [r4, h3.repeats, compTail]
theorem genShort_spec (st : Settings) : ∀ (tl : Tail L) (m : MC L), m.pending.flatten = [] → ∃ m', genShort st tl m = some m' ∧
    m'.chunks = m.chunks ++ renderTail m.lev (compTail st tl m.repeats).1 ∧
    m'.lev = m.lev ∧ m'.pending.flatten = [] ∧ m'.repeats = (compTail st tl m.repeats).2
  | .nil, m, hp => ⟨m, rfl, by simp [compTail, renderTail], rfl, hp, rfl⟩
  | .cons k body tail, m, hp => by
    have h1 := eff_commit st m
    obtain ⟨c2, l2, p2, r2⟩ := addChunk_eq st (.conts (contHdr k)) (commitStrConst st m)
    generalize hm2 : addChunk st (.conts (contHdr k)) (commitStrConst st m) = m2 at *
    obtain ⟨m3, e3, h3⟩ := gen_spec st body (indent m2)
    have p2' : (indent m2).pending.flatten = [] := p2
    have r2' : (indent m2).repeats = m.repeats := r2.trans h1.repeats
    have l2' : (indent m2).lev = m.lev + 1 := congrArg (· + 1) (l2.trans h1.lev)
    have c2' : (indent m2).chunks = _ := c2
    rw [p2', r2'] at h3
    have h4 := eff_commit st m3
    have e5 := dedent_succ _ (h4.lev.trans (h3.lev.trans l2'))
    obtain ⟨m6, e6, c6, l6, p6, r6⟩ := genShort_spec st tail { commitStrConst st m3 with lev := m.lev } h4.pending
    refine ⟨m6, ?_, ?_, l6, p6, ?_⟩
    · simp only [genShort, addReIndentingDirective, Bool.false_eq_true, if_false, Option.map_some, hm2, Option.bind_some, e3, e5, e6]
    · simp [c6, h4.chunks, h3.chunks, c2', h1.chunks, h1.lev, h1.pending, hp, h3.pending, h4.repeats, h3.repeats, h3.lev, l2', render, compTail,
        renderTail, render_append]
    · simp [r6, h4.repeats, h3.repeats, compTail]
theorem genArgs_spec (st : Settings) (id : Nat) (f : L.Fn) (name : Str) : ∀ (as : Args L) (m : MC L), ∃ m',
    genArgs st id f name as m = some m' ∧
    Eff m m' (compArgs st id f name as m.pending.flatten m.repeats).1 [] (compArgs st id f name as m.pending.flatten m.repeats).2
  | .nil, m => ⟨_, rfl, eff_addSimples st _ m (by simp [endCallKw, endCallArg])⟩
  | .cons name' body more, m => by
    have h1 := eff_addSimples st (endCallArg id name) m (by simp [endCallArg])
    obtain ⟨m2, e2, h2⟩ := gen_spec st body (addSimples st (endCallArg id name) m)
    rw [h1.pending, h1.repeats] at h2
    obtain ⟨m3, e3, h3⟩ := genArgs_spec st id f name' more m2
    rw [h2.pending, h2.repeats] at h3
    refine ⟨m3, by simp only [genArgs, e2, Option.bind_some, e3], ?_⟩
    simpa only [compArgs, PBlock.append_assoc] using (h1.trans h2).trans h3
end

/-- The block of a whole method.
Proof device; what Compiler.py 443-1183 amounts to as blocks. Models no code in /repo. -/
def compMethod (st : Settings) (t : T L) : PBlock L :=
  (comp st t [] 0).1 ++ flush st (comp st t [] 0).2.1 ++ simples [.ret]

theorem methodLines_eq (st : Settings) (lev : Nat) (t : T L) :
    methodLines st lev t = some (render lev (compMethod st t)) := by
  obtain ⟨m, e, h⟩ := gen_spec st t ⟨[], [], lev, 0⟩
  have h1 := eff_commit st m
  simp only [methodLines, e, Option.map_some]
  generalize commitStrConst st m = m1 at *
  have h2 := eff_addSimple st (L := L) .ret { m1 with lev := lev }
  rw [h2.chunks]
  have hp : m.pending.flatten = _ := h.pending
  have hc : m.chunks = _ := h.chunks
  have hl : m.lev = lev := h.lev
  simp [h1.chunks, h1.pending, hc, hl, compMethod, render_append]
  simpa using congrArg (fun p => render lev (flush st p)) hp

end Cheetah.Compile
