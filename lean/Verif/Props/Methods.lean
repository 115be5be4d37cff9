import Verif.Props.EndToEnd
/-
Which methods a template has, with which decorators; `#return` and `#yield`.
-/
namespace Cheetah.Driver
open Parser (Cmd)

/-! ### Specification -/

/-- What is known of a method from the directives: the name, the decorators, and whether there is a `#return` or a `#yield` in it. -/
structure Outline where
  name : Str
  decorators : List Str := []
  returns : Bool := false
  yields : Bool := false
  deriving DecidableEq, Repr

/-- The methods that are open, the innermost first; those that are closed, in order; the decorators that wait for a method. -/
structure Sketch where
  opened : List Outline
  closed : List Outline := []
  waiting : List Str := []
  deriving DecidableEq, Repr

/-- Change the innermost open method. -/
def Sketch.inner (f : Outline → Outline) (s : Sketch) : Sketch :=
  match s.opened with
  | [] => s
  | o :: os => { s with opened := f o :: os }

/-- Close the innermost open method. -/
def Sketch.close (s : Sketch) : Sketch :=
  match s.opened with
  | [] => s
  | o :: os => { s with opened := os, closed := s.closed ++ [o] }

/-- A directive. -/
def Sketch.step (s : Sketch) : Cmd → Sketch
  | .decorator e => { s with waiting := s.waiting ++ [e] }
  | .startMethod n _ => { opened := { name := n, decorators := s.waiting } :: s.opened, closed := s.closed, waiting := [] }
  | .closeDef => s.close
  | .closeBlock => s.close
  | .simple n _ => if n = c!"return" then s.inner fun o => { o with returns := true } else if n = c!"yield" then s.inner fun o => { o with yields := true } else s
  | _ => s

/-- The methods of the class in the order in which they end; the main method is open at the start. -/
def outlines (main : Str) (cmds : List Cmd) : List Outline :=
  let s := cmds.foldl Sketch.step { opened := [{ name := main }] }
  s.closed ++ s.opened

/-- Directives that give the main method another name. -/
def Renames : Cmd → Prop
  | .extends_ _ => True
  | .implements_ _ _ => True
  | _ => False

/-! ### Lemmas -/

/-- What the lines of a method leave alone. -/
def Meth.tag (m : Meth) : Str × List Str × Bool × Bool := (m.name, m.decorators, m.hasReturn, m.generator)

section
variable {cf : Cf} {m m' : Meth}

theorem tag_commit : (m.commit cf).tag = m.tag := by unfold Meth.commit; split <;> rfl
theorem tag_chunk {t : Str} : (m.chunk cf t).tag = m.tag := tag_commit (cf := cf) (m := m)
theorem tag_chunks {ts : List Str} : (m.chunks' cf ts).tag = m.tag := by
  unfold Meth.chunks'
  induction ts generalizing m with
  | nil => rfl
  | cons t ts ih => exact ih.trans tag_chunk
theorem tag_text {s : Str} : (m.text s).tag = m.tag := rfl
theorem tag_handleWS : m.handleWS.tag = m.tag := by unfold Meth.handleWS; split <;> rfl
theorem tag_filtered {e fa raw : Str} : (m.filtered cf e fa raw).tag = m.tag := by
  unfold Meth.filtered; simp only; split
  · exact tag_chunks
  · exact tag_chunk
theorem tag_indent : m.indent.tag = m.tag := rfl
theorem tag_indenting {e : Str} : (m.indenting cf e).tag = m.tag := by
  unfold Meth.indenting; rw [tag_indent, tag_chunk]

theorem tag_dedent (h : m.dedent = .ok m') : m'.tag = m.tag := by
  unfold Meth.dedent at h
  split at h
  · cases h
  · cases h; rfl

theorem tag_guarded {t : Str} {b : List Str} (h : m.guarded cf t b = .ok m') : m'.tag = m.tag := by
  rw [tag_dedent h, tag_chunks, tag_indent, tag_chunk]

theorem bind_ok {α β : Type} {x : Except Fail α} {f : α → Except Fail β} {b : β} (h : (x >>= f) = .ok b) : ∃ a, x = .ok a ∧ f a = .ok b := by
  cases x with
  | error e => cases h
  | ok a => exact ⟨a, rfl, h⟩

theorem tag_recacheTest {id : Str} {test : Option Str} (h : m.recacheTest cf id test = .ok m') : m'.tag = m.tag := by
  unfold Meth.recacheTest at h
  split at h
  · split at h
    · cases h; rfl
    · exact tag_guarded h
  · cases h; rfl

theorem tag_startCache {id info : Str} {varyBy test : Option Str} {interval : Option Rat} (h : m.startCache cf id info varyBy test interval = .ok m') : m'.tag = m.tag := by
  unfold Meth.startCache at h
  obtain ⟨a1, e1, h⟩ := bind_ok h
  obtain ⟨a2, e2, h⟩ := bind_ok h
  obtain ⟨a3, e3, h⟩ := bind_ok h
  obtain ⟨a4, e4, h⟩ := bind_ok h
  obtain ⟨a5, e5, h⟩ := bind_ok h
  obtain ⟨a6, e6, h⟩ := bind_ok h
  obtain ⟨a7, e7, h⟩ := bind_ok h
  have k1 := tag_guarded e1
  have k2 := tag_guarded e2
  have k3 := tag_recacheTest e3
  have k4 := tag_guarded e4
  have k5 := tag_guarded e5
  have k6 := tag_guarded e6
  have k7 := tag_dedent e7
  simp only [tag_chunk, tag_chunks, tag_indent] at k1 k2 k3 k4 k5 k6 k7
  have k : a7.tag = m.tag := k7.trans (k6.trans (k5.trans (k4.trans (k3.trans (k2.trans k1)))))
  split at h <;> cases h <;> simp only [tag_chunk, tag_chunks, tag_indent, k]

theorem tag_endCache (h : m.endCache cf = .ok m') : m'.tag = m.tag := by
  unfold Meth.endCache at h
  split at h
  · cases h
  · rw [tag_dedent h, tag_chunks]; rfl

theorem tag_callArg {n : Str} (h : m.callArg cf n = .ok m') : m'.tag = m.tag := by
  unfold Meth.callArg at h
  split at h
  · cases h
  · cases h
    split <;> exact tag_chunks

theorem tag_endCall (h : m.endCall cf = .ok m') : m'.tag = m.tag := by
  unfold Meth.endCall at h
  split at h
  · cases h
  · cases h
    have e : ∀ (x : Meth) (cs : List Call), Meth.tag { x with calls := cs } = x.tag := fun _ _ => rfl
    rw [e]
    split
    · simp only [tag_chunk, tag_filtered, tag_chunks]
    · simp only [tag_chunk, tag_filtered, tag_chunks]

theorem tag_endCapture (h : m.endCapture cf = .ok m') : m'.tag = m.tag := by
  unfold Meth.endCapture at h
  split at h
  · cases h
  · cases h
    rw [tag_chunks]; rfl

theorem tag_setFilter {id f : Str} {k : Bool} {lo : Str → Str} (h : m.setFilter cf id f k lo = .ok m') : m'.tag = m.tag := by
  unfold Meth.setFilter at h
  dsimp only at h
  split at h
  · cases h
    rw [tag_chunk, tag_chunk]; rfl
  · split at h
    · cases h
      rw [tag_chunk, tag_chunk]; rfl
    · obtain ⟨a, e, h⟩ := bind_ok h
      rw [tag_guarded h, tag_guarded e, tag_chunk, tag_chunk]; rfl

theorem tag_closeFilter (h : m.closeFilter cf = .ok m') : m'.tag = m.tag := by
  unfold Meth.closeFilter at h
  split at h
  · cases h
  · cases h
    rw [tag_chunk]; rfl

theorem tag_setCatcher {n : Str} (h : m.setCatcher cf n = .ok m') : m'.tag = m.tag := by
  unfold Meth.setCatcher at h
  obtain ⟨a, e, h⟩ := bind_ok h
  rw [tag_guarded h, tag_guarded e]; rfl

theorem tag_ternary {a b e : Str} (h : m.ternary cf a b e = .ok m') : m'.tag = m.tag := by
  unfold Meth.ternary at h
  obtain ⟨x, k, h⟩ := bind_ok h
  rw [tag_dedent h, tag_filtered, tag_indenting, tag_dedent k, tag_filtered, tag_indenting]

theorem tag_reindenting {e : Str} {d : Bool} (h : m.reindenting cf e d = .ok m') : m'.tag = m.tag := by
  unfold Meth.reindenting at h
  dsimp only at h
  split at h
  · obtain ⟨x, k, h⟩ := bind_ok h
    split at h
    · cases h
    · cases h
      rw [tag_indent, tag_chunk, tag_dedent k, tag_commit]
  · obtain ⟨x, k, h⟩ := bind_ok h
    split at h
    · cases h
    · cases h
      cases k
      rw [tag_indent, tag_chunk, tag_commit]

theorem tag_psp {sp : Str → List Str} {lo : Str → Str} {s : Str} (h : m.psp cf sp lo s = .ok m') : m'.tag = m.tag := by
  unfold Meth.psp at h
  dsimp only at h
  split at h
  · cases h
  · cases h
    split
    · exact tag_commit
    · rw [tag_chunk, tag_commit]
  · split at h
    · rw [tag_dedent h, tag_commit]
    · split at h
      · cases h
        rw [tag_indent, tag_chunks, tag_commit]
      · split at h
        · cases h
          rw [tag_indent, tag_chunks, tag_commit]
        · cases h
          rw [tag_chunks, tag_commit]

theorem tag_placeLines {e fa raw : Str} {s : Bool} (h : CC.placeLines cf e fa raw s m = .ok m') : m'.tag = m.tag := by
  unfold CC.placeLines at h
  split at h
  · obtain ⟨x, k, h⟩ := bind_ok h
    cases h
    rw [tag_chunk, tag_dedent k, tag_filtered, tag_indent, tag_chunk]
  · cases h; exact tag_filtered

theorem tag_sealed : (m.sealed cf).tag = m.tag := by
  unfold Meth.sealed
  dsimp only
  split <;> split <;> rfl

theorem finish_end (h : m.finish cf = .ok m') : m'.tag = m.tag ∧ (m.generator = false → m'.chunks.getLast? = some (cf.initLev, Meth.stopLine)) := by
  obtain ⟨y, e2, h⟩ : ∃ y : Meth, y.tag = m.tag ∧ y.sealed cf = m' := by
    have key : ∀ x : Meth, x.tag = m.tag → (if x.calls = [] then (Except.ok x >>= fun m => Except.ok (m.sealed cf)) else (x.endCall cf >>= fun m => Except.ok (m.sealed cf))) = .ok m' →
        ∃ y : Meth, y.tag = m.tag ∧ y.sealed cf = m' := by
      intro x e1 l
      split at l
      · cases l; exact ⟨x, e1, rfl⟩
      · obtain ⟨y, k, l⟩ := bind_ok l
        cases l
        exact ⟨y, (tag_endCall k).trans e1, rfl⟩
    unfold Meth.finish at h
    dsimp only at h
    split at h
    · exact key (m.commit cf) tag_commit h
    · obtain ⟨x, k, h⟩ := bind_ok h
      exact key x ((tag_endCache k).trans tag_commit) h
  subst h
  refine ⟨tag_sealed.trans e2, fun hg => ?_⟩
  have e3 : y.generator = false := (congrArg (·.2.2.2) e2).trans hg
  unfold Meth.sealed
  dsimp only
  split <;> split <;> simp [e3]

end

/-! ### The commands -/

/-- The compiler is where the sketch is. -/
structure Follows (names : Bool) (cf : Cf) (c : CC) (s : Sketch) : Prop where
  waiting : c.decorators = s.waiting
  opened : List.Forall₂ (fun m o => (names = true → m.name = o.name) ∧ m.decorators = o.decorators ∧ m.hasReturn = o.returns ∧ m.generator = o.yields) c.active s.opened
  closed : List.Forall₂ (fun m o => (names = true → m.name = o.name) ∧ m.decorators = o.decorators ∧ (o.yields = false → m.chunks.getLast? = some (cf.initLev, Meth.stopLine))) c.finished s.closed
  once : ∀ o ∈ s.closed ++ s.opened, ¬ (o.returns = true ∧ o.yields = true)

section
variable {nm : Bool} {cf : Cf} {c c' : CC} {s : Sketch}

theorem Follows.onTop {k : Meth → Except Fail Meth} (hf : Follows nm cf c s) (hk : ∀ m m', k m = .ok m' → m'.tag = m.tag) (h : c.onTop k = .ok c') : Follows nm cf c' s := by
  obtain ⟨h1, h2, h3, h4⟩ := hf
  unfold CC.onTop at h
  split at h
  · cases h
  · rename_i m ms hm
    obtain ⟨m', e, h⟩ := bind_ok h
    cases h
    rw [hm] at h2
    have ht := hk m m' e
    simp only [Meth.tag, Prod.mk.injEq] at ht
    refine ⟨h1, ?_, h3, h4⟩
    obtain ⟨so, sc, sw⟩ := s
    dsimp only at h2 ⊢
    cases h2 with
    | cons a b => exact .cons (by rw [ht.1, ht.2.1, ht.2.2.1, ht.2.2.2]; exact a) b

theorem Follows.top {k : Meth → Meth} (hf : Follows nm cf c s) (hk : ∀ m, (k m).tag = m.tag) (h : c.top k = .ok c') : Follows nm cf c' s :=
  hf.onTop (k := fun m => .ok (k m)) (by rintro m m' ⟨⟩; exact hk m) h

theorem Follows.same (hf : Follows nm cf c s) (h1 : c'.active = c.active) (h2 : c'.finished = c.finished) (h3 : c'.decorators = c.decorators) : Follows nm cf c' s :=
  ⟨h3 ▸ hf.waiting, h1 ▸ hf.opened, h2 ▸ hf.closed, hf.once⟩

theorem Follows.addImported {vars : List Str} {raw : Option Str} (hf : Follows nm cf c s) (h : c.addImported cf vars raw = .ok c') : Follows nm cf c' s := by
  unfold CC.addImported at h
  split at h
  · cases h; exact hf
  · split at h
    · cases h; exact hf.same rfl rfl rfl
    · split at h
      · split at h
        · cases h; exact hf
        · exact hf.top (fun _ => tag_chunk) h
      · cases h; exact hf

theorem Follows.import_ {e : Str} (hf : Follows nm cf c s) (h : c.import_ cf e = .ok c') : Follows nm cf c' s := by
  unfold CC.import_ at h
  dsimp only at h
  split at h
  · cases h
  · refine Follows.addImported ?_ h
    split
    · exact hf.same rfl rfl rfl
    · exact hf

theorem Follows.importClass {a k : Str} (hf : Follows nm cf c s) (h : c.importClass cf a k = .ok c') : Follows nm cf c' s := by
  unfold CC.importClass at h
  obtain ⟨x, e, h⟩ := bind_ok h
  exact (hf.import_ e).addImported h

theorem Follows.oneBase {k : Str} {r : Str × CC} (hf : Follows nm cf c s) (h : c.oneBase cf k = .ok r) : Follows nm cf r.2 s := by
  unfold CC.oneBase at h
  split at h
  · cases h; exact hf
  · split at h
    · cases h; exact hf
    · obtain ⟨x, e, h⟩ := bind_ok h
      cases h; exact hf.importClass e
  · split at h
    · cases h; exact hf
    · obtain ⟨x, e, h⟩ := bind_ok h
      cases h; exact hf.importClass e

theorem Follows.bases : ∀ (ks : List Str) {c : CC} {r : List Str × CC}, Follows nm cf c s → c.bases cf ks = .ok r → Follows nm cf r.2 s
  | [], c, r, hf, h => by cases h; exact hf
  | k :: ks, c, r, hf, h => by
    unfold CC.bases at h
    obtain ⟨⟨b, x⟩, e, h⟩ := bind_ok h
    obtain ⟨⟨bs, y⟩, e', h⟩ := bind_ok h
    cases h
    exact Follows.bases ks (r := (bs, y)) (hf.oneBase e) e'

theorem Follows.setBase {e : Str} (hf : Follows nm cf c s) (h : c.setBase cf e = .ok c') : Follows nm cf c' s := by
  unfold CC.setBase at h
  split at h
  · cases h; exact hf.same rfl rfl rfl
  · obtain ⟨⟨bs, x⟩, k, h⟩ := bind_ok h
    cases h
    exact (Follows.bases _ hf k).same rfl rfl rfl

theorem Follows.mapUid {u : Nat} {g : Meth → Meth} (hg : ∀ m, ((nm = true → (g m).name = m.name) ∧ (g m).decorators = m.decorators ∧ (g m).hasReturn = m.hasReturn ∧ (g m).generator = m.generator) ∧ (g m).chunks = m.chunks)
    (hf : Follows nm cf c s) : Follows nm cf (c.mapUid u g) s := by
  obtain ⟨h1, h2, h3, h4⟩ := hf
  refine ⟨h1, ?_, ?_, h4⟩
  · show List.Forall₂ _ (c.active.map _) _
    rw [List.forall₂_map_left_iff]
    refine h2.imp fun m o h => ?_
    split
    · obtain ⟨⟨a, b, d, e⟩, _⟩ := hg m
      exact ⟨fun hn => (a hn).trans (h.1 hn), b.trans h.2.1, d.trans h.2.2.1, e.trans h.2.2.2⟩
    · exact h
  · show List.Forall₂ _ (c.finished.map _) _
    rw [List.forall₂_map_left_iff]
    refine h3.imp fun m o h => ?_
    split
    · obtain ⟨⟨a, b, d, e⟩, f⟩ := hg m
      exact ⟨fun hn => (a hn).trans (h.1 hn), b.trans h.2.1, by rw [f]; exact h.2.2⟩
    · exact h

theorem Follows.setMainName {n : Str} (hn : nm = false) (hf : Follows nm cf c s) (h : c.setMainName n = .ok c') : Follows nm cf c' s := by
  unfold CC.setMainName at h
  split at h
  · cases h; exact hf
  · split at h
    · cases h
    · cases h
      rename_i u _
      exact (hf.mapUid (u := u) (g := fun m => { m with name := n }) fun m => ⟨⟨by simp [hn], rfl, rfl, rfl⟩, rfl⟩).same rfl rfl rfl

theorem Follows.setMainArgs {as : List (Str × Option Str)} (hf : Follows nm cf c s) (h : c.setMainArgs as = .ok c') : Follows nm cf c' s := by
  unfold CC.setMainArgs at h
  split at h
  · cases h
  · cases h
    exact hf.mapUid fun m => ⟨⟨fun _ => rfl, rfl, rfl, rfl⟩, rfl⟩

/-- The innermost method is closed. -/
theorem Follows.swallow {m : Meth} {ms : List Meth} (hf : Follows nm cf c s) (hm : c.active = m :: ms) {m0 : Meth} (ht : m0.tag = m.tag)
    (h : CC.swallow cf m0 { c with active := ms } = .ok c') : Follows nm cf c' s.close ∧ c'.active = ms := by
  obtain ⟨h1, h2, h3, h4⟩ := hf
  unfold CC.swallow at h
  obtain ⟨x, k, h⟩ := bind_ok h
  cases h
  obtain ⟨k1, k2⟩ := finish_end k
  have k3 := k1.trans ht
  simp only [Meth.tag, Prod.mk.injEq] at k3 ht
  rw [hm] at h2
  obtain ⟨o1, c1, w1⟩ := s
  dsimp only at h1 h2 h3 h4
  cases h2 with
  | @cons _ o _ os a b =>
    refine ⟨⟨h1, b, ?_, ?_⟩, rfl⟩
    · refine List.rel_append h3 (.cons ⟨fun hn => k3.1.trans (a.1 hn), k3.2.1.trans a.2.1, fun hy => k2 ?_⟩ .nil)
      rw [ht.2.2.2, a.2.2.2, hy]
    · intro o' ho
      apply h4
      simpa [Sketch.close] using ho

theorem Follows.inner {k : Meth → Except Fail Meth} {g : Outline → Outline} (hf : Follows nm cf c s)
    (hk : ∀ m m' o, k m = .ok m' → m.hasReturn = o.returns → m.generator = o.yields → m'.name = m.name ∧ m'.decorators = m.decorators ∧ (g o).name = o.name ∧ (g o).decorators = o.decorators ∧
      m'.hasReturn = (g o).returns ∧ m'.generator = (g o).yields ∧ (¬ (o.returns = true ∧ o.yields = true) → ¬ ((g o).returns = true ∧ (g o).yields = true)))
    (h : c.onTop k = .ok c') : Follows nm cf c' (s.inner g) := by
  obtain ⟨h1, h2, h3, h4⟩ := hf
  unfold CC.onTop at h
  split at h
  · cases h
  · rename_i m ms hm
    obtain ⟨m', e, h⟩ := bind_ok h
    cases h
    rw [hm] at h2
    obtain ⟨so, sc, sw⟩ := s
    dsimp only at h1 h2 h3 h4
    cases h2 with
    | @cons _ o _ os a b =>
      obtain ⟨k1, k2, k3, k4, k5, k6, k7⟩ := hk m m' o e a.2.2.1 a.2.2.2
      refine ⟨h1, .cons ⟨fun hn => by rw [k1, k3, a.1 hn], by rw [k2, k4, a.2.1], k5, k6⟩ b, h3, ?_⟩
      intro x hx
      simp only [Sketch.inner, List.mem_append, List.mem_cons] at hx
      rcases hx with hx | rfl | hx
      · exact h4 x (List.mem_append_left _ hx)
      · exact k7 (h4 o (List.mem_append_right _ List.mem_cons_self))
      · exact h4 x (List.mem_append_right _ (List.mem_cons_of_mem _ hx))

theorem Follows.returns {e : Str} (hf : Follows nm cf c s) (h : c.onTop (Meth.addReturn cf e) = .ok c') : Follows nm cf c' (s.inner fun o => { o with returns := true }) := by
  refine hf.inner ?_ h
  intro m m' o k a b
  unfold Meth.addReturn at k
  split at k
  · cases k
  · rename_i hg
    cases k
    have ht := tag_chunk (cf := cf) (m := m) (t := e)
    simp only [Meth.tag, Prod.mk.injEq] at ht
    refine ⟨ht.1, ht.2.1, rfl, rfl, rfl, ht.2.2.2.trans b, ?_⟩
    rw [b] at hg
    simp [hg]

theorem Follows.yields {e : Str} (hf : Follows nm cf c s) (h : c.onTop (Meth.addYield cf e) = .ok c') : Follows nm cf c' (s.inner fun o => { o with yields := true }) := by
  refine hf.inner ?_ h
  intro m m' o k a b
  unfold Meth.addYield at k
  split at k
  · cases k
  · rename_i hg
    have ht : m'.tag = Meth.tag { m with generator := true } := by
      dsimp only at k
      split at k
      · obtain ⟨x, k1, k⟩ := bind_ok k
        rw [tag_dedent k, tag_chunk, tag_indent, tag_chunk, tag_dedent k1, tag_chunks, tag_indent, tag_chunk]
      · cases k
        exact tag_chunk
    simp only [Meth.tag, Prod.mk.injEq] at ht
    refine ⟨ht.1, ht.2.1, rfl, rfl, ht.2.2.1.trans a, ht.2.2.2, ?_⟩
    rw [a] at hg
    simp [hg]

theorem Follows.wrapExpr {e raw : Str} (hf : Follows nm cf c s) : Follows nm cf (c.wrapExpr e raw).2 s := by
  unfold CC.wrapExpr
  split
  · split
    · exact hf.same rfl rfl rfl
    · exact hf
  · exact hf

theorem Follows.placeholder {e raw : Str} {fa : Option Str} {tok : Interval.Token} {si : Bool} (hf : Follows nm cf c s) (h : c.placeholder cf e raw fa tok si = .ok c') : Follows nm cf c' s := by
  unfold CC.placeholder at h
  split at h
  · cases h
  · split at h
    · exact (hf.wrapExpr (e := e) (raw := raw)).onTop (fun _ _ => tag_placeLines) h
    · obtain ⟨x, e1, h⟩ := bind_ok h
      obtain ⟨y, e2, h⟩ := bind_ok h
      have k1 := (hf.same (c' := (c.draw cf).2) rfl rfl rfl).onTop (fun _ _ => tag_startCache) e1
      exact ((k1.wrapExpr (e := e) (raw := raw)).onTop (fun _ _ => tag_placeLines) e2).onTop (fun _ _ => tag_endCache) h

end

/-- One command. -/
theorem follows_step {nm : Bool} {cf : Cf} {c c' : CC} {s : Sketch} (hf : Follows nm cf c s) {k : Cmd} (hk : nm = true → ¬ Renames k) (h : CC.step cf k c = .ok c') : Follows nm cf c' (s.step k) := by
  cases k with
  | strConst t => exact hf.top (fun _ => tag_text) h
  | raw t => exact hf.top (fun _ => tag_text) h
  | comment t =>
    simp only [CC.step] at h
    unfold CC.comment at h
    split at h
    · cases h; exact hf
    · exact hf.top (fun _ => tag_commit) h
  | handleWS => exact hf.top (fun _ => tag_handleWS) h
  | commit => exact hf.top (fun _ => tag_commit) h
  | placeholder e raw fa tok silent =>
    simp only [CC.step] at h
    exact hf.placeholder h
  | psp t => exact hf.onTop (fun _ _ => tag_psp) h
  | indenting n e => exact hf.top (k := fun m => (fun x : Str × Nat => Meth.indenting cf x.1 { m with repeats := x.2 }) (Meth.header n e m.repeats)) (fun m => tag_indenting) h
  | reindenting n e d => exact hf.onTop (fun _ _ => tag_reindenting) h
  | ternary a b e => exact hf.onTop (fun _ _ => tag_ternary) h
  | dedent => exact hf.onTop (fun _ _ => tag_dedent) h
  | simple n e =>
    simp only [CC.step] at h
    unfold CC.simple at h
    show Follows _ _ _ (if n = c!"return" then s.inner fun o => { o with returns := true } else if n = c!"yield" then s.inner fun o => { o with yields := true } else s)
    by_cases h1 : n = c!"return"
    · subst h1
      rw [if_neg (by decide), if_neg (by decide), if_pos rfl] at h
      rw [if_pos rfl]
      exact hf.returns h
    · rw [if_neg h1]
      by_cases h2 : n = c!"yield"
      · subst h2
        rw [if_neg (by decide), if_neg (by decide), if_neg (by decide), if_pos rfl] at h
        rw [if_pos rfl]
        exact hf.yields h
      · rw [if_neg h2]
        split at h
        · exact hf.top (fun _ => tag_filtered) h
        · split at h
          · exact hf.top (fun _ => tag_chunk) h
          · split at h
            · exact hf.import_ h
            · exact hf.top (fun _ => tag_chunk) h
  | set l op r style =>
    simp only [CC.step] at h
    split at h
    · exact hf.top (fun _ => tag_chunk) h
    · cases h; exact hf.same rfl rfl rfl
  | include_ e a b => exact hf.top (fun _ => tag_chunk) h
  | startCall f as => exact (hf.same (c' := (c.draw cf).2) rfl rfl rfl).top (k := Meth.startCall cf (c.draw cf).1 f as) (fun m => (tag_chunks (m := { m with calls := _ })).trans rfl) h
  | endCall => exact hf.onTop (fun _ _ => tag_endCall) h
  | callArg n => exact hf.onTop (fun _ _ => tag_callArg) h
  | startCapture e => exact (hf.same (c' := (c.draw cf).2) rfl rfl rfl).top (k := Meth.startCapture cf (c.draw cf).1 e) (fun m => (tag_chunks (m := { m with captures := _ })).trans rfl) h
  | endCapture => exact hf.onTop (fun _ _ => tag_endCapture) h
  | startCache as =>
    simp only [CC.step] at h
    unfold CC.startCache at h
    obtain ⟨vs, e, h⟩ := bind_ok h
    split at h
    · cases h
    · exact (hf.same (c' := (c.draw cf).2) rfl rfl rfl).onTop (fun _ _ => tag_startCache) h
  | endCache => exact hf.onTop (fun _ _ => tag_endCache) h
  | setFilter f b => exact (hf.same (c' := (c.draw cf).2) rfl rfl rfl).onTop (fun _ _ => tag_setFilter) h
  | closeFilter => exact hf.onTop (fun _ _ => tag_closeFilter) h
  | setTransform f b => exact hf.top (fun _ => tag_chunks) h
  | errorCatcher n => exact hf.onTop (fun _ _ => tag_setCatcher) h
  | errorCatcherOff => exact hf.top (k := fun m => { m with catching := false }) (fun _ => rfl) h
  | startMethod n as =>
    cases h
    obtain ⟨h1, h2, h3, h4⟩ := hf
    refine ⟨rfl, .cons ⟨fun _ => rfl, h1, rfl, rfl⟩ h2, h3, ?_⟩
    intro o ho
    simp only [Sketch.step, List.mem_append, List.mem_cons] at ho
    rcases ho with ho | rfl | ho
    · exact h4 o (List.mem_append_left _ ho)
    · simp
    · exact h4 o (List.mem_append_right _ ho)
  | addClosure n as => exact hf.top (fun _ => tag_indenting) h
  | closeDef =>
    simp only [CC.step] at h
    unfold CC.closeDef at h
    split at h
    · cases h
    · rename_i m ms hm
      exact (hf.swallow hm rfl h).1
  | closeBlock =>
    simp only [CC.step] at h
    unfold CC.closeBlock at h
    split at h
    · cases h
    · rename_i m ms hm
      obtain ⟨x, e, h⟩ := bind_ok h
      refine Follows.top (hf.swallow hm ?_ e).1 (fun _ => tag_chunk) h
      split
      · rw [tag_text, tag_commit]
      · exact tag_commit
  | attr n e =>
    simp only [CC.step] at h
    split at h
    · cases h
    · cases h; exact hf.same rfl rfl rfl
  | decorator e =>
    cases h
    exact ⟨by show c.decorators ++ [e] = s.waiting ++ [e]; rw [hf.waiting], hf.opened, hf.closed, hf.once⟩
  | extends_ e =>
    have hn : nm = false := by cases nm with | true => exact absurd trivial (hk rfl) | false => rfl
    obtain ⟨x, k, h⟩ := bind_ok h
    exact (hf.setMainName hn k).setBase h
  | implements_ n as =>
    have hn : nm = false := by cases nm with | true => exact absurd trivial (hk rfl) | false => rfl
    obtain ⟨x, k, h⟩ := bind_ok h
    exact (hf.setMainName hn k).setMainArgs h
  | super as =>
    simp only [CC.step] at h
    split at h
    · cases h
    · exact hf.top (fun _ => tag_filtered) h
  | shBang t => cases h; exact hf.same rfl rfl rfl
  | encoding t => cases h; exact hf.same rfl rfl rfl

theorem follows_steps {nm : Bool} {cf : Cf} : ∀ (cmds : List Cmd) {c c' : CC} {s : Sketch}, Follows nm cf c s → (nm = true → ∀ k ∈ cmds, ¬ Renames k) → CC.steps cf cmds c = .ok c' →
    Follows nm cf c' (cmds.foldl Sketch.step s)
  | [], c, c', s, hf, _, h => by cases h; exact hf
  | k :: ks, c, c', s, hf, hk, h => by
    unfold CC.steps at h
    obtain ⟨x, e, h⟩ := bind_ok h
    exact follows_steps ks (follows_step hf (fun hn => hk hn k List.mem_cons_self) e) (fun hn k' hk' => hk hn k' (List.mem_cons_of_mem _ hk')) h

/-- What is said of a finished method. -/
def Matches (names : Bool) (cf : Cf) (m : Meth) (o : Outline) : Prop :=
  (names = true → m.name = o.name) ∧ m.decorators = o.decorators ∧ (o.yields = false → m.chunks.getLast? = some (cf.initLev, Meth.stopLine))

theorem finishAll_active {cf : Cf} : ∀ (ms : List Meth) (c : CC) (as : List Meth), CC.finishAll cf ms { c with active := as } = CC.finishAll cf ms c
  | [], _, _ => rfl
  | m :: ms, c, as => by
    unfold CC.finishAll CC.swallow
    cases m.finish cf with
    | error _ => rfl
    | ok b => exact finishAll_active ms { c with finished := c.finished ++ [b] } as

theorem follows_finish {nm : Bool} {cf : Cf} : ∀ (ms : List Meth) (c : CC) (s : Sketch) {c' : CC}, c.active = ms → Follows nm cf c s → CC.finishAll cf ms c = .ok c' →
    List.Forall₂ (Matches nm cf) c'.finished (s.closed ++ s.opened)
  | [], c, s, c', hm, hf, h => by
    cases h
    have := hf.opened
    rw [hm] at this
    obtain ⟨so, sc, sw⟩ := s
    cases this
    rw [List.append_nil]
    exact hf.closed
  | m :: ms, c, s, c', hm, hf, h => by
    unfold CC.finishAll at h
    obtain ⟨x, e, h⟩ := bind_ok h
    have e' : CC.swallow cf m { c with active := ms } = .ok { x with active := ms } := by
      unfold CC.swallow at e ⊢
      obtain ⟨y, k, e⟩ := bind_ok e
      cases e
      rw [k]; rfl
    obtain ⟨k1, k2⟩ := hf.swallow hm rfl e'
    have key := follows_finish ms { x with active := ms } s.close (c' := c') rfl k1 ((finishAll_active ms x ms).trans h)
    have : s.close.closed ++ s.close.opened = s.closed ++ s.opened := by
      unfold Sketch.close
      split
      · rfl
      · rename_i o os ho
        simp [ho]
    rw [← this]
    exact key

/-! ### Theorems -/

theorem follows_start (nm : Bool) (cf : Cf) : Follows nm cf (CC.start cf) { opened := [{ name := cf.mainName }] } :=
  ⟨rfl, .cons ⟨fun _ => rfl, rfl, rfl, rfl⟩ .nil, .nil, by simp⟩

/-- C82. Whatever the directives: the methods of the class come in the order in which they end, each with the decorators that were written since the method before it was begun,
and no others; and a method without `#yield` ends with the line that returns its text. -/
theorem C82_methods (cf : Cf) (cmds : List Cmd) (cc : CC) (h : CC.compile cf cmds = .ok cc) :
    List.Forall₂ (fun m o => m.decorators = o.decorators ∧ (o.yields = false → m.chunks.getLast? = some (cf.initLev, c!"return _dummyTrans and trans.response().getvalue() or \"\"")))
      cc.finished (outlines cf.mainName cmds) := by
  unfold CC.compile at h
  obtain ⟨x, e, h⟩ := bind_ok h
  have := follows_finish _ x _ rfl (follows_steps cmds (follows_start false cf) (by simp) e) h
  exact this.imp fun m o k => k.2

/-- C82. Their names are those of the directives, if the main method keeps its name. -/
theorem C82_names (cf : Cf) (cmds : List Cmd) (hr : ∀ k ∈ cmds, ¬ Renames k) (cc : CC) (h : CC.compile cf cmds = .ok cc) :
    cc.finished.map (fun m => (m.name, m.decorators)) = (outlines cf.mainName cmds).map fun o => (o.name, o.decorators) := by
  unfold CC.compile at h
  obtain ⟨x, e, h⟩ := bind_ok h
  have := follows_finish _ x _ rfl (follows_steps cmds (follows_start true cf) (fun _ => hr) e) h
  show _ = (List.map _ ((cmds.foldl Sketch.step { opened := [{ name := cf.mainName }] }).closed ++ _))
  revert this
  generalize cc.finished = a
  generalize (Sketch.closed _ ++ Sketch.opened _) = b
  intro this
  induction this with
  | nil => rfl
  | cons k _ ih => rw [List.map_cons, List.map_cons, ih, k.1 rfl, k.2.1]

/-- C82. A method with a `#return` and a `#yield` is refused. -/
theorem C82_return_or_yield (cf : Cf) (cmds : List Cmd) (cc : CC) (h : CC.compile cf cmds = .ok cc) : ∀ o ∈ outlines cf.mainName cmds, ¬ (o.returns = true ∧ o.yields = true) := by
  unfold CC.compile at h
  obtain ⟨x, e, h⟩ := bind_ok h
  exact (follows_steps cmds (follows_start false cf) (by simp) e).once

/-! ### What a template with `#yield` gives -/

/-- What the lines yield, one after the other, when the method is called without a transaction; `buf` has been written since the last one. `skip`: lines further in than
that do not run. -/
def pieces : Option Nat → List (Nat × Str) → Str → List Str
  | _, [], _ => []
  | skip, (n, s) :: rest, buf =>
    if (match skip with | some k => decide (k < n) | none => false) = true then pieces skip rest buf
    else if s = c!"yield trans.response().getvalue()" then buf :: pieces none rest buf
    else if s = c!"trans = DummyTransaction()" then pieces none rest []
    else if s = c!"write = trans.response().write" then pieces none rest buf
    else if s = c!"if _dummyTrans:" then pieces none rest buf
    else if s = c!"else:" then pieces (some n) rest buf
    else match stripPrefix? c!"write(" s with
      | some r => match lexTriple r with
        | some (t, [')']) => pieces none rest (buf ++ t)
        | _ => []
      | none => []

/-- `#yield` alone, with blanks around it. -/
def Bare (e : Str) : Prop := ∃ a b : Str, e = a ++ c!"yield" ++ b ∧ (∀ c ∈ a, isSpace c = true) ∧ ∀ c ∈ b, isSpace c = true

theorem bareYield_blanks : ∀ (b : Str), (∀ c ∈ b, isSpace c = true) → ∀ n, Meth.bareYield n b = true
  | [], _, 0 => rfl
  | [], _, n + 1 => rfl
  | c :: b, _, 0 => rfl
  | c :: b, h, n + 1 => by
    have hc := h c List.mem_cons_self
    have : stripPrefix? c!"yield" (c :: b) = none := by
      have : c ≠ 'y' := by rintro rfl; exact absurd hc (by decide +kernel)
      simp [stripPrefix?, this.symm]
    simp only [Meth.bareYield, this, hc, Bool.true_and]
    exact bareYield_blanks b (fun d hd => h d (List.mem_cons_of_mem _ hd)) n

theorem bare_yes {e : Str} (h : Bare e) : ∀ n, Meth.bareYield n e = true := by
  obtain ⟨a, b, rfl, ha, hb⟩ := h
  induction a with
  | nil =>
    intro n
    cases n with
    | zero => rfl
    | succ n => exact bareYield_blanks b hb n
  | cons c a ih =>
    intro n
    cases n with
    | zero => rfl
    | succ n =>
      have hc := ha c List.mem_cons_self
      have : stripPrefix? c!"yield" (c :: (a ++ c!"yield" ++ b)) = none := by
        have : c ≠ 'y' := by rintro rfl; exact absurd hc (by decide +kernel)
        simp [stripPrefix?, this.symm]
      show Meth.bareYield (n + 1) (c :: (a ++ c!"yield" ++ b)) = true
      simp only [Meth.bareYield, this, hc, Bool.true_and]
      exact ih (fun d hd => ha d (List.mem_cons_of_mem _ hd)) n

/-- The lines of a text and a `#yield`. -/
def yieldLines (cf : Cf) (n : Nat) (t : Str) : List (Nat × Str) :=
  (if t = [] then [] else [(n, c!"write(" ++ StrConst.literal cf.printable t ++ c!")")]) ++
    [(n, c!"if _dummyTrans:"), (n + 1, c!"yield trans.response().getvalue()"), (n + 1, c!"trans = DummyTransaction()"), (n + 1, c!"write = trans.response().write"),
     (n, c!"else:"), (n + 1, c!"raise TypeError(\"This method cannot be called with a trans arg\")")]

theorem addYield_eq {cf : Cf} {m : Meth} {t e : Str} (he : Bare e) (hp : m.pending = []) (hr : m.hasReturn = false) :
    (m.text t).addYield cf e = .ok { m with generator := true, chunks := m.chunks ++ yieldLines cf m.lev t } := by
  obtain ⟨uid, name, args, decs, pend, chunks, lev, reps, cache, calls, caps, fils, cat, ret, gen⟩ := m
  dsimp only at hp hr
  subst hp hr
  unfold Meth.addYield
  simp only [Meth.text, Bool.false_eq_true, if_false, bare_yes he, if_true]
  by_cases ht : t = []
  · subst ht
    simp [Meth.chunk, Meth.chunks', Meth.indent, Meth.dedent, Meth.commit, bind, Except.bind, yieldLines]
  · simp [Meth.chunk, Meth.chunks', Meth.indent, Meth.dedent, Meth.commit, bind, Except.bind, yieldLines, ht]

theorem steps_yields {cf : Cf} : ∀ (ys : List (Str × Str)) (c : CC) (m : Meth), (∀ y ∈ ys, Bare y.2) → c.active = [m] → m.pending = [] → m.hasReturn = false →
    CC.steps cf (ys.flatMap fun y => [Cmd.strConst y.1, Cmd.simple c!"yield" y.2]) c =
      .ok { c with active := [{ m with generator := m.generator || !ys.isEmpty, chunks := m.chunks ++ ys.flatMap fun y => yieldLines cf m.lev y.1 }] }
  | [], c, m, _, ha, _, _ => by
    obtain ⟨active⟩ := c
    dsimp only at ha
    subst ha
    simp [CC.steps]
  | y :: ys, c, m, hy, ha, hp, hr => by
    have e1 : CC.step cf (.strConst y.1) c = .ok { c with active := [m.text y.1] } := by
      simp only [CC.step, CC.top, CC.onTop, ha, bind, Except.bind]
    have e2 : CC.step cf (.simple c!"yield" y.2) { c with active := [m.text y.1] } = .ok { c with active := [{ m with generator := true, chunks := m.chunks ++ yieldLines cf m.lev y.1 }] } := by
      simp only [CC.step]
      unfold CC.simple
      rw [if_neg (by decide), if_neg (by decide), if_neg (by decide), if_pos rfl]
      simp only [CC.onTop, addYield_eq (hy y List.mem_cons_self) hp hr, bind, Except.bind]
    rw [List.flatMap_cons, List.cons_append, List.cons_append, List.nil_append, CC.steps, e1]
    show (CC.steps cf (_ :: _) _) = _
    rw [CC.steps, e2]
    refine (steps_yields ys { c with active := [{ m with generator := true, chunks := m.chunks ++ yieldLines cf m.lev y.1 }] } { m with generator := true, chunks := m.chunks ++ yieldLines cf m.lev y.1 } (fun z hz => hy z (List.mem_cons_of_mem _ hz)) rfl hp hr).trans ?_
    simp

theorem pieces_yield {cf : Cf} (hpr : Printable cf.printable) (n : Nat) (t : Str) (rest : List (Nat × Str)) (buf : Str) (sk : Option Nat) (hsk : ∀ k, sk = some k → n ≤ k) :
    pieces sk (yieldLines cf n t ++ rest) buf = (buf ++ t) :: pieces (some n) rest [] := by
  have hs : ∀ s rest buf, pieces sk ((n, s) :: rest) buf = pieces none ((n, s) :: rest) buf := by
    intro s rest buf
    cases sk with
    | none => rfl
    | some k => have := hsk k rfl; simp [pieces, Nat.not_lt.2 this]
  have tail : ∀ (sk : Option Nat) buf, (∀ s rest buf, pieces sk ((n, s) :: rest) buf = pieces none ((n, s) :: rest) buf) → pieces sk ([(n, c!"if _dummyTrans:"), (n + 1, c!"yield trans.response().getvalue()"), (n + 1, c!"trans = DummyTransaction()"), (n + 1, c!"write = trans.response().write"),
     (n, c!"else:"), (n + 1, c!"raise TypeError(\"This method cannot be called with a trans arg\")")] ++ rest) buf = buf :: pieces (some n) rest [] := by
    intro sk buf h
    rw [List.cons_append, h]
    simp [pieces]
  unfold yieldLines
  by_cases ht : t = []
  · subst ht
    rw [if_pos rfl, List.nil_append, tail sk buf hs, List.append_nil]
  · rw [if_neg ht, List.append_assoc, List.singleton_append, hs]
    have w : pieces none ((n, c!"write(" ++ StrConst.literal cf.printable t ++ c!")") :: ([(n, c!"if _dummyTrans:"), (n + 1, c!"yield trans.response().getvalue()"), (n + 1, c!"trans = DummyTransaction()"), (n + 1, c!"write = trans.response().write"),
     (n, c!"else:"), (n + 1, c!"raise TypeError(\"This method cannot be called with a trans arg\")")] ++ rest)) buf = pieces none ([(n, c!"if _dummyTrans:"), (n + 1, c!"yield trans.response().getvalue()"), (n + 1, c!"trans = DummyTransaction()"), (n + 1, c!"write = trans.response().write"),
     (n, c!"else:"), (n + 1, c!"raise TypeError(\"This method cannot be called with a trans arg\")")] ++ rest) (buf ++ t) := by
      have q : stripPrefix? c!"write(" (c!"write(" ++ StrConst.literal cf.printable t ++ c!")") = some (StrConst.literal cf.printable t ++ c!")") := by
        rw [List.append_assoc]; exact EndToEnd.strip_hit _ _
      have h1 : ∀ x : Str, x.take 6 ≠ c!"write(" → c!"write(" ++ StrConst.literal cf.printable t ++ c!")" ≠ x := by
        intro x hx h
        apply hx
        rw [← h]; rfl
      rw [pieces]
      simp only [Bool.false_eq_true, if_false]
      rw [if_neg (h1 _ (by decide)), if_neg (h1 _ (by decide)), if_neg (h1 _ (by decide)), if_neg (h1 _ (by decide)), if_neg (h1 _ (by decide)), q]
      simp only [StrConst.C24_literal_evaluates_to_text cf.printable hpr t c!")"]
    rw [w]
    exact tail none _ fun _ _ _ => rfl

theorem pieces_yields {cf : Cf} (hpr : Printable cf.printable) (n : Nat) : ∀ (ys : List (Str × Str)) (sk : Option Nat), (∀ k, sk = some k → n ≤ k) → ∀ z : Str,
    pieces sk ((ys.flatMap fun y => yieldLines cf n y.1) ++ if z = [] then [] else [(n, c!"write(" ++ StrConst.literal cf.printable z ++ c!")")]) [] = ys.map Prod.fst
  | [], sk, hsk, z => by
    by_cases hz : z = []
    · simp [hz, pieces]
    · have q : stripPrefix? c!"write(" (c!"write(" ++ StrConst.literal cf.printable z ++ c!")") = some (StrConst.literal cf.printable z ++ c!")") := by
        rw [List.append_assoc]; exact EndToEnd.strip_hit _ _
      have h1 : ∀ x : Str, x.take 6 ≠ c!"write(" → c!"write(" ++ StrConst.literal cf.printable z ++ c!")" ≠ x := by
        intro x hx h
        apply hx
        rw [← h]; rfl
      have hs : ∀ s rest buf, pieces sk ((n, s) :: rest) buf = pieces none ((n, s) :: rest) buf := by
        intro s rest buf
        cases sk with
        | none => rfl
        | some k => have := hsk k rfl; simp [pieces, Nat.not_lt.2 this]
      rw [if_neg hz, List.flatMap_nil, List.nil_append, hs, pieces]
      simp only [Bool.false_eq_true, if_false]
      rw [if_neg (h1 _ (by decide)), if_neg (h1 _ (by decide)), if_neg (h1 _ (by decide)), if_neg (h1 _ (by decide)), if_neg (h1 _ (by decide)), q]
      simp only [StrConst.C24_literal_evaluates_to_text cf.printable hpr z c!")", pieces, List.map_nil]
  | y :: ys, sk, hsk, z => by
    rw [List.flatMap_cons, List.append_assoc, pieces_yield hpr n y.1 _ [] sk hsk, pieces_yields hpr n ys (some n) (by rintro k ⟨⟩; exact Nat.le_refl _) z]
    rfl

theorem sealed_generator {cf : Cf} (hu : EndToEnd.Usual cf) {m : Meth} (h1 : m.name = c!"respond") (h2 : m.args = [(c!"self", none)]) (h3 : m.decorators = [])
    (h4 : m.generator = true) : (m.sealed cf).chunks = EndToEnd.prologue cf.initLev ++ m.chunks := by
  have k1 : Meth.kwargsName [(c!"self", none)] = none := by decide +kernel
  have k2 : Meth.hasStar [(c!"self", none)] = false := by decide +kernel
  have k3 : m.usesKws cf = false := by simp [Meth.usesKws, h1]
  unfold Meth.sealed
  simp only [h2, k1, k2, k3, Option.isNone_none, Bool.and_false, Bool.false_eq_true, if_false, Bool.not_false, Option.isSome_none, Bool.or_self, Bool.and_self, if_true, h4]
  simp [Meth.setupLines, h3, hu.mapper, hu.filters, Meth.usesKws, h1, EndToEnd.prologue]

/-- C82, what a generator gives. A template of texts, each followed by `#yield` alone, and a last text: iterating over what its method returns gives each of the texts before a `#yield`, in order.
Missing from "all of the text": the text behind the last `#yield` is not among them (see the counterexample). -/
theorem C82_pieces_partial (cf : Cf) (hu : EndToEnd.Usual cf) (hpr : Printable cf.printable) (ys : List (Str × Str)) (hne : ys ≠ []) (hy : ∀ y ∈ ys, Bare y.2) (z : Str) :
    ∃ cc m body, CC.compile cf ((ys.flatMap fun y => [Cmd.strConst y.1, Cmd.simple c!"yield" y.2]) ++ [Cmd.strConst z]) = .ok cc ∧ cc.finished = [m] ∧
      m.chunks = EndToEnd.prologue cf.initLev ++ body ∧ pieces none body [] = ys.map Prod.fst := by
  let m0 : Meth := { uid := 0, name := cf.mainName, lev := cf.initLev }
  have hst : (CC.start cf).active = [m0] := rfl
  have e1 := steps_yields (cf := cf) ys (CC.start cf) m0 hy hst rfl rfl
  have hgen : (m0.generator || !ys.isEmpty) = true := by
    cases ys with
    | nil => exact absurd rfl hne
    | cons y ys => rfl
  rw [hgen] at e1
  let m1 : Meth := { m0 with generator := true, chunks := m0.chunks ++ ys.flatMap fun y => yieldLines cf m0.lev y.1 }
  have e2 : CC.steps cf ((ys.flatMap fun y => [Cmd.strConst y.1, Cmd.simple c!"yield" y.2]) ++ [Cmd.strConst z]) (CC.start cf) = .ok { CC.start cf with active := [m1.text z] } := by
    rw [steps_append, e1]
    rfl
  have hcom : (m1.text z).commit cf = { m1 with chunks := (ys.flatMap fun y => yieldLines cf cf.initLev y.1) ++ if z = [] then [] else [(cf.initLev, c!"write(" ++ StrConst.literal cf.printable z ++ c!")")] } := by
    unfold Meth.commit Meth.text
    by_cases hz : z = []
    · simp [hz, m1, m0]
    · simp [hz, m1, m0]
  have hfin : (m1.text z).finish cf = .ok (Meth.sealed cf { m1 with chunks := (ys.flatMap fun y => yieldLines cf cf.initLev y.1) ++ if z = [] then [] else [(cf.initLev, c!"write(" ++ StrConst.literal cf.printable z ++ c!")")] }) := by
    unfold Meth.finish
    rw [hcom]
    rfl
  refine ⟨{ CC.start cf with active := [], finished := [Meth.sealed cf { m1 with chunks := (ys.flatMap fun y => yieldLines cf cf.initLev y.1) ++ if z = [] then [] else [(cf.initLev, c!"write(" ++ StrConst.literal cf.printable z ++ c!")")] }] },
    _, _, ?_, rfl, sealed_generator hu (m := { m1 with chunks := (ys.flatMap fun y => yieldLines cf cf.initLev y.1) ++ if z = [] then [] else [(cf.initLev, c!"write(" ++ StrConst.literal cf.printable z ++ c!")")] }) hu.main rfl rfl rfl,
    pieces_yields hpr cf.initLev ys none (by simp) z⟩
  unfold CC.compile
  rw [e2]
  show CC.finishAll cf [m1.text z] _ = _
  unfold CC.finishAll CC.swallow
  rw [hfin]
  rfl

/-! ### Examples -/

example : outlines c!"respond" [.decorator c!"@a", .decorator c!"@b", .startMethod c!"f" [], .startMethod c!"g" [], .simple c!"yield" c!"yield", .closeDef, .simple c!"return" c!"return 1", .closeDef, .strConst c!"x"] =
    [{ name := c!"g", yields := true }, { name := c!"f", decorators := [c!"@a", c!"@b"], returns := true }, { name := c!"respond" }] := by decide

/-- The compiler with these directives. -/
def demoOutline : List Cmd := [.decorator c!"@a", .decorator c!"@b", .startMethod c!"f" [], .startMethod c!"g" [], .simple c!"yield" c!"yield", .closeDef, .simple c!"return" c!"return 1", .closeDef, .strConst c!"x"]

example : (match CC.compile demoCf demoOutline with | .ok cc => cc.finished.map (fun m => (m.name, m.decorators)) | .error _ => []) =
    [(c!"g", []), (c!"f", [c!"@a", c!"@b"]), (c!"respond", [])] := by decide +kernel
example (cc : CC) (h : CC.compile demoCf demoOutline = .ok cc) := C82_methods demoCf demoOutline cc h
example (cc : CC) (h : CC.compile demoCf demoOutline = .ok cc) := C82_names demoCf demoOutline (by unfold demoOutline; simp [Renames]) cc h
example (cc : CC) (h : CC.compile demoCf demoOutline = .ok cc) := C82_return_or_yield demoCf demoOutline cc h
example : (match CC.compile demoCf [.simple c!"yield" c!"yield", .simple c!"return" c!"return 1"] with | .error .assertion => true | _ => false) = true := by decide +kernel

example := C82_pieces_partial demoCf EndToEnd.demo_usual ⟨fun c h1 h2 => by simp [demoCf, h1, h2], fun c h => by simp [demoCf]; omega⟩
  [(c!"a", c!"yield"), (c!"b", c!"yield ")] (by simp) (by
    simp only [List.mem_cons, List.not_mem_nil, or_false]
    rintro y (rfl | rfl)
    · exact ⟨[], [], rfl, by simp, by simp⟩
    · exact ⟨[], c!" ", rfl, by simp, by decide +kernel⟩) c!"c"

/-- The lines of the main method behind the first nine. -/
def demoLines (cmds : List Cmd) : List (Nat × Str) :=
  match CC.compile demoCf cmds with
  | .ok cc => match cc.finished.getLast? with
    | some m => m.chunks.drop 9
    | none => []
  | .error _ => []

/-- The text behind the last `#yield` is lost: of `a#yield#b` only `a` is given. -/
theorem C82_rest_lost_counterexample : pieces none (demoLines [.strConst c!"a", .simple c!"yield" c!"yield", .strConst c!"b"]) [] = [c!"a"] ∧
    (2, c!"write('''b''')") ∈ demoLines [.strConst c!"a", .simple c!"yield" c!"yield", .strConst c!"b"] := by
  decide +kernel

end Cheetah.Driver
