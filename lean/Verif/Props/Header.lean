import Verif.Props.EndToEnd
import Verif.Props.SourceTop
/-
Templates with directives at their top, from the source to the class: `#extends`, `#implements`, `#attr`, `#import`, `#from`,
`#encoding` and `#shBang`, then a document.
-/
namespace Cheetah.EndToEnd
open Driver Parser Compile

/-! ### Specification -/

/-- The name of the method that the template's text is compiled into: the last of `#extends` (`sub`) and `#implements` says it. -/
def mainOf (sub : Str) : Str → List Top → Str
  | n, [] => n
  | _, .extends_ _ :: ts => mainOf sub sub ts
  | _, .implements_ n :: ts => mainOf sub n ts
  | n, _ :: ts => mainOf sub n ts

/-- The assignments of the `#attr` directives, in order. -/
def attrsOf (ts : List Top) : List Str :=
  ts.filterMap fun
    | .attr v e => some (v ++ c!" = " ++ e.py)
    | _ => none

/-- The statements of the import directives, in order. -/
def importsOf (ts : List Top) : List Str :=
  ts.filterMap fun
    | .import_ e => some (c!"import " ++ e.py)
    | .from_ e => some (c!"from " ++ e.py)
    | _ => none

/-- The last encoding, else `e`. -/
def encodingOf : Str → List Top → Str
  | e, [] => e
  | _, .encoding t :: ts => encodingOf t ts
  | e, _ :: ts => encodingOf e ts

/-- The last first line, else `s`. -/
def shBangOf : Str → List Top → Str
  | s, [] => s
  | _, .shBang t :: ts => shBangOf t ts
  | s, _ :: ts => shBangOf s ts

/-- A directive that describes the class and writes nothing; the expressions of attributes look up no template variables. -/
def Describes : Top → Prop
  | .attr v e => containsStr c!"VFN(" (v ++ c!" = " ++ e.py) = false ∧ containsStr c!"VFFSL(" (v ++ c!" = " ++ e.py) = false
  | .transform _ | .errorCatcher _ | .super => False
  | _ => True

/-- The same, other than `#extends`. -/
def Quiet (t : Top) : Prop := Describes t ∧ ∀ kss, t ≠ .extends_ kss

/-- The method with the name `n` does what the document says. -/
def MainDoes (cf : Cf) (n : Str) (m : Meth) (d : Doc) : Prop :=
  m.name = n ∧ ∃ body, DoesWhat cf body d ∧
    if n = c!"respond" then m.args = [(c!"self", none), (c!"trans", some c!"None")] ∧ m.chunks = prologue cf.initLev ++ body
    else m.args = [(c!"self", none), (c!"**KWS", none)] ∧ m.chunks = (cf.initLev, kwsLine) :: prologue cf.initLev ++ body

/-- The method has a name, no decorators, and its lines are indented. -/
structure Settled (cf : Cf) (m : Meth) : Prop where
  word : Word m.name
  plain : m.decorators = []
  deep : ∀ p ∈ m.chunks, cf.initLev ≤ p.1

/-! ### The commands of the directives -/

/-- The main method before anything is written. -/
def main0 (cf : Cf) (n : Str) : Meth := { uid := 0, name := n, lev := cf.initLev }

/-- Nothing is written yet. -/
structure Fresh (cf : Cf) (c : CC) : Prop where
  active : c.active = [main0 cf c.mainName]
  finished : c.finished = []
  index : c.index = [(c.mainName, 0)]

theorem fresh_start (cf : Cf) : Fresh cf (CC.start cf) := ⟨rfl, rfl, rfl⟩

theorem fresh_ws {cf : Cf} {c : CC} (hf : Fresh cf c) : CC.step cf .handleWS c = .ok c := by
  show c.top Meth.handleWS = .ok c
  unfold CC.top CC.onTop
  rw [hf.active]
  show Except.ok { c with active := [main0 cf c.mainName] } = _
  rw [← hf.active]

/-- What naming the main method leaves. -/
def renamed (cf : Cf) (c : CC) (n : Str) : CC := { c with active := [main0 cf n], index := [(n, 0)], mainName := n }

theorem Fresh.renamed {cf : Cf} {c : CC} (hf : Fresh cf c) (n : Str) : Fresh cf (renamed cf c n) := ⟨rfl, hf.finished, rfl⟩

theorem fresh_rename {cf : Cf} {c : CC} (hf : Fresh cf c) (n : Str) : c.setMainName n = .ok (renamed cf c n) := by
  unfold CC.setMainName renamed
  split
  · rename_i h
    subst h
    rw [← hf.active, ← hf.index]
  · rename_i h
    rw [hf.index]
    have h1 : Dict.get [(c.mainName, 0)] c.mainName = some 0 := by simp [Dict.get]
    rw [h1]
    have h2 : Dict.del (Dict.set [(c.mainName, 0)] n 0) c.mainName = [(n, 0)] := by
      simp [Dict.set, Dict.del, Ne.symm h, h]
    simp only [CC.mapUid, hf.active, hf.finished, h2, List.map_cons, List.map_nil]
    rw [hf.index, h2]
    rfl

theorem fresh_args {cf : Cf} {c : CC} (hf : Fresh cf c) : c.setMainArgs [] = .ok c := by
  unfold CC.setMainArgs
  have h1 : Dict.get c.index c.mainName = some 0 := by rw [hf.index]; simp [Dict.get]
  rw [h1]
  show Except.ok (c.mapUid 0 _) = _
  unfold CC.mapUid
  rw [hf.active, hf.finished]
  show Except.ok { c with active := [main0 cf c.mainName], finished := [] } = _
  rw [← hf.active, ← hf.finished]

/-- What a quiet directive leaves. -/
def headed (cf : Cf) (c : CC) (ts : List Top) (imps : List Imp) : CC :=
  { renamed cf c (mainOf cf.mainForSub c.mainName ts) with
    attribs := c.attribs ++ attrsOf ts
    imports := c.imports ++ importsOf ts
    imported := c.imported ++ imps.flatMap Imp.given
    shBang := shBangOf c.shBang ts
    encoding := encodingOf c.encoding ts }

theorem Fresh.headed {cf : Cf} {c : CC} (hf : Fresh cf c) (ts : List Top) (imps : List Imp) : Fresh cf (headed cf c ts imps) := ⟨rfl, hf.finished, rfl⟩

theorem Fresh.self {cf : Cf} {c : CC} (hf : Fresh cf c) : EndToEnd.renamed cf c c.mainName = c := by
  unfold EndToEnd.renamed
  rw [← hf.active, ← hf.index]

theorem quiet_steps {cf : Cf} (hl : cf.legacyImports = true) : ∀ (ts : List Top) (imps : List Imp) (c : CC), Fresh cf c → (∀ t ∈ ts, Quiet t) →
    (∀ i ∈ imps, i.Good) → importsOf ts = imps.map Imp.text → CC.steps cf (ts.flatMap Top.cmds) c = .ok (headed cf c ts imps)
  | [], imps, c, hf, _, _, hi => by
    have : imps = [] := by cases imps with | nil => rfl | cons => cases hi
    subst this
    rw [List.flatMap_nil, CC.steps]
    unfold headed
    simp only [mainOf, attrsOf, importsOf, encodingOf, shBangOf, List.filterMap_nil, List.flatMap_nil, List.append_nil]
    rw [hf.self]
  | t :: ts, imps, c, hf, hq, hg, hi => by
    have hq' : ∀ u ∈ ts, Quiet u := fun u hu => hq u (List.mem_cons_of_mem _ hu)
    have ht := hq t (by simp)
    rw [List.flatMap_cons, Driver.steps_append]
    have imp : ∀ (n : Str) (e : Str), n = c!"import" ∨ n = c!"from" → importsOf (t :: ts) = e :: importsOf ts →
        t.cmds = [.handleWS, .simple n e] → mainOf cf.mainForSub c.mainName (t :: ts) = mainOf cf.mainForSub c.mainName ts → attrsOf (t :: ts) = attrsOf ts →
        shBangOf c.shBang (t :: ts) = shBangOf c.shBang ts → encodingOf c.encoding (t :: ts) = encodingOf c.encoding ts →
        (CC.steps cf t.cmds c >>= CC.steps cf (ts.flatMap Top.cmds)) = .ok (headed cf c (t :: ts) imps) := by
      intro n e hn h1 h2 h3 h4 h5 h6
      rw [h1] at hi
      cases imps with
      | nil => cases hi
      | cons i is =>
        rw [List.map_cons] at hi
        injection hi with e1 e2
        have hs : CC.steps cf [.handleWS, .simple n e] c = .ok { c with imports := c.imports ++ [e], imported := c.imported ++ i.given } := by
          simp only [CC.steps, fresh_ws hf, bind, Except.bind]
          have : CC.step cf (.simple n e) c = c.import_ cf e := by rcases hn with rfl | rfl <;> rfl
          rw [this, e1, import_good_imp hl (hg i (by simp))]
        rw [h2, hs]
        show CC.steps cf _ _ = _
        refine (quiet_steps hl ts is { c with imports := c.imports ++ [e], imported := c.imported ++ i.given } ⟨hf.active, hf.finished, hf.index⟩ hq' (fun j hj => hg j (List.mem_cons_of_mem _ hj)) e2).trans ?_
        unfold headed renamed
        simp [h1, h3, h4, h5, h6]
    cases t with
    | extends_ kss => exact absurd rfl (ht.2 kss)
    | transform n => exact ht.1.elim
    | errorCatcher n => exact ht.1.elim
    | super => exact ht.1.elim
    | import_ e => exact imp c!"import" _ (.inl rfl) rfl rfl rfl rfl rfl rfl
    | from_ e => exact imp c!"from" _ (.inr rfl) rfl rfl rfl rfl rfl rfl
    | implements_ n =>
      have hs : CC.steps cf (Top.cmds (.implements_ n)) c = .ok (renamed cf c n) := by
        simp only [Top.cmds, CC.steps, CC.step, bind, Except.bind, fresh_rename hf, fresh_args (hf.renamed n), fresh_ws (hf.renamed n)]
        have := fresh_ws (hf.renamed n)
        rw [CC.step] at this
        rw [this]
      rw [hs]
      show CC.steps cf _ _ = _
      rw [quiet_steps hl ts imps _ (hf.renamed n) hq' hg hi]
      rfl
    | attr v e =>
      have hs : CC.steps cf (Top.cmds (.attr v e)) c = .ok { c with attribs := c.attribs ++ [v ++ c!" = " ++ e.py] } := by
        have e1 : v ++ c!" =" ++ (c!" " ++ e.py) = v ++ c!" = " ++ e.py := by simp
        have e2 : CC.step cf (.attr v (c!" " ++ e.py)) c = .ok { c with attribs := c.attribs ++ [v ++ c!" = " ++ e.py] } := by
          rw [CC.step, e1, ht.1.1, ht.1.2]; rfl
        have e3 := fresh_ws (cf := cf) (c := { c with attribs := c.attribs ++ [v ++ c!" = " ++ e.py] }) ⟨hf.active, hf.finished, hf.index⟩
        simp only [Top.cmds, CC.steps, bind, Except.bind, e2, e3]
      rw [hs]
      show CC.steps cf _ _ = _
      refine (quiet_steps hl ts imps { c with attribs := c.attribs ++ [v ++ c!" = " ++ e.py] } ⟨hf.active, hf.finished, hf.index⟩ hq' hg hi).trans ?_
      unfold headed renamed
      simp [mainOf, attrsOf, importsOf, encodingOf, shBangOf]
    | encoding t =>
      show CC.steps cf (ts.flatMap Top.cmds) { c with encoding := t } = _
      refine (quiet_steps hl ts imps { c with encoding := t } ⟨hf.active, hf.finished, hf.index⟩ hq' hg hi).trans ?_
      rfl
    | shBang t =>
      show CC.steps cf (ts.flatMap Top.cmds) { c with shBang := t } = _
      refine (quiet_steps hl ts imps { c with shBang := t } ⟨hf.active, hf.finished, hf.index⟩ hq' hg hi).trans ?_
      rfl

/-- Only the base class and the imports change. -/
def SameBut (c c' : CC) : Prop := ∃ b i j, c' = { c with base := b, imports := i, imported := j }

theorem importClass_same {cf : Cf} (hl : cf.legacyImports = true) {c c' : CC} {m k : Str} (h : c.importClass cf m k = .ok c') : SameBut c c' := by
  unfold CC.importClass at h
  simp only [bind, Except.bind] at h
  split at h
  · cases h
  · rename_i d hd
    have := import_legacy hl hd
    subst this
    unfold CC.addImported at h
    simp only [hl, if_true] at h
    split at h <;> cases h <;> exact ⟨_, _, _, rfl⟩

theorem oneBase_same {cf : Cf} (hl : cf.legacyImports = true) {c c' : CC} {k b : Str} (h : c.oneBase cf k = .ok (b, c')) : SameBut c c' := by
  unfold CC.oneBase at h
  split at h
  · cases h; exact ⟨_, _, _, rfl⟩
  · split at h
    · cases h; exact ⟨_, _, _, rfl⟩
    · simp only [bind, Except.bind] at h
      split at h
      · cases h
      · rename_i hd
        cases h
        exact importClass_same hl hd
  · split at h
    · cases h; exact ⟨_, _, _, rfl⟩
    · simp only [bind, Except.bind] at h
      split at h
      · cases h
      · rename_i hd
        cases h
        exact importClass_same hl hd

theorem bases_same {cf : Cf} (hl : cf.legacyImports = true) : ∀ (ks : List Str) {c c' : CC} {bs : List Str}, c.bases cf ks = .ok (bs, c') → SameBut c c'
  | [], c, c', bs, h => by cases h; exact ⟨_, _, _, rfl⟩
  | k :: ks, c, c', bs, h => by
    rw [CC.bases] at h
    simp only [bind, Except.bind] at h
    split at h
    · cases h
    · rename_i v hv
      obtain ⟨b, d⟩ := v
      simp only at h
      split at h
      · cases h
      · rename_i w hw
        obtain ⟨bs', d'⟩ := w
        cases h
        obtain ⟨_, _, _, rfl⟩ := oneBase_same hl hv
        obtain ⟨_, _, _, rfl⟩ := bases_same hl ks hw
        exact ⟨_, _, _, rfl⟩

theorem setBase_same {cf : Cf} (hl : cf.legacyImports = true) {c c' : CC} {e : Str} (h : c.setBase cf e = .ok c') : SameBut c c' := by
  unfold CC.setBase at h
  split at h
  · cases h; exact ⟨_, _, _, rfl⟩
  · simp only [bind, Except.bind] at h
    split at h
    · cases h
    · rename_i v hv
      obtain ⟨b, d⟩ := v
      cases h
      obtain ⟨_, _, _, rfl⟩ := bases_same hl _ hv
      exact ⟨_, _, _, rfl⟩

theorem importsIn_tops (ts : List Top) : importsIn (ts.flatMap Top.cmds) = importsOf ts := by
  induction ts with
  | nil => rfl
  | cons t ts ih =>
    rw [List.flatMap_cons]
    unfold importsIn at ih ⊢
    rw [List.filterMap_append, ih]
    cases t <;> simp [Top.cmds, importsOf]

theorem quiet_no_extends {ts : List Top} (h : ∀ t ∈ ts, Quiet t) (e : Str) : Cmd.extends_ e ∉ ts.flatMap Top.cmds := by
  intro he
  obtain ⟨t, h1, h2⟩ := List.mem_flatMap.1 he
  have := (h t h1).2
  cases t <;> simp [Top.cmds] at h2
  exact this _ rfl

/-! ### From there on -/

theorem sealed_named {cf : Cf} (hu : Usual cf) {m : Meth} (h2 : m.args = [(c!"self", none)]) (h3 : m.decorators = []) (h4 : m.generator = false) (body : List (Nat × Str)) (hb : body = m.chunks ++ [(cf.initLev, Meth.stopLine)]) :
    (m.sealed cf).name = m.name ∧ if m.name = c!"respond" then (m.sealed cf).args = [(c!"self", none), (c!"trans", some c!"None")] ∧ (m.sealed cf).chunks = prologue cf.initLev ++ body
      else (m.sealed cf).args = [(c!"self", none), (c!"**KWS", none)] ∧ (m.sealed cf).chunks = (cf.initLev, kwsLine) :: prologue cf.initLev ++ body := by
  subst hb
  split
  · rename_i h
    obtain ⟨a, b, c⟩ := sealed_main hu h h2 h3 h4
    exact ⟨a.trans h.symm, b, c⟩
  · rename_i h
    obtain ⟨a, b, c⟩ := sealed_def hu (as := []) h h2 h3 h4 (by simp)
    exact ⟨a, b, c⟩

variable {L : Lang}

theorem deep_of_read {rd : Reading L} {b : Nat} : ∀ (ls : List (Nat × Str)) (k : Nat), (∀ q ∈ readFrom rd k ls, b ≤ q.1) → ∀ p ∈ ls.drop k, b ≤ p.1
  | [], k, _ => by simp
  | _ :: rest, k + 1, h => by
    rw [readFrom] at h
    exact deep_of_read rest k h
  | (n, l) :: rest, 0, h => by
    rw [readFrom] at h
    cases hc : chosen n l rest with
    | none =>
      rw [hc] at h
      have h2 := deep_of_read rest 0 (fun q hq => h q (List.mem_cons_of_mem _ hq))
      intro p hp
      rcases List.mem_cons.1 hp with rfl | hp
      · exact h _ List.mem_cons_self
      · exact h2 p hp
    | some x =>
      rw [hc] at h
      have h2 := deep_of_read rest 4 (fun q hq => h q (List.mem_cons_of_mem _ hq))
      have hn : b ≤ n := h _ List.mem_cons_self
      have ht : rest.take 4 = choice n x := by
        unfold chosen at hc
        split at hc
        · simp only at hc
          split at hc
          · rename_i hh
            cases hc
            exact hh.2
          · cases hc
        · cases hc
      intro p hp
      rcases List.mem_cons.1 hp with rfl | hp
      · exact hn
      · rw [← List.take_append_drop 4 rest] at hp
        rcases List.mem_append.1 hp with hp | hp
        · rw [ht] at hp
          simp only [choice, List.mem_cons, List.not_mem_nil, or_false] at hp
          rcases hp with rfl | rfl | rfl | rfl <;> simp <;> omega
        · exact h2 p hp

mutual
theorem render_deep (n : Nat) : ∀ (B : PBlock L), ∀ q ∈ render n B, n ≤ q.1
  | .nil => by simp [render]
  | .cons s B => by
    intro q hq
    rw [render] at hq
    rcases List.mem_append.1 hq with hq | hq
    · exact renderStmt_deep n s q hq
    · exact render_deep n B q hq
theorem renderStmt_deep (n : Nat) : ∀ (s : Compile.PStmt L), ∀ q ∈ renderStmt n s, n ≤ q.1
  | .simple s => by simp [renderStmt]
  | .compound h B t => by
    intro q hq
    rw [renderStmt] at hq
    rcases List.mem_cons.1 hq with rfl | hq
    · exact Nat.le_refl _
    · rcases List.mem_append.1 hq with hq | hq
      · exact Nat.le_trans (Nat.le_succ n) (render_deep (n + 1) B q hq)
      · exact renderTail_deep n t q hq
theorem renderTail_deep (n : Nat) : ∀ (t : PTail L), ∀ q ∈ renderTail n t, n ≤ q.1
  | .nil => by simp [renderTail]
  | .cons h B t => by
    intro q hq
    rw [renderTail] at hq
    rcases List.mem_cons.1 hq with rfl | hq
    · exact Nat.le_refl _
    · rcases List.mem_append.1 hq with hq | hq
      · exact Nat.le_trans (Nat.le_succ n) (render_deep (n + 1) B q hq)
      · exact renderTail_deep n t q hq
  | .notFound t => by
    intro q hq
    rw [renderTail] at hq
    rcases List.mem_cons.1 hq with rfl | hq
    · exact Nat.le_refl _
    · exact renderTail_deep n t q hq
end

theorem deep_of_reads {rd : Reading L} {n : Nat} {X : List (Nat × Str)} {B : PBlock L} (h : Reads rd X (render n B)) : ∀ p ∈ X, n ≤ p.1 := by
  have h1 := h []
  rw [List.append_nil, show readLines rd [] = [] from rfl, List.append_nil] at h1
  exact deep_of_read X 0 (fun q hq => render_deep n B q (by rw [← h1]; exact hq))

theorem prologue_deep (n : Nat) : ∀ p ∈ prologue n, n ≤ p.1 := by
  intro p hp
  simp only [prologue, List.mem_cons, List.not_mem_nil, or_false] at hp
  rcases hp with rfl | rfl | rfl | rfl | rfl | rfl | rfl | rfl | rfl <;> simp

theorem forall₂_left {α β : Type} {R : α → β → Prop} {a : List α} {b : List β} (h : List.Forall₂ R a b) : ∀ x ∈ a, ∃ y ∈ b, R x y := by
  induction h with
  | nil => simp
  | cons h1 _ ih =>
    intro x hx
    rcases List.mem_cons.1 hx with rfl | hx
    · exact ⟨_, List.mem_cons_self, h1⟩
    · obtain ⟨y, h2, h3⟩ := ih x hx
      exact ⟨y, List.mem_cons_of_mem _ h2, h3⟩

/-- The document after commands that have written nothing. -/
theorem compiled_after {cf : Cf} (hu : Usual cf) (hpr : Printable cf.printable) {tok : Str → Option Nat}
    (d : Doc) (hok : d.Ok tok true none) (hr : Regular cf d) {pre : List Cmd} {c : CC} (hpre : CC.steps cf pre (CC.start cf) = .ok c) (hf : Fresh cf c)
    (hdec : c.decorators = []) (hdr : c.drawn = 0) (hw : Word c.mainName) :
    ∃ cc ms m, CC.compile cf (pre ++ d.cmds []) = .ok cc ∧ cc.finished = ms ++ [m] ∧ cc.active = [] ∧
      (cc.base = c.base ∧ cc.imports = c.imports ∧ cc.attribs = c.attribs ∧ cc.shBang = c.shBang ∧ cc.encoding = c.encoding) ∧
      MainDoes cf c.mainName m d ∧ List.Forall₂ (Implements cf) ms (defsOf d) ∧ (∀ x ∈ ms ++ [m], Settled cf x) ∧ cc.mainName = c.mainName := by
  let m0 : Meth := main0 cf c.mainName
  have runs := fun (L : Lang) (rd : Reading L) => doc_runs (rd := rd) hu hpr d hr.distinct ⟨_, _, _, hr.inside⟩ true none hok [] rfl m0 (fun _ => clean_nil) rfl
  have hst : c.active = [m0] := hf.active
  have hdrawn : IdsAt cf c.drawn (numbers d) := by rw [hdr]; exact hr.drawn
  let rd0 : Reading Compile.Toy := ⟨id, fun s => (s, []), id, fun _ => (), fun _ _ => (), id, id⟩
  obtain ⟨m', P, r, ⟨X, hm', _⟩, _, _⟩ := runs Compile.Toy rd0
  obtain ⟨F, ix, nx, e, g⟩ := r c [] hst hdec hdrawn
  obtain ⟨Y, hY, _⟩ := adds_commit (rd := rd0) (cf := cf) (m := m')
  have hname : (m'.commit cf).name = c.mainName := by rw [hY, hm']; rfl
  obtain ⟨s1, s2⟩ := sealed_named hu (m := m'.commit cf) (by rw [hY, hm']; rfl) (by rw [hY, hm']; rfl) (by rw [hY, hm']; rfl)
    (X ++ Y ++ [(cf.initLev, Meth.stopLine)]) (by rw [hY, hm']; simp [m0, main0])
  have all : ∀ (L : Lang) (rd : Reading L), List.Forall₂ (Good rd cf) F (defsOf d) ∧
      Reads rd (X ++ Y ++ [(cf.initLev, Meth.stopLine)]) (render cf.initLev (compMethod (stOf cf) (treeOf rd d))) := by
    intro L rd
    obtain ⟨m1, P1, r1, ⟨X1, hm1, x1⟩, f1, _⟩ := runs L rd
    obtain ⟨F1, ix1, nx1, e1, g1⟩ := r1 c [] hst hdec hdrawn
    obtain ⟨Y1, hY1, y1⟩ := adds_commit (rd := rd) (cf := cf) (m := m1)
    have same := e1.symm.trans e
    simp only [Except.ok.injEq, CC.mk.injEq, List.cons.injEq, List.append_cancel_left_eq] at same
    have em : m1 = m' := same.1.1
    have eF : F1 = F := same.2.1
    have eX : X1 = X := by
      have := hm1.symm.trans (em.trans hm')
      simp only [Meth.mk.injEq, m0, main0, List.nil_append] at this
      tauto
    have eP : P1 = P := by
      have := hm1.symm.trans (em.trans hm')
      simp only [Meth.mk.injEq, m0, main0, List.nil_append] at this
      tauto
    subst em eF
    have eY : Y1 = Y := by
      have := hY1.symm.trans hY
      simp only [Meth.mk.injEq, List.append_cancel_left_eq] at this
      tauto
    subst eX eP eY
    refine ⟨g1, ?_⟩
    have hl : m1.lev = cf.initLev := by rw [hm1]; rfl
    have hpend : m1.pending = P1 := by rw [hm1]
    rw [hl, hpend, f1] at y1
    have := (x1.append y1).append (.one (n := cf.initLev) (read_stop rd))
    convert this using 1
    simp only [compMethod, render_append, render_simples]
    simp [m0, main0]
  refine ⟨{ c with active := [], finished := c.finished ++ F ++ [(m'.commit cf).sealed cf], index := ix, next := nx, drawn := c.drawn + (numbers d).length }, F, (m'.commit cf).sealed cf,
    ?_, by simp [hf.finished], rfl, ⟨rfl, rfl, rfl, rfl, rfl⟩, ⟨s1.trans hname, X ++ Y ++ [(cf.initLev, Meth.stopLine)], ?_, ?_⟩, ?_, ?_, rfl⟩
  · unfold CC.compile
    rw [Driver.steps_append, hpre]
    simp only [bind, Except.bind]
    rw [e]
    simp only [CC.finishAll, CC.swallow, bind, Except.bind]
    rw [Driver.finish_ok (by rw [hm']; rfl) (by rw [hm']; rfl)]
  · intro L rd fuel env f
    exact lines_mean hpr (tree_fair rd hok hr.distinct hr.inside) (all L rd).2 fuel env f
  · rw [hname] at s2
    exact s2
  · have h2 := forall₂_all (ι := (L : Lang) × Reading L) (R := fun i m d => Good i.2 cf m d) ⟨_, rd0⟩ (fun i => (all i.1 i.2).1)
    refine h2.imp fun m x hx => ?_
    obtain ⟨n1, n2, _, B, n3, _⟩ := hx ⟨_, rd0⟩
    refine ⟨n1, n2, B, n3, fun L rd fuel env f => ?_⟩
    obtain ⟨_, _, ht, B', k3, k4⟩ := hx ⟨L, rd⟩
    have : B' = B := by
      have := k3.symm.trans n3
      simpa using this
    subst this
    exact lines_mean hpr ht.2.2 k4 fuel env f
  · have hdeep := deep_of_reads (all Compile.Toy rd0).2
    intro x hx
    rcases List.mem_append.1 hx with hx | hx
    · obtain ⟨df, _, hgood⟩ := forall₂_left (all Compile.Toy rd0).1 x hx
      obtain ⟨n1, _, ⟨n2, n3, _⟩, B, n4, n5⟩ := hgood
      refine ⟨by rw [n1]; exact n3, n2, ?_⟩
      intro p hp
      rw [n4, List.cons_append] at hp
      rcases List.mem_cons.1 hp with rfl | hp
      · exact Nat.le_refl _
      · rcases List.mem_append.1 hp with hp | hp
        · exact prologue_deep _ p hp
        · exact deep_of_reads n5 p hp
    · obtain rfl : x = (m'.commit cf).sealed cf := by simpa using hx
      refine ⟨by rw [s1, hname]; exact hw, by rw [sealed_decorators, hY, hm']; rfl, ?_⟩
      intro p hp
      have : p ∈ prologue cf.initLev ∨ p ∈ X ++ Y ++ [(cf.initLev, Meth.stopLine)] ∨ p = (cf.initLev, kwsLine) := by
        split at s2
        · rw [s2.2] at hp
          rcases List.mem_append.1 hp with hp | hp
          · exact .inl hp
          · exact .inr (.inl hp)
        · rw [s2.2, List.cons_append] at hp
          rcases List.mem_cons.1 hp with hp | hp
          · exact .inr (.inr hp)
          · rcases List.mem_append.1 hp with hp | hp
            · exact .inl hp
            · exact .inr (.inl hp)
      rcases this with h | h | rfl
      · exact prologue_deep _ p h
      · exact hdeep p h
      · exact Nat.le_refl _

/-! ### The properties -/

theorem encodingOf_append (ts us : List Top) (e : Str) : encodingOf e (ts ++ us) = encodingOf (encodingOf e ts) us := by
  induction ts generalizing e with
  | nil => rfl
  | cons t ts ih => cases t <;> exact ih _

theorem shBangOf_append (ts us : List Top) (e : Str) : shBangOf e (ts ++ us) = shBangOf (shBangOf e ts) us := by
  induction ts generalizing e with
  | nil => rfl
  | cons t ts ih => cases t <;> exact ih _

theorem mainOf_word {tok : Str → Option Nat} {sub : Str} (hs : Word sub) : ∀ (ts : List Top) (n : Str), (∀ t ∈ ts, t.Ok tok) → Word n → Word (mainOf sub n ts)
  | [], _, _, h => h
  | t :: ts, n, ht, h => by
    have h2 : ∀ u ∈ ts, u.Ok tok := fun u hu => ht u (List.mem_cons_of_mem _ hu)
    cases t <;> first
      | exact mainOf_word hs ts _ h2 h
      | exact mainOf_word hs ts _ h2 hs
      | exact mainOf_word hs ts _ h2 (ht _ List.mem_cons_self)

theorem mainOf_quiet {sub sub' : Str} : ∀ (ts : List Top) (n : Str), (∀ t ∈ ts, Quiet t) → mainOf sub n ts = mainOf sub' n ts
  | [], _, _ => rfl
  | t :: ts, n, ht => by
    have h2 : ∀ u ∈ ts, Quiet u := fun u hu => ht u (List.mem_cons_of_mem _ hu)
    cases t <;> first
      | exact mainOf_quiet ts _ h2
      | exact absurd rfl ((ht _ List.mem_cons_self).2 _)

theorem respond_word : Word c!"respond" := Parser.word_of_ascii _ _ _ rfl (by decide) (by decide)

/-- With more about the methods. -/
theorem header_compiled {h : Parser.Env} (hp : Tame h) (hx : h.exprExtends = false) {cf : Cf} (hu : Usual cf) (hpr : Printable cf.printable)
    (hl : cf.legacyImports = true) (ts : List Top) (hts : ∀ t ∈ ts, t.Ok h.tok ∧ Quiet t)
    (imps : List Imp) (hg : ∀ i ∈ imps, i.Good) (hi : importsOf ts = imps.map Imp.text)
    (d : Doc) (hok : d.Ok h.tok true none) (hr : Regular cf d) (hs : h.src = ts.flatMap Top.src ++ d.src) :
    ∃ cmds cc ms m, h.parse fullSt = .ok cmds ∧ CC.compile cf cmds = .ok cc ∧ cc.finished = ms ++ [m] ∧ cc.active = [] ∧
      cc.base = c!"Template" ∧ cc.imports = imps.map Imp.text ∧ cc.attribs = attrsOf ts ∧
      cc.encoding = encodingOf c!"ascii" ts ∧ cc.shBang = shBangOf c!"#!/usr/bin/env python" ts ∧
      MainDoes cf (mainOf cf.mainForSub c!"respond" ts) m d ∧ List.Forall₂ (Implements cf) ms (defsOf d) ∧ (∀ x ∈ ms ++ [m], Settled cf x) ∧
      cc.mainName = mainOf cf.mainForSub c!"respond" ts := by
  have hrun := quiet_steps hl ts imps _ (fresh_start cf) (fun t ht => (hts t ht).2) hg hi
  have hmain : (headed cf (CC.start cf) ts imps).mainName = mainOf cf.mainForSub c!"respond" ts := by
    show mainOf cf.mainForSub cf.mainName ts = _
    rw [hu.main]
  have hword : Word (mainOf cf.mainForSub c!"respond" ts) := by
    rw [mainOf_quiet (sub' := c!"respond") ts _ fun t ht => (hts t ht).2]
    exact mainOf_word respond_word ts _ (fun t ht => (hts t ht).1) respond_word
  obtain ⟨cc, ms, m, h1, h2, h3, ⟨k1, k2, k3, k4, k5⟩, h5, h6, h7, h8⟩ :=
    compiled_after hu hpr d hok hr hrun ((fresh_start cf).headed ts imps) rfl rfl (hmain ▸ hword)
  refine ⟨_, cc, ms, m, parse_top hp hx ts (fun t ht => (hts t ht).1) d hok hs, h1, h2, h3, k1, ?_, ?_, k5, k4, ?_, h6, h7, h8.trans hmain⟩
  · rw [k2, ← hi]; exact List.nil_append _
  · rw [k3]; exact List.nil_append _
  · rw [hmain] at h5
    exact h5

/-- With more about the methods. -/
theorem based_compiled {h : Parser.Env} (hp : Tame h) (hx : h.exprExtends = false) {cf : Cf} (hu : Usual cf) (hpr : Printable cf.printable)
    (hsub : Word cf.mainForSub) (hl : cf.legacyImports = true) (ha : cf.autoImport = true) (us : List Top) (kss : List (List Str)) (ts : List Top)
    (hus : ∀ t ∈ us, t.Ok h.tok ∧ Quiet t) (hts : ∀ t ∈ ts, t.Ok h.tok ∧ Quiet t)
    (imps imps' : List Imp) (hg : ∀ i ∈ imps, i.Good) (hg' : ∀ i ∈ imps', i.Good) (hi : importsOf us = imps.map Imp.text) (hi' : importsOf ts = imps'.map Imp.text)
    (hne : kss ≠ []) (hk : ∀ ks ∈ kss, Parts ks ∧ ks ≠ [c!"object"] ∧ ∀ k ∈ ks, Word k) (hun : AllUnseen (givenAtStart ++ imps.flatMap Imp.given) kss)
    (d : Doc) (hok : d.Ok h.tok true none) (hr : Regular cf d) (hs : h.src = (us ++ .extends_ kss :: ts).flatMap Top.src ++ d.src) :
    ∃ cmds cc ms m, h.parse fullSt = .ok cmds ∧ CC.compile cf cmds = .ok cc ∧ cc.finished = ms ++ [m] ∧ cc.active = [] ∧
      cc.base = joinStr c!", " (kss.map className) ∧
      cc.imports = (imps ++ addedImports (givenAtStart ++ imps.flatMap Imp.given) kss ++ imps').map Imp.text ∧
      (∀ ks ∈ kss, className ks ∈ boundAtStart ∨
        ∃ i ∈ imps ++ addedImports (givenAtStart ++ imps.flatMap Imp.given) kss, className ks ∈ i.binds) ∧
      cc.attribs = attrsOf (us ++ ts) ∧
      cc.encoding = encodingOf c!"ascii" (us ++ ts) ∧ cc.shBang = shBangOf c!"#!/usr/bin/env python" (us ++ ts) ∧
      MainDoes cf (mainOf cf.mainForSub cf.mainForSub ts) m d ∧ List.Forall₂ (Implements cf) ms (defsOf d) ∧ (∀ x ∈ ms ++ [m], Settled cf x) ∧
      cc.mainName = mainOf cf.mainForSub cf.mainForSub ts := by
  have hrun := quiet_steps hl us imps _ (fresh_start cf) (fun t ht => (hus t ht).2) hg hi
  have hf1 := (fresh_start cf).headed us imps
  obtain ⟨c', e1, e2, e3, e4⟩ := C72_extends_partial cf hl ha (us.flatMap Top.cmds) (quiet_no_extends fun t ht => (hus t ht).2) _ hrun imps hg
    ((importsIn_tops us).trans hi) kss hne (fun ks hks => ⟨(hk ks hks).1, (hk ks hks).2.1⟩) hun
  rw [Driver.steps_append, hrun] at e1
  have e1' : CC.setBase cf (joinStr c!", " (kss.map dotted)) (renamed cf (headed cf (CC.start cf) us imps) cf.mainForSub) = .ok c' := by
    rw [← e1]
    simp only [bind, Except.bind, CC.steps, CC.step, fresh_rename hf1]
    cases CC.setBase cf (joinStr c!", " (kss.map dotted)) (renamed cf (headed cf (CC.start cf) us imps) cf.mainForSub) <;> rfl
  obtain ⟨b, i, j, hc'⟩ := setBase_same hl e1'
  have hf2 : Fresh cf c' := by rw [hc']; exact ⟨rfl, rfl, rfl⟩
  have hrun2 := quiet_steps hl ts imps' c' hf2 (fun t ht => (hts t ht).2) hg' hi'
  have htot : CC.steps cf ((us ++ .extends_ kss :: ts).flatMap Top.cmds) (CC.start cf) = .ok (headed cf c' ts imps') := by
    rw [List.flatMap_append, List.flatMap_cons, Driver.steps_append, hrun]
    show CC.steps cf (([.extends_ (joinStr c!", " (kss.map dotted))] ++ [.handleWS]) ++ ts.flatMap Top.cmds) _ = _
    rw [Driver.steps_append, Driver.steps_append]
    have e1'' : CC.steps cf [.extends_ (joinStr c!", " (kss.map dotted))] (headed cf (CC.start cf) us imps) = .ok c' := e1
    rw [e1'']
    simp only [bind, Except.bind, CC.steps, fresh_ws hf2]
    exact hrun2
  have hmain : (headed cf c' ts imps').mainName = mainOf cf.mainForSub cf.mainForSub ts := by
    show mainOf cf.mainForSub c'.mainName ts = _
    rw [hc']; rfl
  obtain ⟨cc, ms, m, h1, h2, h3, ⟨k1, k2, k3, k4, k5⟩, h5, h6, h7, h8⟩ := compiled_after hu hpr d hok hr htot (hf2.headed ts imps')
    (by rw [hc']; rfl) (by rw [hc']; rfl) (hmain ▸ mainOf_word hsub ts _ (fun t ht => (hts t ht).1) hsub)
  refine ⟨_, cc, ms, m, parse_top hp hx _ ?_ d hok hs, h1, h2, h3, k1.trans e2, ?_, e4, ?_, ?_, ?_, ?_, h6, h7, h8.trans hmain⟩
  · intro t ht
    rcases List.mem_append.1 ht with ht | ht
    · exact (hus t ht).1
    · rcases List.mem_cons.1 ht with rfl | ht
      · exact ⟨hne, fun ks hks => ⟨(hk ks hks).1.1, (hk ks hks).2.2⟩⟩
      · exact (hts t ht).1
  · rw [k2]
    show c'.imports ++ importsOf ts = _
    rw [e3, hi']; simp
  · rw [k3]
    show c'.attribs ++ attrsOf ts = _
    rw [hc']
    show ([] ++ attrsOf us) ++ attrsOf ts = _
    unfold attrsOf
    rw [List.filterMap_append]; rfl
  · rw [k5, encodingOf_append]
    show encodingOf c'.encoding ts = _
    rw [hc']; rfl
  · rw [k4, shBangOf_append]
    show shBangOf c'.shBang ts = _
    rw [hc']; rfl
  · rw [hmain] at h5
    exact h5

/-- A template with directives at its top, none of them `#extends`: it is derived from `Template`. Its imports are those of the directives, its
attributes are assigned in their order, its encoding and its first line are the last that were given, and its text and definitions are
compiled into methods that do what they say, the text into the method that `#implements` names.

Not covered: directives at the top that write something (`#super`, `#transform`, `#errorCatcher`), arguments of `#implements`, and attributes
with template variables, which are refused. -/
theorem C72_header_partial {h : Parser.Env} (hp : Tame h) (hx : h.exprExtends = false) {cf : Cf} (hu : Usual cf) (hpr : Printable cf.printable)
    (hl : cf.legacyImports = true) (ts : List Top) (hts : ∀ t ∈ ts, t.Ok h.tok ∧ Quiet t)
    (imps : List Imp) (hg : ∀ i ∈ imps, i.Good) (hi : importsOf ts = imps.map Imp.text)
    (d : Doc) (hok : d.Ok h.tok true none) (hr : Regular cf d) (hs : h.src = ts.flatMap Top.src ++ d.src) :
    ∃ cmds cc ms m, h.parse fullSt = .ok cmds ∧ CC.compile cf cmds = .ok cc ∧ cc.finished = ms ++ [m] ∧ cc.active = [] ∧
      cc.base = c!"Template" ∧ cc.imports = imps.map Imp.text ∧ cc.attribs = attrsOf ts ∧
      cc.encoding = encodingOf c!"ascii" ts ∧ cc.shBang = shBangOf c!"#!/usr/bin/env python" ts ∧
      MainDoes cf (mainOf cf.mainForSub c!"respond" ts) m d ∧ List.Forall₂ (Implements cf) ms (defsOf d) := by
  obtain ⟨cmds, cc, ms, m, h1, h2, h3, h4, h5, h6, h7, h8, h9, h10, h11, _⟩ := header_compiled hp hx hu hpr hl ts hts imps hg hi d hok hr hs
  exact ⟨cmds, cc, ms, m, h1, h2, h3, h4, h5, h6, h7, h8, h9, h10, h11⟩

/-- A template with one `#extends` among the directives at its top: it is derived from the classes named there, in that order and under their own
names. Each is imported by the rule of the users' guide unless it is imported already; the other imports are those of the directives, in order,
those before `#extends` before those it adds. The template's text is compiled into the method `sub` for templates that are derived from
another (`writeBody`), or into the one that a later `#implements` names; the definitions become methods besides it. -/
theorem C72_template_with_base_partial {h : Parser.Env} (hp : Tame h) (hx : h.exprExtends = false) {cf : Cf} (hu : Usual cf) (hpr : Printable cf.printable)
    (hsub : Word cf.mainForSub) (hl : cf.legacyImports = true) (ha : cf.autoImport = true) (us : List Top) (kss : List (List Str)) (ts : List Top)
    (hus : ∀ t ∈ us, t.Ok h.tok ∧ Quiet t) (hts : ∀ t ∈ ts, t.Ok h.tok ∧ Quiet t)
    (imps imps' : List Imp) (hg : ∀ i ∈ imps, i.Good) (hg' : ∀ i ∈ imps', i.Good) (hi : importsOf us = imps.map Imp.text) (hi' : importsOf ts = imps'.map Imp.text)
    (hne : kss ≠ []) (hk : ∀ ks ∈ kss, Parts ks ∧ ks ≠ [c!"object"] ∧ ∀ k ∈ ks, Word k) (hun : AllUnseen (givenAtStart ++ imps.flatMap Imp.given) kss)
    (d : Doc) (hok : d.Ok h.tok true none) (hr : Regular cf d) (hs : h.src = (us ++ .extends_ kss :: ts).flatMap Top.src ++ d.src) :
    ∃ cmds cc ms m, h.parse fullSt = .ok cmds ∧ CC.compile cf cmds = .ok cc ∧ cc.finished = ms ++ [m] ∧ cc.active = [] ∧
      cc.base = joinStr c!", " (kss.map className) ∧
      cc.imports = (imps ++ addedImports (givenAtStart ++ imps.flatMap Imp.given) kss ++ imps').map Imp.text ∧
      (∀ ks ∈ kss, className ks ∈ boundAtStart ∨
        ∃ i ∈ imps ++ addedImports (givenAtStart ++ imps.flatMap Imp.given) kss, className ks ∈ i.binds) ∧
      cc.attribs = attrsOf (us ++ ts) ∧
      cc.encoding = encodingOf c!"ascii" (us ++ ts) ∧ cc.shBang = shBangOf c!"#!/usr/bin/env python" (us ++ ts) ∧
      MainDoes cf (mainOf cf.mainForSub cf.mainForSub ts) m d ∧ List.Forall₂ (Implements cf) ms (defsOf d) := by
  obtain ⟨cmds, cc, ms, m, h1, h2, h3, h4, h5, h6, h7, h8, h9, h10, h11, h12, _⟩ :=
    based_compiled hp hx hu hpr hsub hl ha us kss ts hus hts imps imps' hg hg' hi hi' hne hk hun d hok hr hs
  exact ⟨cmds, cc, ms, m, h1, h2, h3, h4, h5, h6, h7, h8, h9, h10, h11, h12⟩

/-! ### An example -/

/-- `from m import Page` -/
def demoFrom : Ex := .tok c!"m" (.sp (.tok c!"import" (.sp (.tok c!"Page" .nil))))

/-- The directives before `#extends`. -/
def demoUp : List Top := [.from_ demoFrom, .shBang c!"#!/usr/bin/python3", .attr c!"title" (.tok c!"None" .nil)]

/-- The directives behind it. -/
def demoDown : List Top := [.implements_ c!"show", .import_ (.tok c!"os" .nil), .encoding c!"utf-8"]

/-- The rest. -/
def demoRest : Doc := .place c!"Hello " false (.short (.plain c!"w")) (.done c!"\n")

/-- The classes. -/
def demoBases : List (List Str) := [[c!"Page"], [c!"site", c!"Main"]]

/-- The source. -/
def demoSrc : Str := (demoUp ++ .extends_ demoBases :: demoDown).flatMap Top.src ++ demoRest.src

example : demoSrc = c!"#from m import Page\n#shBang #!/usr/bin/python3\n#attr $title = None\n#extends Page, site.Main\n#implements show\n#import os\n#encoding utf-8\nHello $w\n" := rfl

theorem demo_word {s : Str} (h : (match s with | [] => false | c :: r => Parser.identStart c && r.all identChar) = true) : Word s := by
  cases s with
  | nil => cases h
  | cons c r =>
    simp at h
    exact ⟨c, r, rfl, h.1, h.2⟩

theorem demo_bare {s : Str} {z : Char} (hz : Stop z) (h : (match s with | [] => false | c :: r => Parser.identStart c && r.all identChar) = true) (h2 : s ∉ [c!"for", c!"then"])
    (h3 : ∀ c ∈ s, isSpace c = false ∧ c ≠ ':') : Tidy Parser.simpleTok z (.tok s .nil) where
  ok := ok_bare Parser.simpleTok_words hz (demo_word h) (by simpa using h2)
  head := by
    cases s with
    | nil => cases h
    | cons c r => exact ⟨c, r ++ [], rfl, (h3 c (by simp)).1⟩
  last := by
    intro c hc
    exact h3 c (by simpa [Ex.src] using List.mem_of_getLast? hc)
  noThen := by
    simp [Ex.keys]
    intro _ h
    subst h
    simp at h2

theorem demoUp_ok : ∀ t ∈ demoUp, t.Ok Parser.simpleTok ∧ Quiet t := by
  intro t ht
  simp only [demoUp, List.mem_cons, List.not_mem_nil, or_false] at ht
  rcases ht with rfl | rfl | rfl
  · refine ⟨⟨?_, ⟨'m', _, rfl, by decide +kernel⟩, ?_, by decide +kernel⟩, trivial, by simp⟩
    · refine ok_named Parser.simpleTok_words (demo_word (by decide)) (by decide) (ok_named Parser.simpleTok_words (demo_word (by decide)) (by decide)
        (ok_bare Parser.simpleTok_words (.inl rfl) (demo_word (by decide)) (by decide)))
    · intro c hc
      have : c = 'e' := by simpa [demoFrom, Ex.src] using hc.symm
      subst this
      decide +kernel
  · exact ⟨⟨⟨'#', _, rfl, by decide +kernel⟩, by decide +kernel, by unfold OneLine; decide⟩, trivial, by simp⟩
  · exact ⟨⟨demo_word (by decide), fun r => simpleTok_equals r, demo_bare (.inl rfl) (by decide) (by decide) (by decide +kernel)⟩, ⟨by decide, by decide⟩, by simp⟩

theorem demoDown_ok : ∀ t ∈ demoDown, t.Ok Parser.simpleTok ∧ Quiet t := by
  intro t ht
  simp only [demoDown, List.mem_cons, List.not_mem_nil, or_false] at ht
  rcases ht with rfl | rfl | rfl
  · exact ⟨demo_word (by decide), trivial, by simp⟩
  · exact ⟨demo_bare (.inl rfl) (by decide) (by decide) (by decide +kernel), trivial, by simp⟩
  · exact ⟨⟨⟨'u', _, rfl, by decide +kernel⟩, by decide +kernel, by unfold OneLine; decide⟩, trivial, by simp⟩

theorem demoRest_ok : demoRest.Ok Parser.simpleTok true none := by
  refine ⟨Verbatim.chars (by decide), ⟨.one _ (demo_word (by decide)), by decide, by decide, fun h => absurd h (by decide)⟩, ⟨rfl, rfl⟩, Verbatim.chars (by decide), by simp⟩

/-- The theorem applies to it, and says this. -/
example : ∃ cmds cc ms m, (Parser.demoEnv demoSrc).parse fullSt = .ok cmds ∧ CC.compile Driver.demoCf cmds = .ok cc ∧ cc.finished = ms ++ [m] ∧ cc.active = [] ∧
    cc.base = c!"Page, Main" ∧ cc.imports = [c!"from m import Page", c!"from site.Main import Main", c!"import os"] ∧
    cc.attribs = [c!"title = None"] ∧ cc.encoding = c!"utf-8" ∧ cc.shBang = c!"#!/usr/bin/python3" ∧ m.name = c!"show" := by
  obtain ⟨cmds, cc, ms, m, h1, h2, h3, h4, h5, h6, _, h7, h8, h9, h10, _⟩ := C72_template_with_base_partial (demo_tame demoSrc) rfl demo_usual
    ⟨fun c h1 h2 => by simp [Driver.demoCf, h1, h2], fun c h => by simp [Driver.demoCf]; omega⟩ (demo_word (by decide)) rfl rfl demoUp demoBases demoDown demoUp_ok demoDown_ok
    [.names [c!"m"] [⟨[c!"Page"], none⟩]] [.modules [⟨[c!"os"], none⟩]] (by simp [Imp.Good, Driver.Parts, PyName]) (by simp [Imp.Good, Driver.Parts, PyName]) rfl rfl
    (by decide) (by
      intro ks hks
      simp only [demoBases, List.mem_cons, List.not_mem_nil, or_false] at hks
      rcases hks with rfl | rfl
      · exact ⟨by simp [Driver.Parts, PyName], by decide, by simp; exact demo_word (by decide)⟩
      · refine ⟨by simp [Driver.Parts, PyName], by decide, ?_⟩
        simp
        exact ⟨demo_word (by decide), demo_word (by decide)⟩)
    (by
      refine ⟨?_, ?_, trivial⟩
      · intro h; simp at h
      · intro _ n h1 h2; obtain rfl | rfl : n = 1 ∨ n = 2 := (by simp at h2; omega)
        all_goals decide)
    demoRest demoRest_ok ⟨trivial, .nil, rfl⟩ rfl
  exact ⟨cmds, cc, ms, m, h1, h2, h3, h4, h5, h6, h7, h8, h9, h10.1⟩

/-- Without `#extends`. -/
example := C72_header_partial (demo_tame ((demoUp ++ demoDown).flatMap Top.src ++ demoRest.src)) rfl demo_usual
  ⟨fun c h1 h2 => by simp [Driver.demoCf, h1, h2], fun c h => by simp [Driver.demoCf]; omega⟩ rfl (demoUp ++ demoDown)
  (fun t ht => (List.mem_append.1 ht).elim (demoUp_ok t) (demoDown_ok t))
  [.names [c!"m"] [⟨[c!"Page"], none⟩], .modules [⟨[c!"os"], none⟩]] (by simp [Imp.Good, Driver.Parts, PyName]) rfl demoRest demoRest_ok ⟨trivial, .nil, rfl⟩ rfl

end Cheetah.EndToEnd
