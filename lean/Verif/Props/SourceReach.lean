import Verif.Props.SourceDefs
import Verif.Props.SourceWrap
/-
The commands that the parser gives for the sources of SourceTree: one step for each directive, then whole sources.
-/
namespace Cheetah.Parser
open Reader (EndsLine)

variable {x : Px}

/-! ### Whole sources -/

variable {h : Env}

theorem PS.emit_emit (s : PS) (c1 c2 : List Cmd) (p1 p2 : Nat) : (s.emit c1 p1).emit c2 p2 = s.emit (c1 ++ c2) p2 := by simp [PS.emit]

theorem reach_dir' (hp : Tame h) {a L b name : Str} {z : Char} {s s' : PS} {act : Act} (hs : h.src = a ++ '#' :: (L ++ z :: b)) (ha : NoBs a) (hL : ∃ c r, L = c :: r ∧ identStart c = true)
    (hn : directiveOf stdNames (L ++ z :: b) = some name) (hpos : s.pos = a.length) (hbp : s.bp = h.src.length) (hst : s.st = fullSt)
    (hact : (h.px h.src.length).directive h fullSt name a.length = .ok act) (hperf : ∀ n, h.perform (n + 1) s act = .ok s')
    (hs' : a.length < s'.pos) : Reaches h s s' := by
  obtain ⟨c, r, hc, hcs⟩ := hL
  obtain ⟨e1, e2⟩ := matchDirective_at (x := h.px h.src.length) hp.std (n := name) hs ha ⟨c, by rw [hc]; rfl, .inl ((identStart_iff c).1 hcs)⟩ (by rw [names_std hp.toPlain]; exact hn)
  have hlen : h.src.length = a.length + (L.length + (b.length + 1) + 1) := by
    have := congrArg List.length hs
    exact this.trans (by simp)
  intro k hk
  obtain ⟨k, rfl⟩ : ∃ j, k = j + 3 := ⟨k - 3, by omega⟩
  refine ⟨k + 2, by omega, ?_⟩
  rw [Env.loop, hbp, hpos, if_neg (by omega)]
  simp only [e2, bind, Except.bind, if_true]
  rw [Env.eatDirective, hbp, hpos, e1]
  simp only [hp.enabled, Bool.false_eq_true, if_false, hst, hact, bind, Except.bind, hperf]

variable {z : Char} {post : Str} {ws : List Cmd}

theorem reach_dir (hp : Tame h) {a L b name : Str} {s s' : PS} {act : Act} (o : DLine (h.px h.src.length) a L z b post ws) (hL : ∃ c r, L = c :: r ∧ identStart c = true)
    (hn : directiveOf stdNames (L ++ z :: b) = some name) (hpos : s.pos = a.length) (hbp : s.bp = h.src.length) (hst : s.st = fullSt)
    (hact : (h.px h.src.length).directive h fullSt name a.length = .ok act) (hperf : ∀ n, h.perform (n + 1) s act = .ok s')
    (hs' : s'.pos = (a ++ c!"#" ++ L ++ post).length) : Reaches h s s' :=
  reach_dir' hp o.src o.before hL hn hpos hbp hst hact hperf (by rw [hs']; simp)

theorem Close.stop {a b : Str} (h : Close a z b post ws) : Stop z := by
  rcases h with h | h | h
  · exact .inl h.1
  · exact .inr h.1
  · exact .inl h.1

theorem Clear.close {a : Str} (ha : Clear a) (b : Str) : Close a '\n' b c!"\n" [.handleWS] := .inl ⟨rfl, rfl, rfl, ha⟩

theorem IsDir.tag {a b : Str} (hb : IsDir b) (ha : NoBs a) : TagStart stdNames a b := by
  obtain ⟨c, r, name, rfl, h1, h2⟩ := hb
  exact .directive _ _ _ ha ⟨c, rfl, .inl ((identStart_iff c).1 h1)⟩ h2

theorem isDir_line {L n b : Str} (hL : ∃ c r, L = c :: r ∧ identStart c = true) (hn : directiveOf stdNames (L ++ z :: b) = some n) : IsDir ('#' :: (L ++ z :: b)) := by
  obtain ⟨c, r, rfl, hc⟩ := hL
  exact ⟨c, r ++ z :: b, n, rfl, hc, hn⟩

theorem Stm.facts (tok : Str → Option Nat) (s : Stm) (hz : Stop z) (hs : s.Ok tok z) (b : Str) : (∃ c r, s.line = c :: r ∧ identStart c = true) ∧ ∃ n, directiveOf stdNames (s.line ++ z :: b) = some n := by
  cases s with
  | ternary c a b => exact ⟨⟨'i', _, rfl, by decide⟩, c!"if", rfl⟩
  | set x op e => exact ⟨⟨'s', _, rfl, by decide⟩, c!"set", rfl⟩
  | setGlobal x op e => exact ⟨⟨'s', _, rfl, by decide⟩, c!"set", rfl⟩
  | include_ raw source e => exact ⟨⟨'i', _, rfl, by decide⟩, c!"include", rfl⟩
  | silent e => exact ⟨⟨'s', _, rfl, by decide⟩, c!"silent", rfl⟩
  | echo e => exact ⟨⟨'e', _, rfl, by decide⟩, c!"echo", rfl⟩
  | python n e =>
    have hn := hs.2.1
    simp only [List.mem_cons, List.not_mem_nil, or_false] at hn
    rcases hn with rfl | rfl | rfl
    · exact ⟨⟨'d', _, rfl, by decide⟩, c!"del", rfl⟩
    · exact ⟨⟨'a', _, rfl, by decide⟩, c!"assert", rfl⟩
    · exact ⟨⟨'r', _, rfl, by decide⟩, c!"raise", rfl⟩
  | pass_ => exact ⟨⟨'p', _, rfl, by decide⟩, c!"pass", by rcases hz with rfl | rfl <;> rfl⟩
  | break_ => exact ⟨⟨'b', _, rfl, by decide⟩, c!"break", by rcases hz with rfl | rfl <;> rfl⟩
  | continue_ => exact ⟨⟨'c', _, rfl, by decide⟩, c!"continue", by rcases hz with rfl | rfl <;> rfl⟩
  | stop => exact ⟨⟨'s', _, rfl, by decide⟩, c!"stop", by rcases hz with rfl | rfl <;> rfl⟩

theorem Head.facts (hd : Head) (hz : Stop z) (b : Str) : (∃ c r, hd.line = c :: r ∧ identStart c = true) ∧ directiveOf stdNames (hd.line ++ z :: b) = some hd.name := by
  cases hd with
  | if_ e => exact ⟨⟨'i', _, rfl, by decide⟩, rfl⟩
  | unless_ e => exact ⟨⟨'u', _, rfl, by decide⟩, rfl⟩
  | while_ e => exact ⟨⟨'w', _, rfl, by decide⟩, rfl⟩
  | repeat_ e => exact ⟨⟨'r', _, rfl, by decide⟩, rfl⟩
  | for_ x e => exact ⟨⟨'f', _, rfl, by decide⟩, rfl⟩
  | try_ => exact ⟨⟨'t', _, rfl, by decide⟩, by rcases hz with rfl | rfl <;> rfl⟩

theorem Part.facts (p : Part) (hz : Stop z) (b : Str) : (∃ c r, p.line = c :: r ∧ identStart c = true) ∧ directiveOf stdNames (p.line ++ z :: b) = some p.name := by
  cases p with
  | elif e => exact ⟨⟨'e', _, rfl, by decide⟩, rfl⟩
  | els => exact ⟨⟨'e', _, rfl, by decide⟩, by rcases hz with rfl | rfl <;> rfl⟩
  | except_ e =>
    cases e with
    | none => exact ⟨⟨'e', _, rfl, by decide⟩, by rcases hz with rfl | rfl <;> rfl⟩
    | some e => exact ⟨⟨'e', _, rfl, by decide⟩, rfl⟩
  | finally_ => exact ⟨⟨'f', _, rfl, by decide⟩, by rcases hz with rfl | rfl <;> rfl⟩

/-- The line as an expression. -/
def Part.ex : Part → Ex
  | .elif e => .tok c!"elif" (.sp e)
  | .els => .tok c!"else" .nil
  | .except_ none => .tok c!"except" .nil
  | .except_ (some e) => .tok c!"except" (.sp e)
  | .finally_ => .tok c!"finally" .nil

theorem Part.ex_src (p : Part) : p.ex.src = p.line := by
  cases p with
  | except_ e => cases e <;> simp [Part.ex, Part.line, Ex.src]
  | _ => simp [Part.ex, Part.line, Ex.src]

theorem Part.ex_py (p : Part) : p.ex.py = p.arg := by
  cases p with
  | except_ e => cases e <;> simp [Part.ex, Part.arg, Ex.py]
  | _ => simp [Part.ex, Part.arg, Ex.py]

theorem Part.line_name (p : Part) : ∃ r, p.line = p.name ++ r := by
  cases p with
  | except_ e => cases e <;> exact ⟨_, rfl⟩
  | _ => exact ⟨_, rfl⟩

theorem Part.names (p : Part) : p.name = c!"elif" ∨ p.name = c!"else" ∨ p.name = c!"except" ∨ p.name = c!"finally" := by cases p <;> simp [Part.name]

theorem Part.ex_ok {tok : Str → Option Nat} (hT : TokWords tok) {p : Part} (hz : Stop z) (hp : p.Ok tok z) : p.ex.Ok tok true z := by
  have w : ∀ {n : Str}, (∃ c r, n = c :: r ∧ identStart c = true ∧ r.all identChar = true) → Word n := fun ⟨c, r, h1, h2, h3⟩ => word_of_ascii _ c r h1 h2 h3
  cases p with
  | elif e => exact ok_named hT (w ⟨_, _, rfl, by decide, by decide⟩) (by decide) hp.1.ok
  | els => exact ok_bare hT hz (w ⟨_, _, rfl, by decide, by decide⟩) (by decide)
  | except_ e =>
    cases e with
    | none => exact ok_bare hT hz (w ⟨_, _, rfl, by decide, by decide⟩) (by decide)
    | some e => exact ok_named hT (w ⟨_, _, rfl, by decide, by decide⟩) (by decide) (Tidy.ok hp)
  | finally_ => exact ok_bare hT hz (w ⟨_, _, rfl, by decide, by decide⟩) (by decide)

theorem Dotted.no_eol {w : Str} (hw : Dotted w) : ∀ d ∈ w, d ≠ '\r' ∧ d ≠ '\n' := by
  induction hw with
  | one w hw => exact hw.no_eol
  | more u w hu _ ih =>
    intro d hd
    simp only [List.mem_append, List.mem_cons] at hd
    rcases hd with hd | rfl | hd
    · exact hu.no_eol d hd
    · decide
    · exact ih d hd

theorem Stm.oneLine {tok : Str → Option Nat} (s : Stm) (hs : s.Ok tok z) : OneLine s.line := by
  have hex : ∀ {e : Ex}, Tidy tok z e → OneLine e.src := fun he => Ex.no_eol _ _ _ he.ok
  cases s with
  | ternary c a b =>
    obtain ⟨⟨h1, _⟩, ⟨h2, _⟩, h3, _⟩ := hs
    exact ((((OneLine.append (by unfold OneLine; decide) (Ex.no_eol _ _ _ h1)).append (by unfold OneLine; decide)).append (Ex.no_eol _ _ _ h2)).append (by unfold OneLine; decide)).append (Ex.no_eol _ _ _ h3)
  | set x op e =>
    exact ((((OneLine.append (by unfold OneLine; decide) hs.2.1.no_eol).append (by unfold OneLine; decide)).append (setOps_oneLine hs.2.2.2.2.1)).append (by unfold OneLine; decide)).append (hex hs.1)
  | setGlobal x op e =>
    exact ((((OneLine.append (by unfold OneLine; decide) hs.2.1.no_eol).append (by unfold OneLine; decide)).append (setOps_oneLine hs.2.2.2.1)).append (by unfold OneLine; decide)).append (hex hs.1)
  | include_ raw source e =>
    refine ((OneLine.append (by unfold OneLine; decide) ?_).append ?_).append (hex hs.1)
    · cases raw <;> (unfold OneLine; decide)
    · cases source <;> (unfold OneLine; decide)
  | silent e => exact OneLine.append (by unfold OneLine; decide) (hex hs.1)
  | echo e => exact OneLine.append (by unfold OneLine; decide) (hex hs.1)
  | python n e =>
    refine OneLine.append (OneLine.append ?_ (by unfold OneLine; decide)) (hex hs.1)
    have hn := hs.2.1
    simp only [List.mem_cons, List.not_mem_nil, or_false] at hn
    rcases hn with rfl | rfl | rfl <;> (unfold OneLine; decide)
  | _ => unfold OneLine; decide

theorem Head.oneLine {tok : Str → Option Nat} (hd : Head) (hs : hd.Ok tok z) : OneLine hd.line := by
  have hex : ∀ {e : Ex}, Tidy tok z e → OneLine e.src := fun he => Ex.no_eol _ _ _ he.ok
  cases hd with
  | if_ e => exact OneLine.append (by unfold OneLine; decide) (hex hs)
  | unless_ e => exact OneLine.append (by unfold OneLine; decide) (hex hs)
  | while_ e => exact OneLine.append (by unfold OneLine; decide) (hex hs)
  | repeat_ e => exact OneLine.append (by unfold OneLine; decide) (hex hs)
  | for_ x e => exact ((OneLine.append (by unfold OneLine; decide) hs.2.1.no_eol).append (by unfold OneLine; decide)).append (hex hs.1)
  | try_ => unfold OneLine; decide

theorem Tidy.noBs {tok : Str → Option Nat} {e : Ex} (he : Tidy tok z e) (p : Str) : NoBs (p ++ e.src) := by
  obtain ⟨c, r, h1, _⟩ := he.head
  unfold NoBs
  rw [getLast?_app (by rw [h1]; simp)]
  exact Ex.noBs _ _ _ he.ok

theorem Stm.noBs {tok : Str → Option Nat} (s : Stm) (hs : s.Ok tok z) : NoBs s.line := by
  cases s with
  | ternary c a b => exact NoBs.append (show NoBs (c!"if " ++ c.src ++ c!"then " ++ a.src ++ c!"else ") by simpa using NoBs.snoc (c!"if " ++ c.src ++ c!"then " ++ a.src ++ c!"else") (c := ' ') (by decide)) (Ex.noBs _ _ _ hs.2.2.1)
  | set x op e => exact hs.1.noBs _
  | setGlobal x op e => exact hs.1.noBs _
  | include_ raw source e => exact hs.1.noBs _
  | silent e => exact hs.1.noBs _
  | echo e => exact hs.1.noBs _
  | python n e => exact hs.1.noBs _
  | _ => unfold NoBs; decide

theorem Head.noBs {tok : Str → Option Nat} (hd : Head) (hs : hd.Ok tok z) : NoBs hd.line := by
  cases hd with
  | if_ e => exact Tidy.noBs hs _
  | unless_ e => exact Tidy.noBs hs _
  | while_ e => exact Tidy.noBs hs _
  | repeat_ e => exact Tidy.noBs hs _
  | for_ x e => exact hs.1.noBs _
  | try_ => unfold NoBs; decide

theorem Stm.reach (hp : Tame h) {a b : Str} {s : PS} {st : Stm} (hs : h.src = a ++ '#' :: (st.line ++ z :: b)) (ha : NoBs a) (hc : Close a z b post ws) (hok : st.Ok h.tok z)
    (hpos : s.pos = a.length) (hbp : s.bp = h.src.length) (hst : s.st = fullSt) :
    Reaches h s (s.emit (ws ++ [st.cmd]) (a ++ c!"#" ++ st.line ++ post).length) := by
  have o : DLine (h.px h.src.length) a st.line z b post ws := ⟨hp.std, names_std hp.toPlain, hp.toks, hp.brackets, hs, ha, st.oneLine hok, fun _ => st.noBs hok, hc⟩
  have hz := hc.stop
  obtain ⟨hL, n, hn⟩ := st.facts h.tok hz hok b
  have key : ∀ n', n = n' → (h.px h.src.length).directive h fullSt n' a.length = .ok (.go (ws ++ [st.cmd]) (a ++ c!"#" ++ st.line ++ post).length) →
      Reaches h s (s.emit (ws ++ [st.cmd]) (a ++ c!"#" ++ st.line ++ post).length) := by
    rintro n' rfl hact
    exact reach_dir hp o hL hn hpos hbp hst hact (fun k => by rw [Env.perform]) rfl
  have bare : ∀ n', (directiveOf stdNames (n' ++ '\n' :: b) = some n' ∧ directiveOf stdNames (n' ++ '#' :: b) = some n') → st.line = n' → n = n' := by
    intro n' hh e
    rw [e] at hn
    rcases hz with rfl | rfl
    · exact Option.some.inj (hn.symm.trans hh.1)
    · exact Option.some.inj (hn.symm.trans hh.2)
  cases st with
  | ternary c a b => exact key c!"if" (Option.some.inj (hn.symm.trans rfl)) (ternary_ex o ⟨hok.1.1, hok.1.2.1⟩ ⟨hok.2.1.1, hok.2.1.2.1⟩ ⟨hok.2.2.1, hok.2.2.2.1⟩)
  | set x op e => exact key c!"set" (Option.some.inj (hn.symm.trans rfl)) (set_ex o hok.2.2.2.2.1 hok.2.2.2.2.2 hok.1 hok.2.1)
  | setGlobal x op e => exact key c!"set" (Option.some.inj (hn.symm.trans rfl)) (set_global_ex o hok.2.2.2.1 hok.2.2.2.2 hok.1 (.one x hok.2.1))
  | include_ raw source e => exact key c!"include" (Option.some.inj (hn.symm.trans rfl)) (include_ex o hok.1 hok.2.1 hok.2.2)
  | silent e => exact key c!"silent" (Option.some.inj (hn.symm.trans rfl)) (simple_skipped (n := c!"silent") o hok.1 (.inl rfl) hok.2.2.1)
  | echo e => exact key c!"echo" (Option.some.inj (hn.symm.trans rfl)) (simple_skipped (n := c!"echo") o hok.1 (.inr rfl) hok.2.1)
  | python m e =>
    have hm := hok.2.1
    refine key m ?_ (simple_named o hok.1 hok.2.1)
    simp only [List.mem_cons, List.not_mem_nil, or_false] at hm
    rcases hm with rfl | rfl | rfl <;> exact Option.some.inj (hn.symm.trans rfl)
  | pass_ => exact key c!"pass" (bare _ ⟨rfl, rfl⟩ rfl) (simple_bare o (by simp))
  | break_ => exact key c!"break" (bare _ ⟨rfl, rfl⟩ rfl) (simple_bare o (by simp))
  | continue_ => exact key c!"continue" (bare _ ⟨rfl, rfl⟩ rfl) (simple_bare o (by simp))
  | stop => exact key c!"stop" (bare _ ⟨rfl, rfl⟩ rfl) (simple_bare o (by simp))

theorem Head.reach (hp : Tame h) {a b : Str} {s : PS} {hd : Head} (hs : h.src = a ++ '#' :: (hd.line ++ z :: b)) (ha : NoBs a) (hc : Close a z b post ws) (hok : hd.Ok h.tok z)
    (hpos : s.pos = a.length) (hbp : s.bp = h.src.length) (hst : s.st = fullSt) :
    Reaches h s { s.emit (ws ++ [.indenting hd.name hd.arg]) (a ++ c!"#" ++ hd.line ++ post).length with stack := hd.name :: s.stack } := by
  have o : DLine (h.px h.src.length) a hd.line z b post ws := ⟨hp.std, names_std hp.toPlain, hp.toks, hp.brackets, hs, ha, hd.oneLine hok, fun _ => hd.noBs hok, hc⟩
  obtain ⟨hL, hn⟩ := hd.facts hc.stop b
  have hact : (h.px h.src.length).directive h fullSt hd.name a.length = .ok (.opened hd.name (ws ++ [.indenting hd.name hd.arg]) (a ++ c!"#" ++ hd.line ++ post).length) := by
    cases hd with
    | if_ e => exact opens_if_ex o hok
    | unless_ e => exact opens_skipped_ex (n := c!"unless") o hok (.inr rfl)
    | while_ e =>
      have hw : Word c!"while" := word_of_ascii _ _ _ rfl (by decide) (by decide)
      exact opens_named_ex (f := .tok c!"while" (.sp e)) (r := ' ' :: e.src) (.inl rfl) rfl o (ok_named o.toks hw (by decide) (Tidy.ok hok))
    | repeat_ e => exact opens_skipped_ex (n := c!"repeat") o hok (.inl rfl)
    | for_ x e => exact opens_for_ex o hok.1 hok.2.1
    | try_ =>
      have hw : Word c!"try" := word_of_ascii _ _ _ rfl (by decide) (by decide)
      exact opens_named_ex (f := .tok c!"try" .nil) (r := []) (.inr rfl) rfl o (ok_bare o.toks o.stop hw (by decide))
  exact reach_dir hp o hL hn hpos hbp hst hact (fun k => by rw [Env.perform]) rfl

theorem Head.end_facts (hd : Head) (hz : Stop z) (b : Str) : OneLine (c!"end " ++ hd.name) ∧ NoBs (c!"end " ++ hd.name) ∧ directiveOf stdNames (c!"end " ++ hd.name ++ z :: b) = some c!"end" := by
  refine ⟨OneLine.append (by unfold OneLine; decide) (by cases hd <;> simp [OneLine, Head.name]), by cases hd <;> simp [NoBs, Head.name], ?_⟩
  rcases hz with rfl | rfl <;> cases hd <;> rfl

theorem end_reach (hp : Tame h) {a b : Str} {s : PS} {ns : List Str} (hd : Head) (hs : h.src = a ++ '#' :: (c!"end " ++ hd.name ++ z :: b)) (ha : NoBs a) (hc : Close a z b post ws)
    (hpos : s.pos = a.length) (hbp : s.bp = h.src.length) (hst : s.st = fullSt) (hstack : s.stack = hd.name :: ns) :
    Reaches h s { s.emit (ws ++ [.commit, .dedent]) (a ++ c!"#" ++ (c!"end " ++ hd.name) ++ post).length with stack := ns } := by
  obtain ⟨f1, f2, f3⟩ := hd.end_facts hc.stop b
  have o : DLine (h.px h.src.length) a (c!"end " ++ hd.name) z b post ws := ⟨hp.std, names_std hp.toPlain, hp.toks, hp.brackets, hs, ha, f1, fun _ => f2, hc⟩
  have hb : hd.name ∈ blockNames := by cases hd <;> simp [Head.name, blockNames]
  refine reach_dir hp o ⟨'e', _, rfl, by decide⟩ f3 hpos hbp hst (end_ex o hb) (fun k => ?_) rfl
  rw [Env.perform, hstack, pop, if_pos rfl]
  cases hd <;> simp [bind, Except.bind, Env.endBlock, Head.name, PS.emit]

theorem Part.reach (hp : Tame h) {a b : Str} {s : PS} {p : Part} (hs : h.src = a ++ '#' :: (p.line ++ z :: b)) (ha : NoBs a) (hc : Close a z b post ws)
    (hok : p.Ok h.tok z) (hpos : s.pos = a.length) (hbp : s.bp = h.src.length) (hst : s.st = fullSt) :
    Reaches h s (s.emit (ws ++ [.reindenting p.name p.arg true]) (a ++ c!"#" ++ p.line ++ post).length) := by
  have hf := Part.ex_ok hp.toks hc.stop hok
  rw [← p.ex_src, ← p.ex_py]
  have o : DLine (h.px h.src.length) a p.ex.src z b post ws := ⟨hp.std, names_std hp.toPlain, hp.toks, hp.brackets, by rw [p.ex_src]; exact hs, ha, Ex.no_eol _ _ _ hf, fun _ => Ex.noBs _ _ _ hf, hc⟩
  obtain ⟨r, hr⟩ := p.line_name
  exact reach_dir hp (name := p.name) o (by rw [p.ex_src]; exact (p.facts hc.stop b).1) (by rw [p.ex_src]; exact (p.facts hc.stop b).2) hpos hbp hst
    (reopens_ex p.names r (by rw [p.ex_src]; exact hr) o hf) (fun k => by rw [Env.perform]) rfl

/-! #### Directives that take the output of their body -/

theorem Wrap.facts (w : Wrap) (b : Str) : (∃ c r, w.line = c :: r ∧ identStart c = true) ∧ directiveOf stdNames (w.line ++ z :: b) = some w.name := by
  cases w with
  | capture x => exact ⟨⟨'c', _, rfl, by decide⟩, rfl⟩
  | call f e => cases e <;> exact ⟨⟨'c', _, rfl, by decide⟩, rfl⟩
  | filter n => exact ⟨⟨'f', _, rfl, by decide⟩, rfl⟩
  | klass k => exact ⟨⟨'f', _, rfl, by decide⟩, rfl⟩

theorem Wrap.oneLine {tok : Str → Option Nat} (w : Wrap) (hs : w.Ok tok z) : OneLine w.line := by
  cases w with
  | capture x => exact OneLine.append (by unfold OneLine; decide) hs.1.no_eol
  | call f e =>
    cases e with
    | none => exact OneLine.append (by unfold OneLine; decide) (Dotted.no_eol hs)
    | some e => exact ((OneLine.append (by unfold OneLine; decide) hs.1.no_eol).append (by unfold OneLine; decide)).append (Ex.no_eol _ _ _ hs.2.ok)
  | filter n => exact OneLine.append (by unfold OneLine; decide) (Word.no_eol hs)
  | klass k => exact OneLine.append (by unfold OneLine; decide) (Dotted.no_eol hs)

theorem Wrap.noBs {tok : Str → Option Nat} (w : Wrap) (hs : w.Ok tok z) : NoBs w.line := by
  cases w with
  | capture x => exact NoBs.append (by unfold NoBs; decide) (Dotted.one x hs.1).noBs
  | call f e =>
    cases e with
    | none => exact NoBs.append (by unfold NoBs; decide) (Dotted.noBs hs)
    | some e => exact hs.2.noBs _
  | filter n => exact NoBs.append (by unfold NoBs; decide) (Dotted.one n hs).noBs
  | klass k => exact NoBs.append (by unfold NoBs; decide) (Dotted.noBs hs)

theorem Wrap.reach (hp : Tame h) {a b : Str} {s : PS} {w : Wrap} (hs : h.src = a ++ '#' :: (w.line ++ z :: b)) (ha : NoBs a) (hc : Close a z b post ws) (hok : w.Ok h.tok z)
    (hpos : s.pos = a.length) (hbp : s.bp = h.src.length) (hst : s.st = fullSt) :
    Reaches h s { s.emit (ws ++ [w.opens]) (a ++ c!"#" ++ w.line ++ post).length with stack := w.name :: s.stack } := by
  have o : DLine (h.px h.src.length) a w.line z b post ws := ⟨hp.std, names_std hp.toPlain, hp.toks, hp.brackets, hs, ha, w.oneLine hok, fun _ => w.noBs hok, hc⟩
  obtain ⟨hL, hn⟩ := w.facts (z := z) b
  have hact : (h.px h.src.length).directive h fullSt w.name a.length = .ok (.opened w.name (ws ++ [w.opens]) (a ++ c!"#" ++ w.line ++ post).length) := by
    cases w with
    | capture x => exact capture_ex o hok.1 ⟨hok.2.1, hok.2.2.1⟩
    | call f e =>
      cases e with
      | none => exact call_ex o hok
      | some e => exact call_args_ex o hok.1 hok.2
    | filter n => exact filter_ex o hok
    | klass k => exact klass_ex o hok
  exact reach_dir hp o hL hn hpos hbp hst hact (fun k => by rw [Env.perform]) rfl

theorem Wrap.end_facts (w : Wrap) (hz : Stop z) (b : Str) : OneLine (c!"end " ++ w.name) ∧ NoBs (c!"end " ++ w.name) ∧ directiveOf stdNames (c!"end " ++ w.name ++ z :: b) = some c!"end" := by
  refine ⟨OneLine.append (by unfold OneLine; decide) (by cases w <;> simp [OneLine, Wrap.name]), by cases w <;> simp [NoBs, Wrap.name], ?_⟩
  rcases hz with rfl | rfl <;> cases w <;> rfl

theorem Wrap.end_reach (hp : Tame h) {a b : Str} {s : PS} {ns : List Str} (w : Wrap) (hs : h.src = a ++ '#' :: (c!"end " ++ w.name ++ z :: b)) (ha : NoBs a) (hc : Close a z b post ws)
    (hpos : s.pos = a.length) (hbp : s.bp = h.src.length) (hst : s.st = fullSt) (hstack : s.stack = w.name :: ns) :
    Reaches h s { s.emit (ws ++ [w.closes]) (a ++ c!"#" ++ (c!"end " ++ w.name) ++ post).length with stack := ns } := by
  obtain ⟨f1, f2, f3⟩ := w.end_facts hc.stop b
  have o : DLine (h.px h.src.length) a (c!"end " ++ w.name) z b post ws := ⟨hp.std, names_std hp.toPlain, hp.toks, hp.brackets, hs, ha, f1, fun _ => f2, hc⟩
  have hb : w.name ∈ blockNames := by cases w <;> simp [Wrap.name, blockNames]
  refine reach_dir hp o ⟨'e', _, rfl, by decide⟩ f3 hpos hbp hst (end_ex o hb) (fun k => ?_) rfl
  rw [Env.perform, hstack, pop, if_pos rfl]
  cases w <;> simp [bind, Except.bind, Env.endBlock, Wrap.name, PS.emit, Wrap.closes]

/-! #### Definitions -/

theorem Region.facts {tok : Str → Option Nat} {r : Region} (_ : r.Ok tok) (b : Str) : (∃ c w, r.line = c :: w ∧ identStart c = true) ∧ directiveOf stdNames (r.line ++ '\n' :: b) = some r.name := by
  cases r with
  | def_ n sig => exact ⟨⟨'d', _, rfl, by decide⟩, rfl⟩
  | block n sig => exact ⟨⟨'b', _, rfl, by decide⟩, rfl⟩

theorem Sig.oneLine {tok : Str → Option Nat} {sig : Sig} (h : sig.Ok tok) : OneLine sig.src := by
  cases sig with
  | bare => unfold OneLine; decide
  | args s as => exact OneLine.append (s := c!"(") (by unfold OneLine; decide) h.1

theorem Region.oneLine {tok : Str → Option Nat} {r : Region} (h : r.Ok tok) : OneLine r.line := by
  cases r with
  | def_ n sig => exact (OneLine.append (by unfold OneLine; decide) h.1.no_eol).append (Sig.oneLine h.2.2)
  | block n sig => exact (OneLine.append (by unfold OneLine; decide) h.1.no_eol).append (Sig.oneLine h.2.2)

theorem nestedDef_none {n : Nat} {stack : List Str} (hs : c!"def" ∉ stack) : h.nestedDef stack (n + 1) = false := by
  unfold Env.nestedDef
  rw [List.count_eq_zero_of_not_mem hs]
  simp

theorem Region.reach (hp : Tame h) {a b : Str} {s : PS} {r : Region} (hs : h.src = a ++ '#' :: (r.line ++ '\n' :: b)) (ha : Clear a) (hok : r.Ok h.tok)
    (hpos : s.pos = a.length) (hbp : s.bp = h.src.length) (hst : s.st = fullSt) (hstack : r.name = c!"def" → c!"def" ∉ s.stack) :
    Reaches h s { s.emit (.handleWS :: r.opens) (a ++ c!"#" ++ r.line ++ c!"\n").length with stack := r.name :: s.stack } := by
  have o : DLine (h.px h.src.length) a r.line '\n' b c!"\n" [.handleWS] := ⟨hp.std, names_std hp.toPlain, hp.toks, hp.brackets, hs, ha.unescaped, r.oneLine hok, by simp, ha.close b⟩
  obtain ⟨hL, hn⟩ := r.facts hok b
  cases r with
  | def_ n sig =>
    refine reach_dir hp o hL hn hpos hbp hst (definition_ex (kind := .def_) hp.cfg o hok.1 hok.2.2) (fun k => ?_) rfl
    rw [Env.perform]
    unfold Env.openDef
    have : h.nestedDef (c!"def" :: s.stack) 2 = false := by
      unfold Env.nestedDef
      rw [List.count_cons_self, List.count_eq_zero_of_not_mem (hstack rfl)]
      simp
    simp only [DefKind.name, this, asMethod, Env.marker, Region.opens, Region.name, Region.line]
    simp
  | block n sig =>
    refine reach_dir hp o hL hn hpos hbp hst (definition_ex (kind := .block) hp.cfg o hok.1 hok.2.2) (fun k => ?_) rfl
    rw [Env.perform]
    unfold Env.openDef
    simp only [DefKind.name, asMethod, Env.marker, hp.markers, Region.opens, Region.name, Region.line]
    simp

theorem Region.reach_end (hp : Tame h) {a b : Str} {s : PS} {ns : List Str} (r : Region) (hs : h.src = a ++ '#' :: (c!"end " ++ r.name ++ '\n' :: b)) (ha : Clear a)
    (hpos : s.pos = a.length) (hbp : s.bp = h.src.length) (hst : s.st = fullSt) (hstack : s.stack = r.name :: ns) (hdef : r.name = c!"def" → c!"def" ∉ ns) :
    Reaches h s { s.emit (.handleWS :: r.closes) (a ++ c!"#" ++ (c!"end " ++ r.name) ++ c!"\n").length with stack := ns } := by
  have hone : OneLine (c!"end " ++ r.name) := by
    refine OneLine.append (by unfold OneLine; decide) ?_
    cases r <;> simp [OneLine, Region.name]
  have o : DLine (h.px h.src.length) a (c!"end " ++ r.name) '\n' b c!"\n" [.handleWS] := ⟨hp.std, names_std hp.toPlain, hp.toks, hp.brackets, hs, ha.unescaped, hone, by simp, ha.close b⟩
  have hb : r.name ∈ blockNames := by cases r <;> simp [Region.name, blockNames]
  have hact := closes_block' (h := h) (st := fullSt) (x := h.px h.src.length) (a := a) (n := r.name) (b := b) hp.std hp.toks hb (by show h.src = _; rw [hs]; simp) ha
  have hlen : (a ++ c!"#end " ++ r.name ++ c!"\n").length = (a ++ c!"#" ++ (c!"end " ++ r.name) ++ c!"\n").length := by simp
  rw [hlen] at hact
  refine reach_dir hp o ⟨'e', _, rfl, by decide⟩ (by cases r <;> rfl) hpos hbp hst hact (fun k => ?_) rfl
  rw [Env.perform, hstack, pop, if_pos rfl]
  cases r with
  | def_ n sig =>
    have hnd : h.nestedDef ns 1 = false := nestedDef_none (hdef rfl)
    simp [bind, Except.bind, Env.endBlock, Region.name, PS.emit, Region.closes, hnd]
  | block n sig => simp [bind, Except.bind, Env.endBlock, Region.name, PS.emit, Region.closes]

theorem raw_reach (hp : Tame h) {a t j b : Str} {s : PS} (hs : h.src = a ++ '#' :: (c!"raw" ++ '\n' :: (t ++ j ++ '#' :: (c!"end raw" ++ '\n' :: b)))) (ha : Clear a) (ht : AtBol true t)
    (hn : ¬ ∃ u v, t = u ++ c!"#end" ++ v) (hj : Blanks j) (hpos : s.pos = a.length) (hbp : s.bp = h.src.length) (hst : s.st = fullSt) :
    Reaches h s (s.emit [.handleWS, .handleWS, .raw t] (a ++ c!"#raw\n" ++ t ++ j ++ c!"#end raw\n").length) := by
  have o : DLine (h.px h.src.length) a c!"raw" '\n' (t ++ j ++ '#' :: (c!"end raw" ++ '\n' :: b)) c!"\n" [.handleWS] :=
    ⟨hp.std, names_std hp.toPlain, hp.toks, hp.brackets, hs, ha.unescaped, by unfold OneLine; decide, by simp, ha.close _⟩
  refine reach_dir' hp hs ha.unescaped ⟨'r', _, rfl, by decide⟩ (name := c!"raw") rfl hpos hbp hst (raw_ex (by rw [names_std hp.toPlain]) o ht hn hj) (fun k => by rw [Env.perform]) ?_
  simp [PS.emit]

/-! #### Comments -/

theorem Px.tag_comment {x : Px} (hx : Std x.toCx) {a r : Str} (hs : x.src = a ++ c!"##" ++ r) (ha : NoBs a) :
    x.tagAt a.length = .ok (some .comment) ∧ x.matchTok x.cfg.com a.length = some (a ++ c!"##").length := by
  obtain ⟨ns, hcfg⟩ := id hx.cfg
  have hc : x.cfg.com = c!"##" := by rw [hcfg]; rfl
  have := matchTok_at x.toCx c!"##" a r hs ha
  rw [← List.length_append] at this
  refine ⟨?_, by rw [hc]; exact this⟩
  unfold Cx.tagAt
  rw [hc, this]
  rfl

theorem reach_comment (hp : Tame h) {a r : Str} {s : PS} {cs : List Cmd} {q : Nat} (hs : h.src = a ++ c!"##" ++ r) (ha : NoBs a) (hpos : s.pos = a.length) (hbp : s.bp = h.src.length)
    (hq : a.length < q) (he : (h.px h.src.length).eatComment a.length = .ok (cs, q)) : Reaches h s (s.emit cs q) := by
  have ht := (Px.tag_comment hp.std hs ha).1
  have hlen := congrArg List.length hs
  simp only [List.length_append] at hlen
  intro k hk
  obtain ⟨k, rfl⟩ : ∃ j, k = j + 1 := ⟨k - 1, by rw [hpos] at hk; simp at hlen; omega⟩
  refine ⟨k, ?_, ?_⟩
  · simp only [PS.emit]; omega
  · rw [Env.loop, hbp, hpos, if_neg (by simp at hlen; omega)]
    simp only [ht, bind, Except.bind, reduceCtorEq, if_false, Px.simple, he, Option.some.injEq]

/-- `##s` on a line of its own. -/
theorem reach_note (hp : Tame h) {a t b : Str} {s : PS} (hs : h.src = a ++ c!"##" ++ t ++ '\n' :: b) (ha : Clear a) (ht : OneLine t)
    (hpos : s.pos = a.length) (hbp : s.bp = h.src.length) :
    Reaches h s (s.emit [.handleWS, .comment (t ++ c!"\n")] (a ++ c!"##" ++ t ++ c!"\n").length) := by
  refine reach_comment hp (r := t ++ '\n' :: b) (by rw [hs]; simp) ha.unescaped hpos hbp (by simp) ?_
  have hx : Std (h.px h.src.length).toCx := hp.std
  generalize hX : h.px h.src.length = x at hx
  have hsx : x.src = a ++ c!"##" ++ t ++ '\n' :: b := by rw [← hX]; exact hs
  have hcl : x.lineClear a.length = true := lineClear_at (b := c!"##" ++ (t ++ '\n' :: b)) (by rw [hsx]; simp) ha
  have heol := (eol_at (x := x.toCx) (a := a ++ c!"##") (t := t) (b := b) hsx ht).2
  unfold Cx.eatComment
  rw [hcl, (Px.tag_comment hx (r := t ++ '\n' :: b) (by rw [hsx]; simp) ha.unescaped).2]
  have e : (a ++ c!"##" ++ t).length + 1 = (a ++ c!"##" ++ (t ++ c!"\n")).length := by simp; omega
  simp only [bind, Except.bind, goto_le hx (p := (a ++ c!"##").length) (by rw [hsx]; simp), Cx.readToEOL, if_true, heol, e]
  rw [goto_le hx (by rw [hsx]; simp)]
  simp only [Cx.slice]
  rw [show x.src = a ++ c!"##" ++ (t ++ c!"\n") ++ b by rw [hsx]; simp, List.take_left, List.drop_left]
  simp

theorem eolScan_end {t : Str} (ht : OneLine t) : Reader.eolScan t = (t.length, 0) := by
  induction t with
  | nil => rw [Reader.eolScan]; rfl
  | cons c t ih =>
    have hc := ht c (by simp)
    rw [Reader.eolScan.eq_def]
    have := ih fun d hd => ht d (by simp [hd])
    split
    · simp_all
    · simp_all
    · next h => 
      injection h with h1 h2
      subst h1 h2
      simp [hc, this]

theorem eol_to {x : Cx} {a t b : Str} (h : x.src = a ++ t ++ b) (ht : OneLine t) (hb : b = [] ∨ ∃ r, b = '\n' :: r) : x.eol a.length = (a ++ t).length := by
  rcases hb with rfl | ⟨r, rfl⟩
  · unfold Cx.eol Reader.eolSearch
    have h1 : min a.length x.src.length = a.length := by rw [h]; simp
    have h2 : x.src.drop a.length = t := by rw [h, List.append_assoc, List.drop_left, List.append_nil]
    simp only [h1, h2, eolScan_end ht, List.length_append]
  · exact (eol_at h ht).1

/-- `##s` at the end of a line. -/
theorem reach_remark (hp : Tame h) {a t b : Str} {s : PS} (hs : h.src = a ++ c!"##" ++ t ++ b) (ha : BusyLine a) (hna : NoBs a) (ht : OneLine t) (hb : b = [] ∨ ∃ r, b = '\n' :: r)
    (hpos : s.pos = a.length) (hbp : s.bp = h.src.length) :
    Reaches h s (s.emit [.comment t] (a ++ c!"##" ++ t).length) := by
  refine reach_comment hp (r := t ++ b) (by rw [hs]; simp) hna hpos hbp (by simp) ?_
  have hx : Std (h.px h.src.length).toCx := hp.std
  generalize hX : h.px h.src.length = x at hx
  have hsx : x.src = a ++ c!"##" ++ t ++ b := by rw [← hX]; exact hs
  have hcl : x.lineClear a.length = false := lineClear_busy (b := c!"##" ++ (t ++ b)) (by rw [hsx]; simp) ha
  have heol := eol_to (x := x.toCx) (a := a ++ c!"##") (t := t) (b := b) hsx ht hb
  unfold Cx.eatComment
  rw [hcl, (Px.tag_comment hx (r := t ++ b) (by rw [hsx]; simp) hna).2]
  simp only [bind, Except.bind, goto_le hx (p := (a ++ c!"##").length) (by rw [hsx]; simp), Cx.readToEOL, Bool.false_eq_true, if_false, heol]
  rw [goto_le hx (by rw [hsx]; simp)]
  simp only [Cx.slice]
  rw [hsx, List.take_left, List.drop_left]
  simp

/-! #### Comments of several lines -/

theorem NoBs.append_last {a t : Str} (h : t ≠ [] ∧ t.getLast? ≠ some '\\') : NoBs (a ++ t) := by
  unfold NoBs
  rw [getLast?_app h.1]
  exact h.2

theorem busy_aside (a : Str) : BusyLine (a ++ c!"*#") := ⟨a, '*', c!"#", rfl, by decide +kernel, by unfold OneLine; decide⟩

theorem Px.tag_mlComment {x : Px} (hx : Std x.toCx) {a r : Str} (hs : x.src = a ++ c!"#*" ++ r) (ha : NoBs a) :
    x.tagAt a.length = .ok (some .mlComment) ∧ x.matchTok x.cfg.mlStart a.length = some (a ++ c!"#*").length := by
  obtain ⟨ns, hcfg⟩ := id hx.cfg
  have hc : x.cfg.com = c!"##" := by rw [hcfg]; rfl
  have hm : x.cfg.mlStart = c!"#*" := by rw [hcfg]; rfl
  have := matchTok_at x.toCx c!"#*" a r hs ha
  rw [← List.length_append] at this
  refine ⟨?_, by rw [hm]; exact this⟩
  unfold Cx.tagAt
  rw [hc, matchTok_miss x.toCx c!"##" a (c!"#*" ++ r) (by rw [hs]; simp) (by intro r h; simp at h), hm, this]
  rfl

theorem mlScan_at {x : Cx} (hx : Std x) {a s b : Str} (hs : Inner s) (h : x.src = a ++ s ++ c!"*#" ++ b) :
    ∀ (post pre : Str) (n : Nat), s = pre ++ post → post.length < n → x.mlScan n 1 (a ++ pre).length = .ok (a ++ s).length := by
  obtain ⟨ns, hcfg⟩ := id hx.cfg
  have hm : x.cfg.mlStart = c!"#*" := by rw [hcfg]; rfl
  have he : x.cfg.mlEnd = c!"*#" := by rw [hcfg]; rfl
  obtain ⟨⟨c0, r0, e0, -⟩, hbs, h1, h2⟩ := hs
  intro post
  induction post with
  | nil =>
    intro pre n hp hn
    obtain ⟨n, rfl⟩ : ∃ j, n = j + 1 := ⟨n - 1, by omega⟩
    simp only [List.append_nil] at hp
    subst hp
    have m1 := matchTok_miss x c!"#*" (a ++ s) (c!"*#" ++ b) (by rw [h]; simp) (by intro r h; simp at h)
    have m2 := matchTok_at x c!"*#" (a ++ s) b h (by rw [getLast?_app (by simp [e0])]; exact hbs)
    rw [Cx.mlScan, hx.bp, if_neg (by rw [h]; simp), hm, m1, he, m2]
    simp only [bind, Except.bind]
    rw [goto_le hx (by rw [h]; simp; omega)]
    simp
  | cons c post ih =>
    intro pre n hp hn
    obtain ⟨n, rfl⟩ : ∃ j, n = j + 1 := ⟨n - 1, by simp at hn; omega⟩
    have hsrc : x.src = (a ++ pre) ++ (c :: post ++ (c!"*#" ++ b)) := by rw [h, hp]; simp
    have m1 := matchTok_miss x c!"#*" (a ++ pre) _ hsrc (by
      intro r hr
      cases post with
      | nil =>
        simp at hr
        exact h1 ⟨pre, [], by rw [hp, hr.1]; simp⟩
      | cons d post =>
        simp at hr
        exact h1 ⟨pre, post ++ c!"*", by rw [hp, hr.1, hr.2.1]; simp⟩)
    have m2 := matchTok_miss x c!"*#" (a ++ pre) _ hsrc (by
      intro r hr
      cases post with
      | nil => simp at hr
      | cons d post =>
        simp at hr
        exact h2 ⟨pre, post, by rw [hp, hr.1, hr.2.1]; simp⟩)
    rw [Cx.mlScan, hx.bp, if_neg (by rw [hsrc]; simp), hm, m1, he, m2]
    have := ih (pre ++ [c]) n (by rw [hp]; simp) (by simp at hn; omega)
    rw [← List.append_assoc, List.length_append] at this
    exact this

theorem reach_ml (hp : Tame h) {a t b : Str} {s : PS} {cs : List Cmd} {q : Nat} (hs : h.src = a ++ c!"#*" ++ t ++ c!"*#" ++ b) (ha : NoBs a) (ht : Inner t)
    (hpos : s.pos = a.length) (hbp : s.bp = h.src.length) (hq : a.length < q)
    (he : (h.px h.src.length).afterMl ((h.px h.src.length).lineClear a.length) ((h.px h.src.length).eol a.length) t (a ++ c!"#*" ++ t ++ c!"*#").length = .ok (cs, q)) :
    Reaches h s (s.emit cs q) := by
  have hx : Std (h.px h.src.length).toCx := hp.std
  obtain ⟨g1, g2⟩ := Px.tag_mlComment hx (r := t ++ c!"*#" ++ b) (by rw [show (h.px h.src.length).src = h.src from rfl, hs]; simp) ha
  have hlen := congrArg List.length hs
  simp only [List.length_append] at hlen
  have hm : (h.px h.src.length).eatMlComment a.length = .ok (cs, q) := by
    generalize hX : h.px h.src.length = x at hx g1 g2 he
    have hsx : x.src = a ++ c!"#*" ++ t ++ c!"*#" ++ b := by rw [← hX]; exact hs
    obtain ⟨ns, hcfg⟩ := id hx.cfg
    have hm : x.cfg.mlEnd = c!"*#" := by rw [hcfg]; rfl
    have sc := mlScan_at hx ht (a := a ++ c!"#*") hsx t [] (x.bp + 1 - (a ++ c!"#*" ++ []).length) rfl (by rw [hx.bp, hsx]; simp; omega)
    rw [List.append_nil] at sc
    have m2 := matchTok_at x.toCx c!"*#" (a ++ c!"#*" ++ t) b hsx (by obtain ⟨⟨c0, r0, e0, -⟩, hbs, -⟩ := ht; rw [getLast?_app (by simp [e0])]; exact hbs)
    rw [← List.length_append] at m2
    unfold Cx.eatMlComment
    rw [g2]
    simp only [bind, Except.bind, goto_le hx (p := (a ++ c!"#*").length) (by rw [hsx]; simp), sc]
    rw [if_pos (by rw [hx.bp, hsx]; simp), hm, m2]
    simp only [goto_le hx (p := (a ++ c!"#*" ++ t ++ c!"*#").length) (by rw [hsx]; simp)]
    have hsl : x.slice (a ++ c!"#*").length (a ++ c!"#*" ++ t).length = t := by
      simp only [Cx.slice]
      rw [show x.src = a ++ c!"#*" ++ t ++ (c!"*#" ++ b) by rw [hsx]; simp, List.take_left, List.drop_left]
    rw [hsl]
    exact he
  intro k hk
  obtain ⟨k, rfl⟩ : ∃ j, k = j + 1 := ⟨k - 1, by rw [hpos] at hk; simp at hlen; omega⟩
  refine ⟨k, ?_, ?_⟩
  · simp only [PS.emit]; omega
  · rw [Env.loop, hbp, hpos, if_neg (by simp at hlen; omega)]
    simp only [g1, bind, Except.bind, reduceCtorEq, if_false, Px.simple, hm, Option.some.injEq]

theorem Std.gobbleMl {x : Cx} (hx : Std x) : x.cfg.gobbleMl = true := by
  obtain ⟨ns, hcfg⟩ := id hx.cfg
  rw [hcfg]; rfl

theorem eolScan_le (t c : Str) : (Reader.eolScan (t ++ '\n' :: c)).1 ≤ t.length := by
  induction t with
  | nil => simp [Reader.eolScan]
  | cons d t ih =>
    rw [List.cons_append, Reader.eolScan.eq_def]
    split
    · simp
    · simp
    · next h =>
      injection h with h1 h2
      subst h1 h2
      split <;> simp
      omega

theorem eol_before {x : Cx} {a t c : Str} (h : x.src = a ++ t ++ '\n' :: c) : x.eol a.length ≤ (a ++ t).length := by
  unfold Cx.eol Reader.eolSearch
  have h1 : min a.length x.src.length = a.length := by rw [h]; simp
  have h2 : x.src.drop a.length = t ++ '\n' :: c := by rw [h, List.append_assoc, List.drop_left]
  have := eolScan_le t c
  simp only [h1, h2, List.length_append]
  omega

/-- The rest of a line, and what follows it. -/
theorem line_of (b : Str) : ∃ v w, b = v ++ w ∧ OneLine v ∧ (w = [] ∨ (∃ r, w = '\n' :: r) ∨ ∃ r, w = '\r' :: r) := by
  induction b with
  | nil => exact ⟨[], [], rfl, by simp [OneLine], .inl rfl⟩
  | cons c b ih =>
    by_cases h1 : c = '\n'
    · exact ⟨[], c :: b, rfl, by simp [OneLine], .inr (.inl ⟨b, by rw [h1]⟩)⟩
    · by_cases h2 : c = '\r'
      · exact ⟨[], c :: b, rfl, by simp [OneLine], .inr (.inr ⟨b, by rw [h2]⟩)⟩
      · obtain ⟨v, w, rfl, hv, hw⟩ := ih
        refine ⟨c :: v, w, rfl, ?_, hw⟩
        intro d hd
        rcases List.mem_cons.1 hd with rfl | hd
        · exact ⟨h2, h1⟩
        · exact hv d hd

theorem eol_to' {x : Cx} {a t b : Str} (h : x.src = a ++ t ++ b) (ht : OneLine t) (hb : b = [] ∨ (∃ r, b = '\n' :: r) ∨ ∃ r, b = '\r' :: r) : x.eol a.length = (a ++ t).length := by
  unfold Cx.eol Reader.eolSearch
  have h1 : min a.length x.src.length = a.length := by rw [h]; simp
  have h2 : x.src.drop a.length = t ++ b := by rw [h, List.append_assoc, List.drop_left]
  have h3 : (Reader.eolScan (t ++ b)).1 = t.length := by
    clear h h2
    induction t with
    | nil =>
      rcases hb with rfl | ⟨r, rfl⟩ | ⟨r, rfl⟩
      · simp [Reader.eolScan]
      · simp [Reader.eolScan]
      · rw [List.nil_append, Reader.eolScan.eq_def]
        split
        · rfl
        · rfl
        · next h => injection h with h1 h2; subst h1; simp
    | cons c t ih =>
      have hc := ht c (by simp)
      have := ih (fun d hd => ht d (by simp [hd]))
      rw [List.cons_append, Reader.eolScan.eq_def]
      split
      · simp_all
      · simp_all
      · next h =>
        injection h with h1 h2
        subst h1 h2
        simp [hc, this]
  simp only [h1, h2, h3, List.length_append]

theorem strip_nil_all {s : Str} (h : strip s = []) : ∀ c ∈ s, isSpace c = true := by
  obtain ⟨a, b, h1, h2, h3, _⟩ := strip_spec s
  rw [h, List.append_nil] at h1
  intro c hc
  rw [h1] at hc
  rcases List.mem_append.1 hc with hc | hc
  · exact h2 c hc
  · exact h3 c hc

theorem strip_blanks {j : Str} (hj : Blanks j) : strip j = [] := by
  have hsp : ∀ c ∈ j, isSpace c = true := by
    intro c hc
    have := hj c hc
    simp at this
    rcases this with rfl | rfl | rfl <;> decide +kernel
  have : lstrip j = [] := by
    unfold lstrip
    clear hj
    induction j with
    | nil => rfl
    | cons c j ih => simp [List.dropWhile_cons, hsp c (by simp), ih fun d hd => hsp d (by simp [hd])]
  rw [strip, this]
  rfl

/-- `#*s*#` on lines of its own. -/
theorem reach_notes (hp : Tame h) {a t j b : Str} {s : PS} (hs : h.src = a ++ c!"#*" ++ t ++ c!"*#" ++ j ++ '\n' :: b) (ha : Clear a) (ht : Inner t) (hj : Blanks j)
    (hpos : s.pos = a.length) (hbp : s.bp = h.src.length) :
    Reaches h s (s.emit [.handleWS, .comment t] (a ++ c!"#*" ++ t ++ c!"*#" ++ j ++ c!"\n").length) := by
  refine reach_ml hp (b := j ++ '\n' :: b) (by rw [hs]; simp) ha.unescaped ht hpos hbp (by simp) ?_
  have hx : Std (h.px h.src.length).toCx := hp.std
  generalize hX : h.px h.src.length = x at hx
  have hsx : x.src = a ++ c!"#*" ++ t ++ c!"*#" ++ j ++ '\n' :: b := by rw [← hX]; exact hs
  have hcl : x.lineClear a.length = true := lineClear_at (b := c!"#*" ++ (t ++ (c!"*#" ++ (j ++ '\n' :: b)))) (by rw [hsx]; simp) ha
  have hone : OneLine j := fun c hc => by
    have := hj c hc
    simp at this
    rcases this with rfl | rfl | rfl <;> decide
  have heol := eol_at (x := x.toCx) (a := a ++ c!"#*" ++ t ++ c!"*#") (t := j) (b := b) hsx hone
  have hle : x.eol a.length ≤ (a ++ c!"#*" ++ t ++ c!"*#" ++ j).length := by
    have := eol_before (x := x.toCx) (a := a) (t := c!"#*" ++ t ++ c!"*#" ++ j) (c := b) (by rw [hsx]; simp)
    simpa using this
  have hsl : x.slice (a ++ c!"#*" ++ t ++ c!"*#").length (a ++ c!"#*" ++ t ++ c!"*#" ++ j).length = j := by
    simp only [Cx.slice]
    rw [hsx, List.take_left, List.drop_left]
  have e : (a ++ c!"#*" ++ t ++ c!"*#" ++ j).length + 1 = (a ++ c!"#*" ++ t ++ c!"*#" ++ j ++ c!"\n").length := by rw [List.length_append (bs := c!"\n")]; rfl
  unfold Cx.afterMl
  rw [hcl, hx.gobbleMl, hx.bp, if_pos (by rw [hsx]; simp)]
  simp only [bind, Except.bind, heol.1]
  rw [goto_le hx (by rw [hsx]; simp)]
  simp only [hsl, strip_blanks hj, if_true, Cx.readToEOL, heol.2, e, bind, Except.bind]
  rw [goto_le hx (by rw [hsx]; simp)]
  simp only [Bool.true_and]
  rw [if_pos (by rw [← e]; simp only [Bool.or_eq_true, decide_eq_true_eq]; right; omega)]
  rfl

/-- `#*s*#` with something behind it. -/
theorem reach_aside (hp : Tame h) {a t j b : Str} {c : Char} {s : PS} (hs : h.src = a ++ c!"#*" ++ t ++ c!"*#" ++ (j ++ c :: b)) (ha : NoBs a) (hb : BusyLine a ∨ OneLine t) (ht : Inner t)
    (hj : Blanks j) (hc : isSpace c = false) (hpos : s.pos = a.length) (hbp : s.bp = h.src.length) :
    Reaches h s (s.emit [.comment t] (a ++ c!"#*" ++ t ++ c!"*#").length) := by
  refine reach_ml hp hs ha ht hpos hbp (by simp) ?_
  have hx : Std (h.px h.src.length).toCx := hp.std
  generalize hX : h.px h.src.length = x at hx
  have hsx : x.src = a ++ c!"#*" ++ t ++ c!"*#" ++ (j ++ c :: b) := by rw [← hX]; exact hs
  have hone : OneLine (j ++ [c]) := by
    intro d hd
    simp at hd
    rcases hd with hd | rfl
    · have := hj d hd
      simp at this
      rcases this with rfl | rfl | rfl <;> decide
    · constructor <;> (rintro rfl; exact absurd hc (by decide +kernel))
  obtain ⟨v, w, hv, hw, hb2⟩ : ∃ v w, b = v ++ w ∧ OneLine v ∧ (w = [] ∨ (∃ r, w = '\n' :: r) ∨ ∃ r, w = '\r' :: r) := line_of b
  have heol : x.eol (a ++ c!"#*" ++ t ++ c!"*#").length = (a ++ c!"#*" ++ t ++ c!"*#" ++ (j ++ [c] ++ v)).length :=
    eol_to' (b := w) (by rw [hsx, hv]; simp) (hone.append hw) hb2
  have hsl : x.slice (a ++ c!"#*" ++ t ++ c!"*#").length (a ++ c!"#*" ++ t ++ c!"*#" ++ (j ++ [c] ++ v)).length = j ++ [c] ++ v := by
    simp only [Cx.slice]
    rw [show x.src = a ++ c!"#*" ++ t ++ c!"*#" ++ (j ++ [c] ++ v) ++ w by rw [hsx, hv]; simp, List.take_left, List.drop_left]
  have hcl : x.lineClear a.length = false ∨ x.eol a.length = (a ++ c!"#*" ++ t ++ c!"*#" ++ (j ++ [c] ++ v)).length := by
    rcases hb with hb | hb
    · exact .inl (lineClear_busy (b := c!"#*" ++ (t ++ (c!"*#" ++ (j ++ c :: b)))) (by rw [hsx]; simp) hb)
    · refine .inr ?_
      have := eol_to' (x := x.toCx) (a := a) (t := c!"#*" ++ t ++ c!"*#" ++ (j ++ [c] ++ v)) (b := w) (by rw [hsx, hv]; simp)
        (OneLine.append (OneLine.append (OneLine.append (by unfold OneLine; decide) hb) (by unfold OneLine; decide)) (hone.append hw)) hb2
      rw [this]
      simp
  have hne : strip (j ++ [c] ++ v) ≠ [] := by
    intro h0
    have := strip_nil_all h0 c (by simp)
    rw [hc] at this
    cases this
  unfold Cx.afterMl
  rw [hx.gobbleMl, hx.bp, if_pos (by rw [hsx]; simp)]
  simp only [bind, Except.bind, heol]
  rw [goto_le hx (by rw [hsx, hv]; simp)]
  simp only [hsl, hne, if_false]
  rw [if_neg]
  · rfl
  · rcases hcl with hcl | hcl
    · simp [hcl]
    · rw [hcl]
      simp [hsx]

/-- `#slurp`, or `#` alone, at the end of a line with something on it. -/
theorem slurp_reach (hp : Tame h) {a b : Str} {s : PS} (long : Bool) (hs : h.src = a ++ '#' :: ((if long then c!"slurp" else []) ++ '\n' :: b)) (ha : BusyLine a) (hna : NoBs a)
    (hpos : s.pos = a.length) (hbp : s.bp = h.src.length) (hst : s.st = fullSt) :
    Reaches h s (s.emit [.commit] (a ++ c!"#" ++ (if long then c!"slurp" else []) ++ c!"\n").length) := by
  have hx : Std (h.px h.src.length).toCx := hp.std
  have hsl : (h.px h.src.length).slurp a.length = .ok ([.commit], (a ++ c!"#" ++ (if long then c!"slurp" else []) ++ c!"\n").length) := by
    generalize hX : h.px h.src.length = x at hx
    have hsx : x.src = a ++ '#' :: ((if long then c!"slurp" else []) ++ '\n' :: b) := by rw [← hX]; exact hs
    have hcl : x.lineClear a.length = false := lineClear_busy hsx ha
    have heol := (eol_at (x := x.toCx) (a := a) (t := '#' :: (if long then c!"slurp" else [])) (b := b) (by rw [hsx]; simp) (by cases long <;> decide)).2
    have e : (a ++ '#' :: (if long then c!"slurp" else [])).length + 1 = (a ++ c!"#" ++ (if long then c!"slurp" else []) ++ c!"\n").length := by simp; omega
    rw [e] at heol
    unfold Px.slurp Cx.readToEOL
    simp only [if_true, heol, bind, Except.bind]
    rw [goto_le hx (by rw [hsx]; cases long <;> simp)]
    simp [hcl]
  cases long with
  | true =>
    refine reach_dir' hp (L := c!"slurp") hs hna ⟨'s', _, rfl, by decide⟩ (name := c!"slurp") rfl hpos hbp hst (act := .go [.commit] (a ++ c!"#" ++ c!"slurp" ++ c!"\n").length) ?_ (fun k => by rw [Env.perform]; rfl) ?_
    · show ((h.px h.src.length).slurp a.length).map _ = _
      rw [hsl]
      rfl
    · simp [PS.emit]
  | false =>
    simp only [Bool.false_eq_true, if_false, List.nil_append, List.append_nil] at hs hsl ⊢
    obtain ⟨ns, hcfg⟩ := id hx.cfg
    have hsx : (h.px h.src.length).src = a ++ '#' :: ('\n' :: b) := hs
    have htag : (h.px h.src.length).tagAt a.length = .ok (some .slurp) := by
      generalize hX : h.px h.src.length = x at hx hsx hcfg
      have h1 : x.matchTok x.cfg.com a.length = none := by
        rw [← Option.not_isSome_iff_eq_none, matchTok_iff _ hsx, hcfg]
        rintro ⟨_, r, hr⟩
        simp [Cfg.std] at hr
      have h2 : x.matchTok x.cfg.mlStart a.length = none := by
        rw [← Option.not_isSome_iff_eq_none, matchTok_iff _ hsx, hcfg]
        rintro ⟨_, r, hr⟩
        simp [Cfg.std] at hr
      have h3 : x.matchTok x.cfg.psp a.length = none := by
        rw [← Option.not_isSome_iff_eq_none, matchTok_iff _ hsx, hcfg]
        rintro ⟨_, r, hr⟩
        simp [Cfg.std] at hr
      obtain ⟨v1, v2⟩ := novar_at (x := x.toCx) hsx (by rw [hcfg]; rfl) (by decide)
      obtain ⟨o, d1, d2⟩ := matchDirective_spec (x := x.toCx) (by rw [hcfg]; rfl) (by rw [hcfg]; rfl) hx.bp hsx
      have ho : o = none := by
        cases o with
        | none => rfl
        | some n =>
          obtain ⟨_, r, hr, ⟨c, hc, hl⟩, _⟩ := (d2 n).1 rfl
          injection hr with _ hr
          subst hr
          injection hc with hc
          subst hc
          rcases hl with hl | hl
          · rw [← identStart_iff] at hl; exact absurd hl (by decide)
          · simp at hl
      have h4 : x.matchSlurp a.length = true := (matchSlurp_iff (by rw [hcfg]; rfl) hsx).2 ⟨[], c!"\n", b, by simp, .inl rfl, rfl⟩
      have v3 : x.matchExprStart a.length = false := by unfold Cx.matchExprStart; rw [rest_after hsx, hcfg]; simp [Cfg.std, stripPrefix?]
      unfold Cx.tagAt
      rw [h1, h2, v2, v3, d1, ho]
      simp [h3, h4, bind, Except.bind]
    have hlen := congrArg List.length hs
    simp only [List.length_append, List.length_cons] at hlen
    intro k hk
    obtain ⟨k, rfl⟩ : ∃ j, k = j + 1 := ⟨k - 1, by rw [hpos] at hk; omega⟩
    refine ⟨k, ?_, ?_⟩
    · simp [PS.emit]; omega
    · rw [Env.loop, hbp, hpos, if_neg (by omega)]
      simp only [htag, bind, Except.bind, reduceCtorEq, if_false, Px.simple, hsl, Option.some.injEq]

/-! #### Where lines end -/

theorem AtBol.endsLine {bol : Bool} {a t : Str} (hb : AtBol bol t) (ha : bol = true → EndsLine a) : EndsLine (a ++ t) := by
  rcases hb with ⟨rfl, hb⟩ | hb
  · rw [List.append_nil]; exact ha hb
  · obtain ⟨u, rfl⟩ : ∃ u, t = u ++ c!"\n" := List.getLast?_eq_some_iff.1 hb
    rw [← List.append_assoc]
    exact .inr ⟨_, _, rfl, rfl⟩

theorem endsLine_nl (a : Str) : EndsLine (a ++ c!"\n") := .inr ⟨a, '\n', rfl, rfl⟩

theorem clear_blanks {a i : Str} (ha : EndsLine a) (hi : Blanks i) : Clear (a ++ i) := ⟨a, i, rfl, ha, hi⟩

theorem Place.busy {tok : Str → Option Nat} {a : Str} {p : Place} {r : Str} {sl : Bool} (h : p.Ok tok r) : BusyLine (a ++ p.src sl) := by
  have hdot : isSpace '$' = false := by decide +kernel
  have brk : ∀ {o : Char}, o ∈ c!"([" → OneLine [o] ∧ OneLine [closing o] := by
    intro o ho
    simp at ho
    rcases ho with rfl | rfl <;> exact ⟨by unfold OneLine; decide, by unfold OneLine; decide⟩
  have hn : ∀ {n : Name}, n.Ok tok → OneLine n.src := by
    intro n hn
    induction n with
    | chain u m o i gs n ih =>
      have h1 : OneLine (dottedPath u m) := Dotted.no_eol (dottedPath_ok hn.1 hn.2.1)
      have h2 : OneLine i.src := Ex.no_eol _ _ _ hn.2.2.2.1.1
      have h3 : OneLine gs.src := Ex.no_eol _ _ _ hn.2.2.2.1.2.1
      have := (h1.append ((brk hn.2.2.1).1.append h2)).append (((brk hn.2.2.1).2.append h3).append (OneLine.append (s := c!".") (by unfold OneLine; decide) (ih hn.2.2.2.2)))
      simpa [Name.src] using this
    | plain w => exact Dotted.no_eol hn
    | post u m o i gs =>
      have h1 : OneLine (dottedPath u m) := Dotted.no_eol (dottedPath_ok hn.1 hn.2.1)
      have h2 : OneLine i.src := Ex.no_eol _ _ _ hn.2.2.2.1
      have h3 : OneLine gs.src := Ex.no_eol _ _ _ hn.2.2.2.2.1
      have := (h1.append ((brk hn.2.2.1).1.append h2)).append ((brk hn.2.2.1).2.append h3)
      simpa [Name.src] using this
  have hs : OneLine (if sl then c!"!" else []) := by cases sl <;> (unfold OneLine; decide)
  cases p with
  | short n => exact ⟨a, '$', _, rfl, hdot, hs.append (hn h.1)⟩
  | long n e =>
    refine ⟨a, '$', _, rfl, hdot, hs.append ?_⟩
    have h2 : OneLine e.src := Ex.no_eol _ _ _ h.2.2.1
    have h3 := (OneLine.append (s := c!"{") (by unfold OneLine; decide) ((hn h.1).append h2)).append (t := c!"}") (by unfold OneLine; decide)
    simpa using h3

/-- The text before a directive lets it stand where it is said to. -/
def Lead.Sits : Lead → Str → Prop
  | .own _, a => Clear a
  | .inl, _ => True
  | .tail, a => BusyLine a

/-- What follows a directive lets it end where it is said to. -/
def Lead.Before : Lead → Str → Prop
  | .own _, _ => True
  | .inl, r => r ≠ [] ∧ ∀ q, r = '#' :: q → IsDir r
  | .tail, r => ∃ q, r = '\n' :: q

theorem Lead.Fits.sits {l : Lead} {bol : Bool} {a t : Str} (hf : l.Fits bol t) (hb : bol = true → EndsLine a) (hn : bol = false → BusyLine a) : l.Sits (a ++ (t ++ l.pre)) := by
  cases l with
  | own i => rw [← List.append_assoc]; exact clear_blanks (hf.2.endsLine hb) hf.1
  | inl => trivial
  | tail => simp only [Lead.pre, List.append_nil]; exact hf.2.line hn

theorem Lead.stops (l : Lead) : Stop l.stop := by
  cases l with
  | own i => exact .inl rfl
  | inl => exact .inr rfl
  | tail => exact .inl rfl

theorem Lead.close {l : Lead} {a r : Str} (hs : l.Sits a) (hb : l.Before r) : ∃ b, l.post ++ r = l.stop :: b ∧ Close a l.stop b l.post l.ws := by
  cases l with
  | own i => exact ⟨r, rfl, .inl ⟨rfl, rfl, rfl, hs⟩⟩
  | inl => exact ⟨r, rfl, .inr (.inl ⟨rfl, rfl, rfl, hb.1, hb.2⟩)⟩
  | tail =>
    obtain ⟨q, rfl⟩ := hb
    exact ⟨q, rfl, .inr (.inr ⟨rfl, rfl, rfl, hs⟩)⟩

/-- The text up to the end of a directive. -/
theorem Lead.after (l : Lead) (A : Str) {L : Str} (h1 : OneLine L) (h2 : NoBs L) :
    NoBs (A ++ c!"#" ++ L ++ l.post) ∧ (l.bol = true → EndsLine (A ++ c!"#" ++ L ++ l.post)) ∧ (l.bol = false → BusyLine (A ++ c!"#" ++ L ++ l.post)) := by
  have hh : isSpace '#' = false := by decide +kernel
  cases l with
  | own i => exact ⟨NoBs.snoc _ (by decide), fun _ => endsLine_nl _, by simp [Lead.bol]⟩
  | inl => exact ⟨NoBs.snoc _ (by decide), by simp [Lead.bol], fun _ => ⟨A ++ c!"#" ++ L, '#', [], rfl, hh, by unfold OneLine; decide⟩⟩
  | tail =>
    simp only [Lead.post, List.append_nil]
    exact ⟨NoBs.append (NoBs.snoc _ (by decide)) h2, by simp [Lead.bol], fun _ => ⟨A, '#', L, by simp, hh, h1⟩⟩

theorem NoBs.more {a i : Str} (ha : NoBs a) (hi : Blanks i) : NoBs (a ++ i) := by
  refine ha.append ?_
  intro hl
  have := hi _ (List.mem_of_getLast? hl)
  simp at this

theorem Blanks.own {i : Str} {t : Str} {bol : Bool} (hi : Blanks i) (ht : AtBol bol t) : (Lead.own i).Fits bol t := ⟨hi, ht⟩

/-- What stands before the directive that follows a source. -/
theorem Doc.ends {tok : Str → Option Nat} {l : Lead} : ∀ (d : Doc) {bol : Bool} {a : Str}, d.Ok tok bol (some l) → NoBs a → (bol = true → EndsLine a) → (bol = false → BusyLine a) →
    NoBs (a ++ d.src) ∧ Blanks l.pre ∧ l.Sits (a ++ d.src ++ l.pre) := by
  intro d
  induction d using Doc.rec (motive_2 := fun _ => True) (motive_3 := fun _ => True) with
  | done t =>
    intro bol a h ha hb hn
    have hf := h.2 l rfl
    refine ⟨ha.append h.1.noBs, hf.plain, ?_⟩
    rw [List.append_assoc]
    exact hf.sits hb hn
  | place t sl p rest ih =>
    intro bol a h ha hb hn
    have := ih (a := a ++ t ++ p.src sl) h.2.2.2 ((ha.append h.1.noBs).append (Place.noBs h.2.1)) (by simp) (fun _ => Place.busy h.2.1)
    simpa only [Doc.src, List.append_assoc] using this
  | stm t k s rest ih =>
    intro bol a h ha hb hn
    obtain ⟨f1, f2, f3⟩ := k.after (a ++ t ++ k.pre) (s.oneLine h.2.2.1) (s.noBs h.2.2.1)
    have := ih (a := a ++ t ++ k.pre ++ c!"#" ++ s.line ++ k.post) h.2.2.2.2 f1 f2 f3
    simpa only [Doc.src, List.append_assoc] using this
  | note t i s rest ih =>
    intro bol a h ha hb hn
    have := ih (a := a ++ t ++ i ++ c!"##" ++ s ++ c!"\n") h.2.2.2.2.2 (NoBs.snoc _ (by decide)) (fun _ => endsLine_nl _) (by simp)
    simpa only [Doc.src, List.append_assoc] using this
  | remark t s rest ih =>
    intro bol a h ha hb hn
    obtain ⟨h1, h2, h3, h4, h5, h5b, h6, h7⟩ := h
    have hbl : BusyLine (a ++ t ++ c!"##" ++ s) := by rw [List.append_assoc]; exact (h3.line hn).append (OneLine.append (by unfold OneLine; decide) h4)
    have := ih (a := a ++ t ++ c!"##" ++ s) h7 (NoBs.append (by rw [show a ++ t ++ c!"##" = (a ++ t ++ c!"#") ++ c!"#" by simp]; exact NoBs.snoc _ (by decide)) h5b) (by simp) (fun _ => hbl)
    simpa only [Doc.src, List.append_assoc] using this
  | notes t i s j rest ih =>
    intro bol a h ha hb hn
    have := ih (a := a ++ t ++ i ++ c!"#*" ++ s ++ c!"*#" ++ j ++ c!"\n") h.2.2.2.2.2 (NoBs.snoc _ (by decide)) (fun _ => endsLine_nl _) (by simp)
    simpa only [Doc.src, List.append_assoc] using this
  | aside t s rest ih =>
    intro bol a h ha hb hn
    have := ih (a := a ++ t ++ c!"#*" ++ s ++ c!"*#") h.2.2.2.2.2 (NoBs.append_last (by decide)) (by simp) (fun _ => busy_aside _)
    simpa only [Doc.src, List.append_assoc] using this
  | block t k hd body more j rest _ _ ih =>
    intro bol a h ha hb hn
    obtain ⟨g1, g2, _⟩ := hd.end_facts j.stops []
    obtain ⟨f1, f2, f3⟩ := j.after (a ++ t ++ k.pre ++ c!"#" ++ hd.line ++ k.post ++ body.src ++ more.src ++ j.pre) g1 g2
    have := ih (a := a ++ t ++ k.pre ++ c!"#" ++ hd.line ++ k.post ++ body.src ++ more.src ++ j.pre ++ c!"#" ++ (c!"end " ++ hd.name) ++ j.post) h.2.2.2.2.2.2.2.2.2 f1 f2 f3
    have e : c!"#" ++ (c!"end " ++ (hd.name ++ (j.post ++ rest.src))) = c!"#end " ++ (hd.name ++ (j.post ++ rest.src)) := rfl
    simpa only [Doc.src, List.append_assoc, e] using this
  | wrap t k n w body j rest _ ih =>
    intro bol a h ha hb hn
    obtain ⟨g1, g2, _⟩ := w.end_facts j.stops []
    obtain ⟨f1, f2, f3⟩ := j.after (a ++ t ++ k.pre ++ c!"#" ++ w.line ++ k.post ++ body.src ++ j.pre) g1 g2
    have := ih (a := a ++ t ++ k.pre ++ c!"#" ++ w.line ++ k.post ++ body.src ++ j.pre ++ c!"#" ++ (c!"end " ++ w.name) ++ j.post) h.2.2.2.2.2.2 f1 f2 f3
    have e : c!"#" ++ (c!"end " ++ (w.name ++ (j.post ++ rest.src))) = c!"#end " ++ (w.name ++ (j.post ++ rest.src)) := rfl
    simpa only [Doc.src, List.append_assoc, e] using this
  | keywords t k n f as first args j rest _ _ ih =>
    intro bol a h ha hb hn
    obtain ⟨g1, g2, _⟩ := (Wrap.call f as).end_facts j.stops []
    obtain ⟨f1, f2, f3⟩ := j.after (a ++ t ++ k.pre ++ c!"#" ++ (Wrap.call f as).line ++ k.post ++ first.src ++ args.src ++ j.pre) g1 g2
    have := ih (a := a ++ t ++ k.pre ++ c!"#" ++ (Wrap.call f as).line ++ k.post ++ first.src ++ args.src ++ j.pre ++ c!"#" ++ (c!"end " ++ (Wrap.call f as).name) ++ j.post) h.2.2.2.2.2.2.2.2.2 f1 f2 f3
    have e : c!"#" ++ (c!"end " ++ (c!"call" ++ (j.post ++ rest.src))) = c!"#end call" ++ (j.post ++ rest.src) := rfl
    simpa only [Doc.src, List.append_assoc, Wrap.name, e] using this
  | slurp t long rest ih =>
    intro bol a h ha hb hn
    have := ih (a := a ++ t ++ c!"#" ++ (if long then c!"slurp" else []) ++ c!"\n") h.2.2.2 (NoBs.snoc _ (by decide)) (fun _ => endsLine_nl _) (by simp)
    simpa only [Doc.src, List.append_assoc] using this
  | raw t i s j rest ih =>
    intro bol a h ha hb hn
    have hel : EndsLine (a ++ t ++ i ++ c!"#raw\n" ++ s ++ j ++ c!"#end raw\n") := .inr ⟨a ++ t ++ i ++ c!"#raw\n" ++ s ++ j ++ c!"#end raw", '\n', by simp, rfl⟩
    have := ih (a := a ++ t ++ i ++ c!"#raw\n" ++ s ++ j ++ c!"#end raw\n") h.2.2.2.2.2.2 (EndsLine.unescaped hel) (fun _ => hel) (by simp)
    simpa only [Doc.src, List.append_assoc] using this
  | region t i r body j rest _ ih =>
    intro bol a h ha hb hn
    have := ih (a := a ++ t ++ i ++ c!"#" ++ r.line ++ c!"\n" ++ body.src ++ j ++ c!"#end " ++ r.name ++ c!"\n") h.2.2.2.2.2.2 (NoBs.snoc _ (by decide)) (fun _ => endsLine_nl _) (by simp)
    simpa only [Doc.src, List.append_assoc] using this
  | fin => trivial
  | part => trivial
  | last => trivial
  | arg => trivial

theorem Part.oneLine {tok : Str → Option Nat} (p : Part) (hs : p.Ok tok z) : OneLine p.line := by
  cases p with
  | elif e => exact OneLine.append (by unfold OneLine; decide) (Ex.no_eol _ _ _ hs.1.ok)
  | except_ e =>
    cases e with
    | none => unfold OneLine; decide
    | some e => exact OneLine.append (by unfold OneLine; decide) (Ex.no_eol _ _ _ (Tidy.ok hs))
  | _ => unfold OneLine; decide

theorem Part.noBs {tok : Str → Option Nat} (p : Part) (hs : p.Ok tok z) : NoBs p.line := by
  cases p with
  | elif e => exact hs.1.noBs _
  | except_ e =>
    cases e with
    | none => unfold NoBs; decide
    | some e => exact Tidy.noBs hs _
  | _ => unfold NoBs; decide

theorem arg_facts {n : Str} (hn : Word n) (b : Str) : (∃ c r, c!"arg " ++ n = c :: r ∧ identStart c = true) ∧ directiveOf stdNames (c!"arg " ++ n ++ z :: b) = some c!"arg" ∧
    OneLine (c!"arg " ++ n) ∧ NoBs (c!"arg " ++ n) :=
  ⟨⟨'a', _, rfl, by decide⟩, rfl, OneLine.append (by unfold OneLine; decide) hn.no_eol, NoBs.append (by unfold NoBs; decide) (Dotted.one n hn).noBs⟩

/-- What stands before the `#end` of a `#call` with `#arg`s. -/
theorem Kws.ends {tok : Str → Option Nat} {j : Lead} : ∀ (m : Kws) {a : Str}, m.Ok tok j → NoBs a → Blanks (m.next j).pre → (m.next j).Sits (a ++ (m.next j).pre) →
    NoBs (a ++ m.src) ∧ Blanks j.pre ∧ j.Sits (a ++ m.src ++ j.pre)
  | .last, a, _, ha, hb, hs => by simpa [Kws.src] using ⟨ha, hb, hs⟩
  | .arg l n body more, a, h, ha, hb, hs => by
    obtain ⟨h1, _, h5, h6⟩ := h
    obtain ⟨_, _, k1, k2⟩ := arg_facts (z := l.stop) h1 []
    obtain ⟨f1, f2, f3⟩ := l.after (a ++ l.pre) k1 k2
    obtain ⟨g1, g2, g3⟩ := Doc.ends body (a := a ++ l.pre ++ c!"#" ++ (c!"arg " ++ n) ++ l.post) h5 f1 f2 f3
    have := Kws.ends more h6 g1 g2 g3
    simpa only [Kws.src, List.append_assoc] using this

/-- What stands before the `#end` of a block. -/
theorem More.ends {tok : Str → Option Nat} {j : Lead} : ∀ (m : More) {hd : Head} {n : Nat} {a : Str}, m.Ok tok hd n j → NoBs a → Blanks (m.next j).pre → (m.next j).Sits (a ++ (m.next j).pre) →
    NoBs (a ++ m.src) ∧ Blanks j.pre ∧ j.Sits (a ++ m.src ++ j.pre)
  | .fin, _, _, a, _, ha, hb, hs => by simpa [More.src] using ⟨ha, hb, hs⟩
  | .part l p body more, hd, n, a, h, ha, hb, hs => by
    obtain ⟨h1, _, _, _, h5, h6⟩ := h
    obtain ⟨f1, f2, f3⟩ := l.after (a ++ l.pre) (p.oneLine h1) (p.noBs h1)
    obtain ⟨g1, g2, g3⟩ := Doc.ends body (a := a ++ l.pre ++ c!"#" ++ p.line ++ l.post) h5 f1 f2 f3
    have := More.ends more h6 g1 g2 g3
    simpa only [More.src, List.append_assoc] using this

theorem Lead.Then.starts {l : Lead} {d : Doc} {m : Bool} (h : l.Then d m) (Y : Str) : ∃ b, l.post ++ (d.src ++ Y) = l.stop :: b := by
  cases l with
  | own i => exact ⟨_, rfl⟩
  | inl => exact ⟨_, rfl⟩
  | tail =>
    obtain ⟨r, hr⟩ := h
    exact ⟨r ++ Y, by rw [hr]; rfl⟩

/-- What follows a source: nothing, or the blanks of a directive and the directive. -/
def Follows (nxt : Option Lead) (i b : Str) : Prop :=
  match nxt with
  | none => i = [] ∧ b = []
  | some l => i = l.pre ∧ IsDir b

theorem Follows.nil {nxt : Option Lead} {i b : Str} (h : Follows nxt i b) (hi : nxt.isSome = true) : b ≠ [] := by
  cases nxt with
  | none => simp at hi
  | some l =>
    obtain ⟨c, r, _, e, _⟩ := h.2
    rw [e]
    simp

/-- What follows the `#` that closes a directive is not taken for a comment. -/
theorem Doc.Joins.dir {tok : Str → Option Nat} {d : Doc} {nxt : Option Lead} {i b : Str} (hj : d.Joins) (hok : d.Ok tok false nxt) (hf : Follows nxt i b) :
    ∀ q, d.src ++ i ++ b = '#' :: q → IsDir (d.src ++ i ++ b) := by
  intro q hq
  have hbol : ∀ {t : Str}, AtBol false t → t ≠ [] := by
    rintro t (⟨_, h⟩ | h) rfl
    · simp at h
    · simp at h
  have hown : ∀ {k : Lead}, k.Fits false [] → k.pre = [] := by
    intro k hk
    cases k with
    | own i => exact absurd rfl (hbol hk.2)
    | inl => rfl
    | tail => rfl
  have hne : ∀ {t Y : Str}, t.head? ≠ some '#' → t ≠ [] → t ++ Y ≠ '#' :: q := by
    intro t Y h1 h2 h3
    cases t with
    | nil => exact h2 rfl
    | cons c t =>
      injection h3 with h3
      exact h1 (by rw [h3]; rfl)
  have hh := hj.1
  have key : d.text = [] := by
    refine Classical.byContradiction fun h => ?_
    have : ∃ Y, d.src ++ i ++ b = d.text ++ Y := by cases d <;> simp [Doc.src, Doc.text]
    obtain ⟨Y, hY⟩ := this
    exact hne hh h (hY.symm.trans hq)
  cases d with
  | done t =>
    have key : t = [] := key
    subst key
    cases nxt with
    | none =>
      obtain ⟨rfl, rfl⟩ := hf
      simp [Doc.src] at hq
    | some k =>
      obtain ⟨rfl, hb⟩ := hf
      rw [hown (hok.2 k rfl)]
      exact hb
  | place t sl p rest =>
    have key : t = [] := key
    subst key
    exfalso
    cases p <;> simp [Doc.src, Place.src] at hq
  | stm t k s rest =>
    have key : t = [] := key
    subst key
    obtain ⟨_, h2, h3, h4, _⟩ := hok
    obtain ⟨w, hw⟩ := h4.starts (i ++ b)
    obtain ⟨f1, n, f2⟩ := s.facts tok k.stops h3 w
    have e : (Doc.stm [] k s rest).src ++ i ++ b = '#' :: (s.line ++ k.stop :: w) := by rw [← hw]; simp [Doc.src, hown h2]
    rw [e]
    exact isDir_line f1 f2
  | note t k s rest => exact absurd key (hbol hok.2.2.1)
  | remark t s rest => exact absurd key hj.2
  | notes t k s j rest => exact absurd key (hbol hok.2.2.1)
  | aside t s rest => exact absurd key hj.2
  | slurp t long rest => exact absurd key hj.2
  | raw t k s j rest => exact absurd key (hbol hok.2.2.1)
  | region t k r body j rest => exact absurd key (hbol hok.2.2.1)
  | block t k hd body more j rest =>
    have key : t = [] := key
    subst key
    obtain ⟨_, h2, h3, _, h4, _⟩ := hok
    obtain ⟨w, hw⟩ := h4.starts (more.src ++ (j.pre ++ (c!"#end " ++ (hd.name ++ (j.post ++ (rest.src ++ (i ++ b)))))))
    obtain ⟨f1, f2⟩ := hd.facts k.stops w
    have e : (Doc.block [] k hd body more j rest).src ++ i ++ b = '#' :: (hd.line ++ k.stop :: w) := by rw [← hw]; simp [Doc.src, hown h2]
    rw [e]
    exact isDir_line f1 f2
  | wrap t k n wr body j rest =>
    have key : t = [] := key
    subst key
    obtain ⟨_, h2, h3, h4, _⟩ := hok
    obtain ⟨w, hw⟩ := h4.starts (j.pre ++ (c!"#end " ++ (wr.name ++ (j.post ++ (rest.src ++ (i ++ b))))))
    obtain ⟨f1, f2⟩ := wr.facts (z := k.stop) w
    have e : (Doc.wrap [] k n wr body j rest).src ++ i ++ b = '#' :: (wr.line ++ k.stop :: w) := by rw [← hw]; simp [Doc.src, hown h2]
    rw [e]
    exact isDir_line f1 f2
  | keywords t k n f as first args j rest =>
    have key : t = [] := key
    subst key
    obtain ⟨_, h2, h3, _, h4, _⟩ := hok
    obtain ⟨w, hw⟩ := h4.starts (args.src ++ (j.pre ++ (c!"#end call" ++ (j.post ++ (rest.src ++ (i ++ b))))))
    obtain ⟨f1, f2⟩ := (Wrap.call f as).facts (z := k.stop) w
    have e : (Doc.keywords [] k n f as first args j rest).src ++ i ++ b = '#' :: ((Wrap.call f as).line ++ k.stop :: w) := by rw [← hw]; simp [Doc.src, hown h2]
    rw [e]
    exact isDir_line f1 f2

theorem Lead.Then.before {tok : Str → Option Nat} {l : Lead} {d : Doc} {nxt : Option Lead} {i b : Str} (h : l.Then d nxt.isSome) (hd : d.Ok tok l.bol nxt) (hf : Follows nxt i b) :
    l.Before (d.src ++ i ++ b) := by
  cases l with
  | own k => trivial
  | inl =>
    refine ⟨?_, h.1.dir hd hf⟩
    rcases h.2 with h2 | h2
    · simp [h2]
    · simp [hf.nil h2]
  | tail =>
    obtain ⟨r, hr⟩ := h
    exact ⟨r ++ i ++ b, by rw [hr]; rfl⟩

/-- What follows a block's body starts with the blanks of the next directive. -/
theorem More.split {tok : Str → Option Nat} (m : More) (hd : Head) {n : Nat} {j : Lead} {b : Str} (hm : m.Ok tok hd n j) (hj : j.Before b) :
    ∃ X, m.src ++ j.pre ++ '#' :: (c!"end " ++ hd.name ++ (j.post ++ b)) = (m.next j).pre ++ X ∧ IsDir X := by
  cases m with
  | fin =>
    refine ⟨_, rfl, ?_⟩
    obtain ⟨w, hw⟩ : ∃ w, j.post ++ b = j.stop :: w := by
      cases j with
      | own i => exact ⟨_, rfl⟩
      | inl => exact ⟨_, rfl⟩
      | tail => obtain ⟨q, rfl⟩ := hj; exact ⟨_, rfl⟩
    rw [hw]
    exact ⟨'e', _, c!"end", rfl, by decide, (hd.end_facts j.stops w).2.2⟩
  | part l p body more =>
    obtain ⟨w, hw⟩ := hm.2.2.2.1.starts (more.src ++ j.pre ++ '#' :: (c!"end " ++ hd.name ++ (j.post ++ b)))
    refine ⟨'#' :: (p.line ++ l.stop :: w), ?_, isDir_line (p.facts l.stops w).1 (p.facts l.stops w).2⟩
    rw [← hw]
    simp [More.src, More.next]

/-- What follows the first part of a `#call` with `#arg`s starts with the blanks of the next directive. -/
theorem Kws.split {tok : Str → Option Nat} (m : Kws) {j : Lead} {b : Str} (hm : m.Ok tok j) (hj : j.Before b) :
    ∃ X, m.src ++ j.pre ++ '#' :: (c!"end call" ++ (j.post ++ b)) = (m.next j).pre ++ X ∧ IsDir X := by
  cases m with
  | last =>
    refine ⟨_, rfl, ?_⟩
    obtain ⟨w, hw⟩ : ∃ w, j.post ++ b = j.stop :: w := by
      cases j with
      | own i => exact ⟨_, rfl⟩
      | inl => exact ⟨_, rfl⟩
      | tail => obtain ⟨q, rfl⟩ := hj; exact ⟨_, rfl⟩
    rw [hw]
    exact ⟨'e', _, c!"end", rfl, by decide, ((Wrap.call [] none).end_facts j.stops w).2.2⟩
  | arg l n body more =>
    obtain ⟨w, hw⟩ := hm.2.1.starts (more.src ++ j.pre ++ '#' :: (c!"end call" ++ (j.post ++ b)))
    obtain ⟨f1, f2, _, _⟩ := arg_facts (z := l.stop) hm.1 w
    refine ⟨'#' :: (c!"arg " ++ n ++ l.stop :: w), ?_, isDir_line f1 f2⟩
    rw [← hw]
    simp [Kws.src, Kws.next]

theorem arg_reach (hp : Tame h) {a b n : Str} {s : PS} (hs : h.src = a ++ '#' :: (c!"arg " ++ n ++ z :: b)) (ha : NoBs a) (hc : Close a z b post ws)
    (hok : Word n) (hpos : s.pos = a.length) (hbp : s.bp = h.src.length) (hst : s.st = fullSt) :
    Reaches h s (s.emit (.callArg n :: ws) (a ++ c!"#" ++ (c!"arg " ++ n) ++ post).length) := by
  obtain ⟨f1, f2, f3, f4⟩ := arg_facts (z := z) hok b
  have o : DLine (h.px h.src.length) a (c!"arg " ++ n) z b post ws := ⟨hp.std, names_std hp.toPlain, hp.toks, hp.brackets, hs, ha, f3, fun _ => f4, hc⟩
  exact reach_dir hp (name := c!"arg") o f1 f2 hpos hbp hst (arg_ex o hok) (fun k => by rw [Env.perform]) rfl

theorem Name.Ends.extend {n : Name} {r X : Str} (h : n.Ends r) (hX : ∀ c, X.head? = some c → c ∈ c!" \t\x0c#") : n.Ends (r ++ X) := by
  have hl : ∀ {c : Char}, c ∈ c!" \t\x0c#" → identChar c = false ∧ ¬ Letter c ∧ c ∉ c!"([{" ∧ c ≠ '.' := by
    intro c hc
    simp at hc
    rcases hc with rfl | rfl | rfl | rfl <;> exact ⟨by decide, by rw [← identStart_iff]; decide, by decide, by decide⟩
  cases r with
  | nil =>
    cases X with
    | nil => exact h
    | cons c X =>
      obtain ⟨h1, h2, h3, h4⟩ := hl (hX c rfl)
      clear h
      induction n with
      | chain u m o i gs n ih => exact ih
      | plain w => exact ⟨h1, by simp at h3 ⊢; tauto, fun e => absurd e h4⟩
      | post u m o i gs => exact ⟨h2, fun _ => h3, fun e => absurd e h4⟩
  | cons c r =>
    have key : (c = '.' → ∀ d, r.head? = some d → ¬ Letter d) → c = '.' → ∀ d, (r ++ X).head? = some d → ¬ Letter d := by
      intro h1 hc d hd
      cases r with
      | nil => exact (hl (hX d hd)).2.1
      | cons e r => exact h1 hc d hd
    induction n with
    | chain u m o i gs n ih => exact ih h
    | plain w => exact ⟨h.1, h.2.1, key h.2.2⟩
    | post u m o i gs => exact ⟨h.1, h.2.1, key h.2.2⟩

theorem Place.Ok.extend {tok : Str → Option Nat} {p : Place} {r X : Str} (h : p.Ok tok r) (hX : ∀ c, X.head? = some c → c ∈ c!" \t\x0c#") : p.Ok tok (r ++ X) := by
  cases p with
  | short n => exact ⟨h.1, h.2.extend hX⟩
  | long n e =>
    refine ⟨h.1, h.2.1, h.2.2.1, h.2.2.2.1, fun he c hc => ?_⟩
    cases r with
    | nil =>
      have := hX c hc
      simp at this
      rcases this with rfl | rfl | rfl | rfl <;> simp
    | cons d r => exact h.2.2.2.2 he c hc

/-- The blanks and the directive after a source do not start with a letter, a bracket or a line end. -/
theorem Follows.head {tok : Str → Option Nat} {nxt : Option Lead} {d : Doc} {bol : Bool} {a i b : Str} (h : Follows nxt i b) (hok : d.Ok tok bol nxt) (ha : NoBs a) (h1 : bol = true → EndsLine a)
    (h2 : bol = false → BusyLine a) : ∀ c, (i ++ b).head? = some c → c ∈ c!" \t\x0c#" := by
  intro c hc
  cases nxt with
  | none =>
    obtain ⟨rfl, rfl⟩ := h
    simp at hc
  | some l =>
    obtain ⟨rfl, d', r, _, e, _⟩ := h
    have hb := (Doc.ends d hok ha h1 h2).2.1
    cases hp : l.pre with
    | nil =>
      rw [hp, e] at hc
      injection hc with hc
      rw [← hc]
      decide
    | cons x xs =>
      rw [hp] at hc hb
      injection hc with hc
      have := hb x (by simp)
      rw [← hc]
      revert this
      simp
      tauto

/-! #### The main theorem -/

mutual
theorem Doc.reach (hp : Tame h) : ∀ (d : Doc) {bol : Bool} {nxt : Option Lead} {a i b : Str} {s : PS}, d.Ok h.tok bol nxt → (c!"def" ∈ s.stack → d.NoDef) → h.src = a ++ d.src ++ i ++ b → s.pos = a.length → s.bp = h.src.length →
    s.st = fullSt → NoBs a → (bol = true → EndsLine a) → (bol = false → BusyLine a) → Follows nxt i b →
    Reaches h s (s.emit (d.cmds i) (a ++ d.src ++ i).length)
  | .done t, bol, nxt, a, i, b, s, hok, hnd, hs, hpos, hbp, hst, ha, hbol, hbusy, hf => by
    have key : Verbatim (t ++ i) ∧ said (t ++ i) = said t ++ i ∧ (b = [] ∨ (IsDir b ∧ ∀ c, (t ++ i).getLast? = some c → c ∉ c!"#$<")) := by
      cases nxt with
      | none =>
        obtain ⟨rfl, rfl⟩ := hf
        simp only [List.append_nil]
        exact ⟨hok.1, trivial, .inl trivial⟩
      | some l =>
        obtain ⟨rfl, hb⟩ := hf
        have hl := hok.2 l rfl
        exact ⟨hl.verbatim hok.1, said_append t hl.plain.plain, .inr ⟨hb, hl.last⟩⟩
    obtain ⟨k1, k2, k3⟩ := key
    have := reach_text hp (a := a) (t := t ++ i) (b := b) (s := s) (by rw [hs]; simp [Doc.src]) hpos hbp k1 (by
      rcases k3 with k3 | k3
      · exact .inl k3
      · exact .inr (k3.1.tag (ha.append k1.noBs))) (by
      intro c h1 h2
      rcases k3 with k3 | k3
      · exact .inl k3
      · exact absurd h2 (k3.2 c h1))
    rw [← List.append_assoc, k2] at this
    exact this
  | .place t sl p rest, bol, nxt, a, i, b, s, hok, hnd, hs, hpos, hbp, hst, ha, hbol, hbusy, hf => by
    obtain ⟨h1, h2, -, h4⟩ := hok
    have hs1 : h.src = a ++ t ++ (p.src sl ++ (rest.src ++ i ++ b)) := by rw [hs]; simp [Doc.src]
    have hs2 : h.src = (a ++ t) ++ p.src sl ++ (rest.src ++ i ++ b) := by rw [hs]; simp [Doc.src]
    have hs3 : h.src = (a ++ t ++ p.src sl) ++ rest.src ++ i ++ b := by rw [hs]; simp [Doc.src]
    have hpo : p.Ok h.tok (rest.src ++ i ++ b) := by
      rw [List.append_assoc]
      exact h2.extend (hf.head h4 ((ha.append h1.noBs).append (Place.noBs (sl := sl) h2)) (by simp) (fun _ => Place.busy h2))
    have hat := ha.append h1.noBs
    have r1 := reach_text hp hs1 hpos hbp h1 (.inr (tag_place hat hpo)) (by
      obtain ⟨o, d, w, e, _⟩ := Place.opening hpo sl
      intro _ _ _
      rw [e]
      exact .inr ⟨_, rfl⟩)
    have r2 := reach_place hp (s := s.emit (textC (said t)) (a ++ t).length) hs2 rfl hbp hst hat hpo
    have r3 := Doc.reach hp rest (s := (s.emit (textC (said t)) (a ++ t).length).emit [.placeholder p.py (p.src sl) none .none sl] (a ++ t ++ p.src sl).length)
      h4 hnd hs3 rfl hbp hst (hat.append (Place.noBs hpo)) (by simp) (fun _ => Place.busy hpo) hf
    have := (r1.trans r2).trans r3
    rw [PS.emit_emit, PS.emit_emit] at this
    simpa only [Doc.cmds, Doc.src, List.append_assoc, List.cons_append, List.nil_append] using this
  | .note t k c rest, bol, nxt, a, i, b, s, hok, hnd, hs, hpos, hbp, hst, ha, hbol, hbusy, hf => by
    obtain ⟨h1, h2, h3, h4, h5, h6⟩ := hok
    have hs1 : h.src = a ++ (t ++ k) ++ (c!"##" ++ (c ++ '\n' :: (rest.src ++ i ++ b))) := by rw [hs]; simp [Doc.src]
    have hs2 : h.src = (a ++ (t ++ k)) ++ c!"##" ++ c ++ '\n' :: (rest.src ++ i ++ b) := by rw [hs]; simp [Doc.src]
    have hs3 : h.src = (a ++ (t ++ k) ++ c!"##" ++ c ++ c!"\n") ++ rest.src ++ i ++ b := by rw [hs]; simp [Doc.src]
    have hcl : Clear (a ++ (t ++ k)) := by rw [← List.append_assoc]; exact clear_blanks (h3.endsLine hbol) h2
    have r1 := reach_text hp hs1 hpos hbp (h1.blanks h3 h2) (.inr (.comment _ _ hcl.unescaped)) (fun d e1 e2 => absurd e2 (Verbatim.blanks_last h3 h2 d e1))
    rw [said_append t h2.plain] at r1
    have r2 := reach_note hp (s := s.emit (textC (said t ++ k)) (a ++ (t ++ k)).length) hs2 hcl h4 rfl hbp
    have r3 := Doc.reach hp rest (s := (s.emit (textC (said t ++ k)) (a ++ (t ++ k)).length).emit [.handleWS, .comment (c ++ c!"\n")] (a ++ (t ++ k) ++ c!"##" ++ c ++ c!"\n").length)
      h6 hnd hs3 rfl hbp hst (NoBs.snoc _ (by decide)) (fun _ => endsLine_nl _) (by simp) hf
    have := (r1.trans r2).trans r3
    rw [PS.emit_emit, PS.emit_emit] at this
    simpa only [Doc.cmds, Doc.src, List.append_assoc, List.cons_append, List.nil_append] using this
  | .remark t c rest, bol, nxt, a, i, b, s, hok, hnd, hs, hpos, hbp, hst, ha, hbol, hbusy, hf => by
    obtain ⟨h1, h2, h3, h4, h5, h5b, h6, h7⟩ := hok
    have hs1 : h.src = a ++ t ++ (c!"##" ++ (c ++ (rest.src ++ i ++ b))) := by rw [hs]; simp [Doc.src]
    have hs2 : h.src = (a ++ t) ++ c!"##" ++ c ++ (rest.src ++ i ++ b) := by rw [hs]; simp [Doc.src]
    have hs3 : h.src = (a ++ t ++ c!"##" ++ c) ++ rest.src ++ i ++ b := by rw [hs]; simp [Doc.src]
    have hb : rest.src ++ i ++ b = [] ∨ ∃ r, rest.src ++ i ++ b = '\n' :: r := by
      rcases h6 with ⟨h6, rfl⟩ | ⟨r, h6⟩
      · obtain ⟨rfl, rfl⟩ := hf
        simp [h6]
      · exact .inr ⟨r ++ i ++ b, by rw [h6]; rfl⟩
    have hat := ha.append h1.noBs
    have hbl : BusyLine (a ++ t) := h3.line hbusy
    have hone : OneLine (c!"##" ++ c) := OneLine.append (by unfold OneLine; decide) h4
    have hbl2 : BusyLine (a ++ t ++ c!"##" ++ c) := by rw [List.append_assoc]; exact hbl.append hone
    have hnb : NoBs (a ++ t ++ c!"##" ++ c) := by
      rw [List.append_assoc]
      exact hat.append (NoBs.append (by unfold NoBs; decide) h5b)
    have r1 := reach_text hp hs1 hpos hbp h1 (.inr (.comment _ _ hat)) (fun d e1 e2 => absurd e2 (h2 d e1))
    have r2 := reach_remark hp (s := s.emit (textC (said t)) (a ++ t).length) hs2 hbl hat h4 hb rfl hbp
    have r3 := Doc.reach hp rest (s := (s.emit (textC (said t)) (a ++ t).length).emit [.comment c] (a ++ t ++ c!"##" ++ c).length)
      h7 hnd hs3 rfl hbp hst hnb (by simp) (fun _ => hbl2) hf
    have := (r1.trans r2).trans r3
    rw [PS.emit_emit, PS.emit_emit] at this
    simpa only [Doc.cmds, Doc.src, List.append_assoc, List.cons_append, List.nil_append] using this
  | .notes t k c j rest, bol, nxt, a, i, b, s, hok, hnd, hs, hpos, hbp, hst, ha, hbol, hbusy, hf => by
    obtain ⟨h1, h2, h3, h4, h5, h6⟩ := hok
    have hs1 : h.src = a ++ (t ++ k) ++ (c!"#*" ++ (c ++ (c!"*#" ++ (j ++ '\n' :: (rest.src ++ i ++ b))))) := by rw [hs]; simp [Doc.src]
    have hs2 : h.src = (a ++ (t ++ k)) ++ c!"#*" ++ c ++ c!"*#" ++ j ++ '\n' :: (rest.src ++ i ++ b) := by rw [hs]; simp [Doc.src]
    have hs3 : h.src = (a ++ (t ++ k) ++ c!"#*" ++ c ++ c!"*#" ++ j ++ c!"\n") ++ rest.src ++ i ++ b := by rw [hs]; simp [Doc.src]
    have hcl : Clear (a ++ (t ++ k)) := by rw [← List.append_assoc]; exact clear_blanks (h3.endsLine hbol) h2
    have r1 := reach_text hp hs1 hpos hbp (h1.blanks h3 h2) (.inr (.mlComment _ _ hcl.unescaped)) (fun d e1 e2 => absurd e2 (Verbatim.blanks_last h3 h2 d e1))
    rw [said_append t h2.plain] at r1
    have r2 := reach_notes hp (s := s.emit (textC (said t ++ k)) (a ++ (t ++ k)).length) hs2 hcl h4 h5 rfl hbp
    have r3 := Doc.reach hp rest (s := (s.emit (textC (said t ++ k)) (a ++ (t ++ k)).length).emit [.handleWS, .comment c] (a ++ (t ++ k) ++ c!"#*" ++ c ++ c!"*#" ++ j ++ c!"\n").length)
      h6 hnd hs3 rfl hbp hst (NoBs.snoc _ (by decide)) (fun _ => endsLine_nl _) (by simp) hf
    have := (r1.trans r2).trans r3
    rw [PS.emit_emit, PS.emit_emit] at this
    simpa only [Doc.cmds, Doc.src, List.append_assoc, List.cons_append, List.nil_append] using this
  | .aside t c rest, bol, nxt, a, i, b, s, hok, hnd, hs, hpos, hbp, hst, ha, hbol, hbusy, hf => by
    obtain ⟨h1, h2, h3, h4, ⟨j, d, r, h5, h5b, h5c⟩, h6⟩ := hok
    have hs1 : h.src = a ++ t ++ (c!"#*" ++ (c ++ (c!"*#" ++ (rest.src ++ i ++ b)))) := by rw [hs]; simp [Doc.src]
    have hs2 : h.src = (a ++ t) ++ c!"#*" ++ c ++ c!"*#" ++ (j ++ d :: (r ++ i ++ b)) := by rw [hs]; simp [Doc.src, h5]
    have hs3 : h.src = (a ++ t ++ c!"#*" ++ c ++ c!"*#") ++ rest.src ++ i ++ b := by rw [hs]; simp [Doc.src]
    have hat := ha.append h1.noBs
    have r1 := reach_text hp hs1 hpos hbp h1 (.inr (.mlComment _ _ hat)) (fun d e1 e2 => absurd e2 (h2 d e1))
    have r2 := reach_aside hp (s := s.emit (textC (said t)) (a ++ t).length) hs2 hat (h3.imp (fun h => h.line hbusy) id) h4 h5b h5c rfl hbp
    have r3 := Doc.reach hp rest (s := (s.emit (textC (said t)) (a ++ t).length).emit [.comment c] (a ++ t ++ c!"#*" ++ c ++ c!"*#").length)
      h6 hnd hs3 rfl hbp hst (NoBs.append_last (by decide)) (by simp) (fun _ => busy_aside _) hf
    have := (r1.trans r2).trans r3
    rw [PS.emit_emit, PS.emit_emit] at this
    simpa only [Doc.cmds, Doc.src, List.append_assoc, List.cons_append, List.nil_append] using this
  | .stm t k st rest, bol, nxt, a, i, b, s, hok, hnd, hs, hpos, hbp, hst, ha, hbol, hbusy, hf => by
    obtain ⟨h1, h2, h3, h4, h5⟩ := hok
    have ha' : NoBs (a ++ (t ++ k.pre)) := ha.append (h2.verbatim h1).noBs
    obtain ⟨w, hw, hcl⟩ := Lead.close (h2.sits hbol hbusy) (h4.before h5 hf)
    have hs1 : h.src = a ++ (t ++ k.pre) ++ '#' :: (st.line ++ k.stop :: w) := by rw [hs, ← hw]; simp [Doc.src]
    have hs3 : h.src = (a ++ (t ++ k.pre) ++ c!"#" ++ st.line ++ k.post) ++ rest.src ++ i ++ b := by rw [hs]; simp [Doc.src]
    obtain ⟨f1, n, f2⟩ := st.facts h.tok k.stops h3 w
    obtain ⟨g1, g2, g3⟩ := k.after (a ++ (t ++ k.pre)) (st.oneLine h3) (st.noBs h3)
    have r1 := reach_text hp hs1 hpos hbp (h2.verbatim h1) (.inr ((isDir_line f1 f2).tag ha')) (fun d e1 e2 => absurd e2 (h2.last d e1))
    rw [said_append t h2.plain.plain] at r1
    have r2 := Stm.reach hp (s := s.emit (textC (said t ++ k.pre)) (a ++ (t ++ k.pre)).length) hs1 ha' hcl h3 rfl hbp hst
    have r3 := Doc.reach hp rest (s := (s.emit (textC (said t ++ k.pre)) (a ++ (t ++ k.pre)).length).emit (k.ws ++ [st.cmd]) (a ++ (t ++ k.pre) ++ c!"#" ++ st.line ++ k.post).length)
      h5 hnd hs3 rfl hbp hst g1 g2 g3 hf
    have := (r1.trans r2).trans r3
    rw [PS.emit_emit, PS.emit_emit] at this
    simpa only [Doc.cmds, Doc.src, List.append_assoc, List.cons_append, List.nil_append] using this
  | .slurp t long rest, bol, nxt, a, i, b, s, hok, hnd, hs, hpos, hbp, hst, ha, hbol, hbusy, hf => by
    obtain ⟨h1, h2, h3, h4⟩ := hok
    have hs1 : h.src = a ++ t ++ '#' :: ((if long then c!"slurp" else []) ++ '\n' :: (rest.src ++ i ++ b)) := by rw [hs]; simp [Doc.src]
    have hs3 : h.src = (a ++ t ++ c!"#" ++ (if long then c!"slurp" else []) ++ c!"\n") ++ rest.src ++ i ++ b := by rw [hs]; simp [Doc.src]
    have hat := ha.append h1.noBs
    have hbl : BusyLine (a ++ t) := h3.line hbusy
    have htag : TagStart stdNames (a ++ t) ('#' :: ((if long then c!"slurp" else []) ++ '\n' :: (rest.src ++ i ++ b))) := by
      cases long with
      | true => exact (isDir_line (L := c!"slurp") (n := c!"slurp") ⟨'s', _, rfl, by decide⟩ rfl).tag hat
      | false => exact .slurp (a ++ t) [] c!"\n" _ (by simp) (.inl rfl)
    have r1 := reach_text hp hs1 hpos hbp h1 (.inr htag) (fun d e1 e2 => absurd e2 (h2 d e1))
    have r2 := slurp_reach hp (s := s.emit (textC (said t)) (a ++ t).length) long hs1 hbl hat rfl hbp hst
    have r3 := Doc.reach hp rest (s := (s.emit (textC (said t)) (a ++ t).length).emit [.commit] (a ++ t ++ c!"#" ++ (if long then c!"slurp" else []) ++ c!"\n").length)
      h4 hnd hs3 rfl hbp hst (NoBs.snoc _ (by decide)) (fun _ => endsLine_nl _) (by simp) hf
    have := (r1.trans r2).trans r3
    rw [PS.emit_emit, PS.emit_emit] at this
    simpa only [Doc.cmds, Doc.src, List.append_assoc, List.cons_append, List.nil_append] using this
  | .raw t k w j rest, bol, nxt, a, i, b, s, hok, hnd, hs, hpos, hbp, hst, ha, hbol, hbusy, hf => by
    obtain ⟨h1, h2, h3, h4, h5, h6, h7⟩ := hok
    have hs1 : h.src = a ++ (t ++ k) ++ '#' :: (c!"raw" ++ '\n' :: (w ++ j ++ '#' :: (c!"end raw" ++ '\n' :: (rest.src ++ i ++ b)))) := by rw [hs]; simp [Doc.src]
    have hs3 : h.src = (a ++ (t ++ k) ++ c!"#raw\n" ++ w ++ j ++ c!"#end raw\n") ++ rest.src ++ i ++ b := by rw [hs]; simp [Doc.src]
    have hcl : Clear (a ++ (t ++ k)) := by rw [← List.append_assoc]; exact clear_blanks (h3.endsLine hbol) h2
    have hel : EndsLine (a ++ (t ++ k) ++ c!"#raw\n" ++ w ++ j ++ c!"#end raw\n") := .inr ⟨a ++ (t ++ k) ++ c!"#raw\n" ++ w ++ j ++ c!"#end raw", '\n', by simp, rfl⟩
    have r1 := reach_text hp hs1 hpos hbp (h1.blanks h3 h2) (.inr ((isDir_line (L := c!"raw") (n := c!"raw") ⟨'r', _, rfl, by decide⟩ rfl).tag hcl.unescaped)) (fun d e1 e2 => absurd e2 (Verbatim.blanks_last h3 h2 d e1))
    rw [said_append t h2.plain] at r1
    have r2 := raw_reach hp (s := s.emit (textC (said t ++ k)) (a ++ (t ++ k)).length) hs1 hcl h4 h5 h6 rfl hbp hst
    have r3 := Doc.reach hp rest (s := (s.emit (textC (said t ++ k)) (a ++ (t ++ k)).length).emit [.handleWS, .handleWS, .raw w] (a ++ (t ++ k) ++ c!"#raw\n" ++ w ++ j ++ c!"#end raw\n").length)
      h7 hnd hs3 rfl hbp hst (EndsLine.unescaped hel) (fun _ => hel) (by simp) hf
    have := (r1.trans r2).trans r3
    rw [PS.emit_emit, PS.emit_emit] at this
    simpa only [Doc.cmds, Doc.src, List.append_assoc, List.cons_append, List.nil_append] using this
  | .region t k r body j rest, bol, nxt, a, i, b, s, hok, hnd, hs, hpos, hbp, hst, ha, hbol, hbusy, hf => by
    obtain ⟨h1, h2, h3, h4, h5, h6, h9⟩ := hok
    have hsB : h.src = a ++ (t ++ k) ++ '#' :: (r.line ++ '\n' :: (body.src ++ (j ++ '#' :: (c!"end " ++ r.name ++ '\n' :: (rest.src ++ i ++ b))))) := by
      rw [hs]; simp [Doc.src]
    have hs2 : h.src = (a ++ (t ++ k) ++ c!"#" ++ r.line ++ c!"\n") ++ body.src ++ j ++ '#' :: (c!"end " ++ r.name ++ '\n' :: (rest.src ++ i ++ b)) := by rw [hsB]; simp
    have hs5 : h.src = (a ++ (t ++ k) ++ c!"#" ++ r.line ++ c!"\n" ++ body.src ++ j ++ c!"#" ++ (c!"end " ++ r.name) ++ c!"\n") ++ rest.src ++ i ++ b := by
      rw [hsB]; simp
    have hcl : Clear (a ++ (t ++ k)) := by rw [← List.append_assoc]; exact clear_blanks (h3.endsLine hbol) h2
    obtain ⟨f1, f2⟩ := r.facts h4 (body.src ++ (j ++ '#' :: (c!"end " ++ r.name ++ '\n' :: (rest.src ++ i ++ b))))
    have hds : r.name = c!"def" → c!"def" ∉ s.stack := fun e hm => (hnd hm).1 e
    have hend : IsDir ('#' :: (c!"end " ++ r.name ++ '\n' :: (rest.src ++ i ++ b))) := ⟨'e', _, c!"end", rfl, by decide, by cases r <;> rfl⟩
    have r1 := reach_text hp hsB hpos hbp (h1.blanks h3 h2) (.inr ((isDir_line f1 f2).tag hcl.unescaped)) (fun d e1 e2 => absurd e2 (Verbatim.blanks_last h3 h2 d e1))
    rw [said_append t h2.plain] at r1
    have r2 := Region.reach hp (s := s.emit (textC (said t ++ k)) (a ++ (t ++ k)).length) hsB hcl h4 rfl hbp hst hds
    have eB : EndsLine (a ++ (t ++ k) ++ c!"#" ++ r.line ++ c!"\n") := endsLine_nl _
    have eb := (Doc.ends body h6 (EndsLine.unescaped eB) (fun _ => eB) (by simp)).2.2
    generalize hs1' : ({ (s.emit (textC (said t ++ k)) (a ++ (t ++ k)).length).emit (.handleWS :: r.opens) (a ++ (t ++ k) ++ c!"#" ++ r.line ++ c!"\n").length with stack := r.name :: s.stack } : PS) = s1
    have r2' : Reaches h (s.emit (textC (said t ++ k)) (a ++ (t ++ k)).length) s1 := by rw [← hs1']; exact r2
    have hm1 : c!"def" ∈ s1.stack → body.NoDef := by
      intro hm
      rw [← hs1'] at hm
      rcases List.mem_cons.1 hm with hm | hm
      · exact h5 hm.symm
      · exact (hnd hm).2.1
    have r3 := Doc.reach hp body (s := s1) h6 hm1 hs2 (by rw [← hs1']; rfl) (by rw [← hs1']; exact hbp) (by rw [← hs1']; exact hst) (EndsLine.unescaped eB) (fun _ => eB) (by simp) ⟨rfl, hend⟩
    have r5 := Region.reach_end hp (ns := s.stack) (s := s1.emit (body.cmds j) (a ++ (t ++ k) ++ c!"#" ++ r.line ++ c!"\n" ++ body.src ++ j).length)
      r (b := rest.src ++ i ++ b) hs2 eb rfl (by rw [← hs1']; exact hbp) (by rw [← hs1']; exact hst) (by rw [← hs1']; rfl) hds
    have hfin : ({ (s1.emit (body.cmds j) (a ++ (t ++ k) ++ c!"#" ++ r.line ++ c!"\n" ++ body.src ++ j).length).emit (.handleWS :: r.closes)
        (a ++ (t ++ k) ++ c!"#" ++ r.line ++ c!"\n" ++ body.src ++ j ++ c!"#" ++ (c!"end " ++ r.name) ++ c!"\n").length with stack := s.stack } : PS) =
        s.emit (textC (said t ++ k) ++ .handleWS :: (r.opens ++ body.cmds j ++ .handleWS :: r.closes))
          (a ++ (t ++ k) ++ c!"#" ++ r.line ++ c!"\n" ++ body.src ++ j ++ c!"#" ++ (c!"end " ++ r.name) ++ c!"\n").length := by
      rw [← hs1']; simp [PS.emit]
    rw [hfin] at r5
    have r6 := Doc.reach hp rest (s := s.emit (textC (said t ++ k) ++ .handleWS :: (r.opens ++ body.cmds j ++ .handleWS :: r.closes))
          (a ++ (t ++ k) ++ c!"#" ++ r.line ++ c!"\n" ++ body.src ++ j ++ c!"#" ++ (c!"end " ++ r.name) ++ c!"\n").length)
      h9 (hnd · |>.2.2) hs5 rfl hbp hst (NoBs.snoc _ (by decide)) (fun _ => endsLine_nl _) (by simp) hf
    have := (((r1.trans r2').trans r3).trans r5).trans r6
    rw [PS.emit_emit] at this
    simpa only [Doc.cmds, Doc.src, List.append_assoc, List.cons_append, List.nil_append] using this
  | .block t k hd body more j rest, bol, nxt, a, i, b, s, hok, hnd, hs, hpos, hbp, hst, ha, hbol, hbusy, hf => by
    obtain ⟨h1, h2, h3, -, h4, h5, h6, -, h8, h9⟩ := hok
    have ha' : NoBs (a ++ (t ++ k.pre)) := ha.append (h2.verbatim h1).noBs
    have hjb : j.Before (rest.src ++ i ++ b) := h8.before h9 hf
    obtain ⟨X, hX, hXd⟩ := more.split hd h6 hjb
    have hB : k.Before (body.src ++ (more.next j).pre ++ X) := h4.before (nxt := some (more.next j)) h5 ⟨rfl, hXd⟩
    obtain ⟨w, hw, hcl⟩ := Lead.close (h2.sits hbol hbusy) hB
    have hsB : h.src = (a ++ (t ++ k.pre)) ++ '#' :: (hd.line ++ k.stop :: w) := by
      rw [hs, ← hw, List.append_assoc body.src, ← hX]; simp [Doc.src]
    have hs2 : h.src = (a ++ (t ++ k.pre) ++ c!"#" ++ hd.line ++ k.post) ++ body.src ++ (more.next j).pre ++ X := by
      rw [hsB, ← hw]; simp
    have hs3 : h.src = (a ++ (t ++ k.pre) ++ c!"#" ++ hd.line ++ k.post ++ body.src) ++ more.src ++ j.pre ++ '#' :: (c!"end " ++ hd.name ++ (j.post ++ (rest.src ++ i ++ b))) := by
      rw [hs]; simp [Doc.src]
    obtain ⟨f1, f2⟩ := hd.facts k.stops w
    obtain ⟨g1, g2, g3⟩ := k.after (a ++ (t ++ k.pre)) (hd.oneLine h3) (hd.noBs h3)
    obtain ⟨eb1, eb2, eb3⟩ := Doc.ends body h5 g1 g2 g3
    obtain ⟨em1, em2, em3⟩ := More.ends more h6 eb1 eb2 eb3
    obtain ⟨v, hv, hcj⟩ := Lead.close em3 hjb
    have hs4 : h.src = (a ++ (t ++ k.pre) ++ c!"#" ++ hd.line ++ k.post ++ body.src ++ more.src ++ j.pre) ++ '#' :: (c!"end " ++ hd.name ++ j.stop :: v) := by
      rw [hs3, hv]
    have hs5 : h.src = (a ++ (t ++ k.pre) ++ c!"#" ++ hd.line ++ k.post ++ body.src ++ more.src ++ j.pre ++ c!"#" ++ (c!"end " ++ hd.name) ++ j.post) ++ rest.src ++ i ++ b := by
      rw [hs3]; simp
    obtain ⟨d1, d2, _⟩ := hd.end_facts j.stops v
    obtain ⟨e1, e2, e3⟩ := j.after (a ++ (t ++ k.pre) ++ c!"#" ++ hd.line ++ k.post ++ body.src ++ more.src ++ j.pre) d1 d2
    have r1 := reach_text hp hsB hpos hbp (h2.verbatim h1) (.inr ((isDir_line f1 f2).tag ha')) (fun d e1 e2 => absurd e2 (h2.last d e1))
    rw [said_append t h2.plain.plain] at r1
    have r2 := Head.reach hp (s := s.emit (textC (said t ++ k.pre)) (a ++ (t ++ k.pre)).length) hsB ha' hcl h3 rfl hbp hst
    generalize hs1' : ({ (s.emit (textC (said t ++ k.pre)) (a ++ (t ++ k.pre)).length).emit (k.ws ++ [.indenting hd.name hd.arg]) (a ++ (t ++ k.pre) ++ c!"#" ++ hd.line ++ k.post).length with stack := hd.name :: s.stack } : PS) = s1
    have r2' : Reaches h (s.emit (textC (said t ++ k.pre)) (a ++ (t ++ k.pre)).length) s1 := by rw [← hs1']; exact r2
    have hm1 : c!"def" ∈ s1.stack → body.NoDef ∧ more.NoDef ∧ rest.NoDef := by
      intro hm
      rw [← hs1'] at hm
      refine hnd ?_
      rcases List.mem_cons.1 hm with hm | hm
      · exfalso; cases hd <;> simp [Head.name] at hm
      · exact hm
    have r3 := Doc.reach hp body (s := s1) h5 (hm1 · |>.1) hs2 (by rw [← hs1']; rfl) (by rw [← hs1']; exact hbp) (by rw [← hs1']; exact hst) g1 g2 g3 ⟨rfl, hXd⟩
    have r4 := More.reach hp more (hd := hd) (s := s1.emit (body.cmds (more.next j).pre) (a ++ (t ++ k.pre) ++ c!"#" ++ hd.line ++ k.post ++ body.src ++ (more.next j).pre).length)
      h6 (hm1 · |>.2.1) hs3 rfl (by rw [← hs1']; exact hbp) (by rw [← hs1']; exact hst) eb1 eb2 eb3 hjb
    have r5 := end_reach hp (ns := s.stack) (s := (s1.emit (body.cmds (more.next j).pre) (a ++ (t ++ k.pre) ++ c!"#" ++ hd.line ++ k.post ++ body.src ++ (more.next j).pre).length).emit (more.cmds j)
      (a ++ (t ++ k.pre) ++ c!"#" ++ hd.line ++ k.post ++ body.src ++ more.src ++ j.pre).length) hd hs4 (em1.more em2) hcj rfl (by rw [← hs1']; exact hbp) (by rw [← hs1']; exact hst) (by rw [← hs1']; rfl)
    have hfin : ({ ((s1.emit (body.cmds (more.next j).pre) (a ++ (t ++ k.pre) ++ c!"#" ++ hd.line ++ k.post ++ body.src ++ (more.next j).pre).length).emit (more.cmds j)
        (a ++ (t ++ k.pre) ++ c!"#" ++ hd.line ++ k.post ++ body.src ++ more.src ++ j.pre).length).emit (j.ws ++ [.commit, .dedent])
        (a ++ (t ++ k.pre) ++ c!"#" ++ hd.line ++ k.post ++ body.src ++ more.src ++ j.pre ++ c!"#" ++ (c!"end " ++ hd.name) ++ j.post).length with stack := s.stack } : PS) =
        s.emit (textC (said t ++ k.pre) ++ k.ws ++ [.indenting hd.name hd.arg] ++ body.cmds (more.next j).pre ++ more.cmds j ++ j.ws ++ [.commit, .dedent])
          (a ++ (t ++ k.pre) ++ c!"#" ++ hd.line ++ k.post ++ body.src ++ more.src ++ j.pre ++ c!"#" ++ (c!"end " ++ hd.name) ++ j.post).length := by
      rw [← hs1']; simp [PS.emit]
    rw [hfin] at r5
    have r6 := Doc.reach hp rest (s := s.emit (textC (said t ++ k.pre) ++ k.ws ++ [.indenting hd.name hd.arg] ++ body.cmds (more.next j).pre ++ more.cmds j ++ j.ws ++ [.commit, .dedent])
          (a ++ (t ++ k.pre) ++ c!"#" ++ hd.line ++ k.post ++ body.src ++ more.src ++ j.pre ++ c!"#" ++ (c!"end " ++ hd.name) ++ j.post).length)
      h9 (hnd · |>.2.2) hs5 rfl hbp hst e1 e2 e3 hf
    have := ((((r1.trans r2').trans r3).trans r4).trans r5).trans r6
    rw [PS.emit_emit] at this
    simpa only [Doc.cmds, Doc.src, List.append_assoc, List.cons_append, List.nil_append] using this
  | .wrap t k n wr body j rest, bol, nxt, a, i, b, s, hok, hnd, hs, hpos, hbp, hst, ha, hbol, hbusy, hf => by
    obtain ⟨h1, h2, h3, h4, h5, h8, h9⟩ := hok
    have ha' : NoBs (a ++ (t ++ k.pre)) := ha.append (h2.verbatim h1).noBs
    have hjb : j.Before (rest.src ++ i ++ b) := h8.before h9 hf
    obtain ⟨v0, hv0⟩ : ∃ w, j.post ++ (rest.src ++ i ++ b) = j.stop :: w := by
      cases j with
      | own i => exact ⟨_, rfl⟩
      | inl => exact ⟨_, rfl⟩
      | tail => obtain ⟨q, hq⟩ := hjb; exact ⟨q, hq⟩
    have hXd : IsDir ('#' :: (c!"end " ++ wr.name ++ (j.post ++ (rest.src ++ i ++ b)))) := by
      rw [hv0]; exact ⟨'e', _, c!"end", rfl, by decide, (wr.end_facts j.stops v0).2.2⟩
    have hB : k.Before (body.src ++ j.pre ++ '#' :: (c!"end " ++ wr.name ++ (j.post ++ (rest.src ++ i ++ b)))) := h4.before (nxt := some j) h5 ⟨rfl, hXd⟩
    obtain ⟨w, hw, hcl⟩ := Lead.close (h2.sits hbol hbusy) hB
    have hsB : h.src = (a ++ (t ++ k.pre)) ++ '#' :: (wr.line ++ k.stop :: w) := by
      rw [hs, ← hw]; simp [Doc.src]
    have hs3 : h.src = (a ++ (t ++ k.pre) ++ c!"#" ++ wr.line ++ k.post) ++ body.src ++ j.pre ++ '#' :: (c!"end " ++ wr.name ++ (j.post ++ (rest.src ++ i ++ b))) := by
      rw [hs]; simp [Doc.src]
    obtain ⟨f1, f2⟩ := wr.facts (z := k.stop) w
    obtain ⟨g1, g2, g3⟩ := k.after (a ++ (t ++ k.pre)) (wr.oneLine h3) (wr.noBs h3)
    obtain ⟨eb1, eb2, eb3⟩ := Doc.ends body h5 g1 g2 g3
    obtain ⟨v, hv, hcj⟩ := Lead.close eb3 hjb
    have hs4 : h.src = (a ++ (t ++ k.pre) ++ c!"#" ++ wr.line ++ k.post ++ body.src ++ j.pre) ++ '#' :: (c!"end " ++ wr.name ++ j.stop :: v) := by
      rw [hs3, hv]
    have hs5 : h.src = (a ++ (t ++ k.pre) ++ c!"#" ++ wr.line ++ k.post ++ body.src ++ j.pre ++ c!"#" ++ (c!"end " ++ wr.name) ++ j.post) ++ rest.src ++ i ++ b := by
      rw [hs3]; simp
    obtain ⟨d1, d2, _⟩ := wr.end_facts j.stops v
    obtain ⟨e1, e2, e3⟩ := j.after (a ++ (t ++ k.pre) ++ c!"#" ++ wr.line ++ k.post ++ body.src ++ j.pre) d1 d2
    have r1 := reach_text hp hsB hpos hbp (h2.verbatim h1) (.inr ((isDir_line f1 f2).tag ha')) (fun d e1 e2 => absurd e2 (h2.last d e1))
    rw [said_append t h2.plain.plain] at r1
    have r2 := Wrap.reach hp (s := s.emit (textC (said t ++ k.pre)) (a ++ (t ++ k.pre)).length) hsB ha' hcl h3 rfl hbp hst
    generalize hs1' : ({ (s.emit (textC (said t ++ k.pre)) (a ++ (t ++ k.pre)).length).emit (k.ws ++ [wr.opens]) (a ++ (t ++ k.pre) ++ c!"#" ++ wr.line ++ k.post).length with stack := wr.name :: s.stack } : PS) = s1
    have r2' : Reaches h (s.emit (textC (said t ++ k.pre)) (a ++ (t ++ k.pre)).length) s1 := by rw [← hs1']; exact r2
    have hm1 : c!"def" ∈ s1.stack → body.NoDef ∧ rest.NoDef := by
      intro hm
      rw [← hs1'] at hm
      refine hnd ?_
      rcases List.mem_cons.1 hm with hm | hm
      · exfalso; cases wr <;> simp [Wrap.name] at hm
      · exact hm
    have r3 := Doc.reach hp body (s := s1) h5 (hm1 · |>.1) hs3 (by rw [← hs1']; rfl) (by rw [← hs1']; exact hbp) (by rw [← hs1']; exact hst) g1 g2 g3 ⟨rfl, hXd⟩
    have r5 := Wrap.end_reach hp (ns := s.stack) (s := s1.emit (body.cmds j.pre) (a ++ (t ++ k.pre) ++ c!"#" ++ wr.line ++ k.post ++ body.src ++ j.pre).length) wr hs4 (eb1.more eb2) hcj rfl
      (by rw [← hs1']; exact hbp) (by rw [← hs1']; exact hst) (by rw [← hs1']; rfl)
    have hfin : ({ (s1.emit (body.cmds j.pre) (a ++ (t ++ k.pre) ++ c!"#" ++ wr.line ++ k.post ++ body.src ++ j.pre).length).emit (j.ws ++ [wr.closes])
        (a ++ (t ++ k.pre) ++ c!"#" ++ wr.line ++ k.post ++ body.src ++ j.pre ++ c!"#" ++ (c!"end " ++ wr.name) ++ j.post).length with stack := s.stack } : PS) =
        s.emit (textC (said t ++ k.pre) ++ k.ws ++ [wr.opens] ++ body.cmds j.pre ++ j.ws ++ [wr.closes])
          (a ++ (t ++ k.pre) ++ c!"#" ++ wr.line ++ k.post ++ body.src ++ j.pre ++ c!"#" ++ (c!"end " ++ wr.name) ++ j.post).length := by
      rw [← hs1']; simp [PS.emit]
    rw [hfin] at r5
    have r6 := Doc.reach hp rest (s := s.emit (textC (said t ++ k.pre) ++ k.ws ++ [wr.opens] ++ body.cmds j.pre ++ j.ws ++ [wr.closes])
          (a ++ (t ++ k.pre) ++ c!"#" ++ wr.line ++ k.post ++ body.src ++ j.pre ++ c!"#" ++ (c!"end " ++ wr.name) ++ j.post).length)
      h9 (hnd · |>.2) hs5 rfl hbp hst e1 e2 e3 hf
    have := (((r1.trans r2').trans r3).trans r5).trans r6
    rw [PS.emit_emit] at this
    simpa only [Doc.cmds, Doc.src, List.append_assoc, List.cons_append, List.nil_append] using this
  | .keywords t k n f as first args j rest, bol, nxt, a, i, b, s, hok, hnd, hs, hpos, hbp, hst, ha, hbol, hbusy, hf => by
    obtain ⟨h1, h2, h3, -, h4, h5, -, h6, h8, h9⟩ := hok
    generalize hwr : Wrap.call f as = wr at h3
    have hnm : wr.name = c!"call" := by rw [← hwr]; rfl
    have hcl' : wr.closes = .endCall := by rw [← hwr]; rfl
    have ha' : NoBs (a ++ (t ++ k.pre)) := ha.append (h2.verbatim h1).noBs
    have hjb : j.Before (rest.src ++ i ++ b) := h8.before h9 hf
    obtain ⟨X, hX, hXd⟩ := args.split h6 hjb
    have hB : k.Before (first.src ++ (args.next j).pre ++ X) := h4.before (nxt := some (args.next j)) h5 ⟨rfl, hXd⟩
    obtain ⟨w, hw, hcl⟩ := Lead.close (h2.sits hbol hbusy) hB
    have hsB : h.src = (a ++ (t ++ k.pre)) ++ '#' :: (wr.line ++ k.stop :: w) := by
      rw [hs, ← hw, List.append_assoc first.src, ← hX]; simp [Doc.src, hwr]
    have hs2 : h.src = (a ++ (t ++ k.pre) ++ c!"#" ++ wr.line ++ k.post) ++ first.src ++ (args.next j).pre ++ X := by
      rw [hsB, ← hw]; simp
    have hs3 : h.src = (a ++ (t ++ k.pre) ++ c!"#" ++ wr.line ++ k.post ++ first.src) ++ args.src ++ j.pre ++ '#' :: (c!"end call" ++ (j.post ++ (rest.src ++ i ++ b))) := by
      rw [hs]; simp [Doc.src, hwr]
    obtain ⟨f1, f2⟩ := wr.facts (z := k.stop) w
    obtain ⟨g1, g2, g3⟩ := k.after (a ++ (t ++ k.pre)) (wr.oneLine h3) (wr.noBs h3)
    obtain ⟨eb1, eb2, eb3⟩ := Doc.ends first h5 g1 g2 g3
    obtain ⟨em1, em2, em3⟩ := Kws.ends args h6 eb1 eb2 eb3
    obtain ⟨v, hv, hcj⟩ := Lead.close em3 hjb
    have hs4 : h.src = (a ++ (t ++ k.pre) ++ c!"#" ++ wr.line ++ k.post ++ first.src ++ args.src ++ j.pre) ++ '#' :: (c!"end " ++ wr.name ++ j.stop :: v) := by
      rw [hs3, hv, hnm]; rfl
    have hs5 : h.src = (a ++ (t ++ k.pre) ++ c!"#" ++ wr.line ++ k.post ++ first.src ++ args.src ++ j.pre ++ c!"#" ++ (c!"end " ++ wr.name) ++ j.post) ++ rest.src ++ i ++ b := by
      rw [hs3, hnm]; simp
    obtain ⟨d1, d2, _⟩ := wr.end_facts j.stops v
    obtain ⟨e1, e2, e3⟩ := j.after (a ++ (t ++ k.pre) ++ c!"#" ++ wr.line ++ k.post ++ first.src ++ args.src ++ j.pre) d1 d2
    have r1 := reach_text hp hsB hpos hbp (h2.verbatim h1) (.inr ((isDir_line f1 f2).tag ha')) (fun d e1 e2 => absurd e2 (h2.last d e1))
    rw [said_append t h2.plain.plain] at r1
    have r2 := Wrap.reach hp (s := s.emit (textC (said t ++ k.pre)) (a ++ (t ++ k.pre)).length) hsB ha' hcl h3 rfl hbp hst
    generalize hs1' : ({ (s.emit (textC (said t ++ k.pre)) (a ++ (t ++ k.pre)).length).emit (k.ws ++ [wr.opens]) (a ++ (t ++ k.pre) ++ c!"#" ++ wr.line ++ k.post).length with stack := wr.name :: s.stack } : PS) = s1
    have r2' : Reaches h (s.emit (textC (said t ++ k.pre)) (a ++ (t ++ k.pre)).length) s1 := by rw [← hs1']; exact r2
    have hm1 : c!"def" ∈ s1.stack → first.NoDef ∧ args.NoDef ∧ rest.NoDef := by
      intro hm
      rw [← hs1'] at hm
      refine hnd ?_
      rcases List.mem_cons.1 hm with hm | hm
      · exfalso; rw [hnm] at hm; simp at hm
      · exact hm
    have r3 := Doc.reach hp first (s := s1) h5 (hm1 · |>.1) hs2 (by rw [← hs1']; rfl) (by rw [← hs1']; exact hbp) (by rw [← hs1']; exact hst) g1 g2 g3 ⟨rfl, hXd⟩
    have r4 := Kws.reach hp args (s := s1.emit (first.cmds (args.next j).pre) (a ++ (t ++ k.pre) ++ c!"#" ++ wr.line ++ k.post ++ first.src ++ (args.next j).pre).length)
      h6 (hm1 · |>.2.1) hs3 rfl (by rw [← hs1']; exact hbp) (by rw [← hs1']; exact hst) eb1 eb2 eb3 hjb
    have r5 := Wrap.end_reach hp (ns := s.stack) (s := (s1.emit (first.cmds (args.next j).pre) (a ++ (t ++ k.pre) ++ c!"#" ++ wr.line ++ k.post ++ first.src ++ (args.next j).pre).length).emit (args.cmds j)
      (a ++ (t ++ k.pre) ++ c!"#" ++ wr.line ++ k.post ++ first.src ++ args.src ++ j.pre).length) wr hs4 (em1.more em2) hcj rfl (by rw [← hs1']; exact hbp) (by rw [← hs1']; exact hst) (by rw [← hs1']; rfl)
    have hfin : ({ ((s1.emit (first.cmds (args.next j).pre) (a ++ (t ++ k.pre) ++ c!"#" ++ wr.line ++ k.post ++ first.src ++ (args.next j).pre).length).emit (args.cmds j)
        (a ++ (t ++ k.pre) ++ c!"#" ++ wr.line ++ k.post ++ first.src ++ args.src ++ j.pre).length).emit (j.ws ++ [wr.closes])
        (a ++ (t ++ k.pre) ++ c!"#" ++ wr.line ++ k.post ++ first.src ++ args.src ++ j.pre ++ c!"#" ++ (c!"end " ++ wr.name) ++ j.post).length with stack := s.stack } : PS) =
        s.emit (textC (said t ++ k.pre) ++ k.ws ++ [wr.opens] ++ first.cmds (args.next j).pre ++ args.cmds j ++ j.ws ++ [wr.closes])
          (a ++ (t ++ k.pre) ++ c!"#" ++ wr.line ++ k.post ++ first.src ++ args.src ++ j.pre ++ c!"#" ++ (c!"end " ++ wr.name) ++ j.post).length := by
      rw [← hs1']; simp [PS.emit]
    rw [hfin] at r5
    have r6 := Doc.reach hp rest (s := s.emit (textC (said t ++ k.pre) ++ k.ws ++ [wr.opens] ++ first.cmds (args.next j).pre ++ args.cmds j ++ j.ws ++ [wr.closes])
          (a ++ (t ++ k.pre) ++ c!"#" ++ wr.line ++ k.post ++ first.src ++ args.src ++ j.pre ++ c!"#" ++ (c!"end " ++ wr.name) ++ j.post).length)
      h9 (hnd · |>.2.2) hs5 rfl hbp hst e1 e2 e3 hf
    have := ((((r1.trans r2').trans r3).trans r4).trans r5).trans r6
    rw [PS.emit_emit, hcl', hnm] at this
    have e0 : c!"#" ++ (c!"end " ++ (c!"call" ++ (j.post ++ (rest.src ++ i)))) = c!"#end call" ++ (j.post ++ (rest.src ++ i)) := rfl
    simpa only [Doc.cmds, Doc.src, List.append_assoc, List.cons_append, List.nil_append, hwr, e0] using this
theorem More.reach (hp : Tame h) : ∀ (m : More) {hd : Head} {n : Nat} {j : Lead} {a b : Str} {s : PS}, m.Ok h.tok hd n j → (c!"def" ∈ s.stack → m.NoDef) →
    h.src = a ++ m.src ++ j.pre ++ '#' :: (c!"end " ++ hd.name ++ (j.post ++ b)) →
    s.pos = (a ++ (m.next j).pre).length → s.bp = h.src.length → s.st = fullSt → NoBs a → Blanks (m.next j).pre → (m.next j).Sits (a ++ (m.next j).pre) → j.Before b →
    Reaches h s (s.emit (m.cmds j) (a ++ m.src ++ j.pre).length)
  | .fin, hd, n, j, a, b, s, hok, hnd, hs, hpos, hbp, hst, ha, hbl, hsit, hj => by
    have : s.emit (More.fin.cmds j) (a ++ More.fin.src ++ j.pre).length = s := by simp only [More.cmds, More.src, List.append_nil, PS.emit]; rw [More.next] at hpos; rw [← hpos]
    rw [this]
    exact Reaches.refl h s
  | .part l p body more, hd, n, j, a, b, s, hok, hnd, hs, hpos, hbp, hst, ha, hbl, hsit, hj => by
    obtain ⟨h1, h2, h3, h4, h5, h6⟩ := hok
    have ha' : NoBs (a ++ l.pre) := ha.more hbl
    obtain ⟨X, hX, hXd⟩ := more.split hd h6 hj
    have hB : l.Before (body.src ++ (more.next j).pre ++ X) := h4.before (nxt := some (more.next j)) h5 ⟨rfl, hXd⟩
    obtain ⟨w, hw, hcl⟩ := Lead.close (l := l) hsit hB
    have hs0 : h.src = (a ++ l.pre) ++ '#' :: (p.line ++ l.stop :: w) := by
      rw [hs, ← hw, List.append_assoc body.src, ← hX]; simp [More.src]
    have hs2 : h.src = (a ++ l.pre ++ c!"#" ++ p.line ++ l.post) ++ body.src ++ (more.next j).pre ++ X := by rw [hs0, ← hw]; simp
    have hs3 : h.src = (a ++ l.pre ++ c!"#" ++ p.line ++ l.post ++ body.src) ++ more.src ++ j.pre ++ '#' :: (c!"end " ++ hd.name ++ (j.post ++ b)) := by rw [hs]; simp [More.src]
    obtain ⟨g1, g2, g3⟩ := l.after (a ++ l.pre) (p.oneLine h1) (p.noBs h1)
    obtain ⟨eb1, eb2, eb3⟩ := Doc.ends body h5 g1 g2 g3
    have r1 := Part.reach hp hs0 ha' hcl h1 hpos hbp hst
    have r2 := Doc.reach hp body (s := s.emit (l.ws ++ [.reindenting p.name p.arg true]) (a ++ l.pre ++ c!"#" ++ p.line ++ l.post).length)
      h5 (hnd · |>.1) hs2 rfl hbp hst g1 g2 g3 ⟨rfl, hXd⟩
    have r3 := More.reach hp more (s := (s.emit (l.ws ++ [.reindenting p.name p.arg true]) (a ++ l.pre ++ c!"#" ++ p.line ++ l.post).length).emit (body.cmds (more.next j).pre)
      (a ++ l.pre ++ c!"#" ++ p.line ++ l.post ++ body.src ++ (more.next j).pre).length) h6 (hnd · |>.2) hs3 rfl hbp hst eb1 eb2 eb3 hj
    have := (r1.trans r2).trans r3
    rw [PS.emit_emit, PS.emit_emit] at this
    simpa only [More.cmds, More.src, List.append_assoc, List.cons_append, List.nil_append] using this
theorem Kws.reach (hp : Tame h) : ∀ (m : Kws) {j : Lead} {a b : Str} {s : PS}, m.Ok h.tok j → (c!"def" ∈ s.stack → m.NoDef) →
    h.src = a ++ m.src ++ j.pre ++ '#' :: (c!"end call" ++ (j.post ++ b)) →
    s.pos = (a ++ (m.next j).pre).length → s.bp = h.src.length → s.st = fullSt → NoBs a → Blanks (m.next j).pre → (m.next j).Sits (a ++ (m.next j).pre) → j.Before b →
    Reaches h s (s.emit (m.cmds j) (a ++ m.src ++ j.pre).length)
  | .last, j, a, b, s, hok, hnd, hs, hpos, hbp, hst, ha, hbl, hsit, hj => by
    have : s.emit (Kws.last.cmds j) (a ++ Kws.last.src ++ j.pre).length = s := by simp only [Kws.cmds, Kws.src, List.append_nil, PS.emit]; rw [Kws.next] at hpos; rw [← hpos]
    rw [this]
    exact Reaches.refl h s
  | .arg l n body more, j, a, b, s, hok, hnd, hs, hpos, hbp, hst, ha, hbl, hsit, hj => by
    obtain ⟨h1, h4, h5, h6⟩ := hok
    have ha' : NoBs (a ++ l.pre) := ha.more hbl
    obtain ⟨X, hX, hXd⟩ := more.split h6 hj
    have hB : l.Before (body.src ++ (more.next j).pre ++ X) := h4.before (nxt := some (more.next j)) h5 ⟨rfl, hXd⟩
    obtain ⟨w, hw, hcl⟩ := Lead.close (l := l) hsit hB
    have hs0 : h.src = (a ++ l.pre) ++ '#' :: (c!"arg " ++ n ++ l.stop :: w) := by
      rw [hs, ← hw, List.append_assoc body.src, ← hX]; simp [Kws.src]
    have hs2 : h.src = (a ++ l.pre ++ c!"#" ++ (c!"arg " ++ n) ++ l.post) ++ body.src ++ (more.next j).pre ++ X := by rw [hs0, ← hw]; simp
    have hs3 : h.src = (a ++ l.pre ++ c!"#" ++ (c!"arg " ++ n) ++ l.post ++ body.src) ++ more.src ++ j.pre ++ '#' :: (c!"end call" ++ (j.post ++ b)) := by rw [hs]; simp [Kws.src]
    obtain ⟨_, _, k1, k2⟩ := arg_facts (z := l.stop) h1 []
    obtain ⟨g1, g2, g3⟩ := l.after (a ++ l.pre) k1 k2
    obtain ⟨eb1, eb2, eb3⟩ := Doc.ends body h5 g1 g2 g3
    have r1 := arg_reach hp hs0 ha' hcl h1 hpos hbp hst
    have r2 := Doc.reach hp body (s := s.emit (.callArg n :: l.ws) (a ++ l.pre ++ c!"#" ++ (c!"arg " ++ n) ++ l.post).length)
      h5 (hnd · |>.1) hs2 rfl hbp hst g1 g2 g3 ⟨rfl, hXd⟩
    have r3 := Kws.reach hp more (s := (s.emit (.callArg n :: l.ws) (a ++ l.pre ++ c!"#" ++ (c!"arg " ++ n) ++ l.post).length).emit (body.cmds (more.next j).pre)
      (a ++ l.pre ++ c!"#" ++ (c!"arg " ++ n) ++ l.post ++ body.src ++ (more.next j).pre).length) h6 (hnd · |>.2) hs3 rfl hbp hst eb1 eb2 eb3 hj
    have := (r1.trans r2).trans r3
    rw [PS.emit_emit, PS.emit_emit] at this
    simpa only [Kws.cmds, Kws.src, List.append_assoc, List.cons_append, List.nil_append] using this
end

/-- The parser gives these commands. -/
theorem parse_doc (hp : Tame h) (d : Doc) (hok : d.Ok h.tok true none) (hs : h.src = d.src) : h.parse fullSt = .ok (d.cmds []) := by
  have r := Doc.reach hp d (a := []) (i := []) (b := []) (s := { pos := 0, bp := h.src.length, st := fullSt }) hok (by simp) (by simp [hs]) rfl rfl rfl (by unfold NoBs; simp) (fun _ => .inl rfl) (by simp)
    ⟨rfl, rfl⟩
  obtain ⟨k, hk, he⟩ := r (3 * h.src.length + 4) (by show _ ≤ _ + 0; omega)
  have hpos : (PS.emit { pos := 0, bp := h.src.length, st := fullSt } (d.cmds []) ([] ++ d.src ++ []).length).pos = h.src.length := by simp [PS.emit, hs]
  rw [hpos] at hk
  obtain ⟨k, rfl⟩ : ∃ j, k = j + 1 := ⟨k - 1, by omega⟩
  unfold Env.parse
  rw [he, Env.loop, if_pos (by simp [PS.emit, hs])]
  simp [PS.emit, bind, Except.bind]

end Cheetah.Parser
