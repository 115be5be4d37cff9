import Verif.Props.ParserSteps
import Verif.Props.ParserTok
/-
Properties of the parse loop: C39 (it ends), C35 (blocks nest), C68 (text stays in its block).
-/
namespace Cheetah.Parser

/-- What is assumed of the tokenizer and of the settings: a token is not empty and not longer than the text, and a bracket is a token of
its own; the placeholder's start token has no brackets; the tokens that start a tag are not empty. -/
structure Sane (h : Env) : Prop where
  tok : ∀ s n, s ≠ [] → h.tok s = some n → 0 < n ∧ n ≤ s.length ∧ (∀ c, s.head? = some c → Bracket c → n = 1)
  var_ne : h.cfg.var ≠ []
  var : ∀ c ∈ h.cfg.var, ¬ Bracket c
  com_ne : h.cfg.com ≠ []
  ml_ne : h.cfg.mlStart ≠ []
  dir_ne : h.cfg.dir ≠ []
  psp_ne : h.cfg.psp ≠ []

theorem Sane.good {h : Env} (hs : Sane h) {bp : Nat} (hb : bp ≤ h.src.length) : Good' (h.px bp) :=
  { bp := hb, tok := hs.tok, var_ne := hs.var_ne, var := hs.var, com_ne := hs.com_ne, ml_ne := hs.ml_ne, dir_ne := hs.dir_ne, psp_ne := hs.psp_ne }

/-- The default settings with a simple tokenizer. -/
def demoEnv (s : Str) : Env := { cfg := Cfg.std, src := s, tok := simpleTok }

theorem demoEnv_sane (s : Str) : Sane (demoEnv s) where
  tok := simpleTok_ok
  var_ne := by simp [demoEnv, Cfg.std]
  var := by simp [demoEnv, Cfg.std, Bracket]
  com_ne := by simp [demoEnv, Cfg.std]
  ml_ne := by simp [demoEnv, Cfg.std]
  dir_ne := by simp [demoEnv, Cfg.std]
  psp_ne := by simp [demoEnv, Cfg.std]

/-! ### Progress -/

theorem matchDirective_lt {x : Px} (hd : x.cfg.dir ≠ []) {p : Nat} {name : Str} (h : x.matchDirective p = .ok (some name)) : p < x.bp := by
  unfold Cx.matchDirective at h
  split at h
  · cases h
  · rename_i q hq
    have h1 := matchDirStart_lt hd hq
    cases hg : x.goto q with
    | error e => rw [hg] at h; cases h
    | ok r =>
      have := (goto_nf (x := x) q).of_ok hg
      omega

/-- What holds of the state. -/
def PS.Ok (h : Env) (s : PS) : Prop := s.pos ≤ h.src.length ∧ s.bp ≤ h.src.length

/-- A step from one state to another: not backwards, commands are only added. -/
def Step (h : Env) (s t : PS) : Prop := s.pos ≤ t.pos ∧ t.Ok h ∧ ∃ cs, t.cmds = s.cmds ++ cs

/-- A directive's step: forwards, unless it ends the parse. -/
def DirStep (h : Env) (s t : PS) : Prop := Step h s t ∧ (s.pos < t.pos ∨ t.bp ≤ t.pos)

theorem Step.trans {h : Env} {s t u : PS} (a : Step h s t) (b : Step h t u) : Step h s u := by
  obtain ⟨a1, a2, cs, a3⟩ := a
  obtain ⟨b1, b2, ds, b3⟩ := b
  exact ⟨by omega, b2, cs ++ ds, by rw [b3, a3, List.append_assoc]⟩

theorem pop_nf (name : Str) (p : Nat) (ns : List Str) : NF (fun ms => ns = name :: ms) (pop name p ns) := by
  unfold pop
  split
  · simp [NF]
  · refine NF.ite (fun h => by subst h; rfl) (fun _ => by simp [NF])

theorem endBlock_nf (h : Env) (s : PS) (name : Str) :
    NF (fun t => t.pos = s.pos ∧ t.bp = s.bp ∧ t.stack = s.stack ∧ ∃ cs, t.cmds = s.cmds ++ cs) (h.endBlock s name) := by
  have hr : NF (fun (t : PS) => t.pos = s.pos ∧ t.bp = s.bp ∧ t.stack = s.stack ∧ ∃ cs, t.cmds = s.cmds ++ cs)
      (match s.orig with
      | some b => .ok { s with st := { s.st with useSearchList := b }, cmds := s.cmds ++ [Cmd.commit, Cmd.dedent] }
      | none => .error .assertion) := by
    split
    · exact ⟨rfl, rfl, rfl, _, rfl⟩
    · simp [NF]
  unfold Env.endBlock
  refine NF.ite (fun _ => NF.ite (fun _ => hr) fun _ => ⟨rfl, rfl, rfl, _, rfl⟩) fun _ => ?_
  refine NF.ite (fun _ => ⟨rfl, rfl, rfl, _, rfl⟩) fun _ => ?_
  refine NF.ite (fun _ => ⟨rfl, rfl, rfl, _, rfl⟩) fun _ => ?_
  refine NF.ite (fun _ => ⟨rfl, rfl, rfl, _, rfl⟩) fun _ => ?_
  refine NF.ite (fun _ => ⟨rfl, rfl, rfl, _, rfl⟩) fun _ => ?_
  refine NF.ite (fun _ => ⟨rfl, rfl, rfl, _, rfl⟩) fun _ => ?_
  refine NF.ite (fun _ => hr) fun _ => ⟨rfl, rfl, rfl, _, rfl⟩

theorem restoreLine_nf (s : PS) (kind : DefKind) (nested : Bool) (t : PS) :
    NF (fun u => u.pos = t.pos ∧ u.bp = t.bp ∧ u.stack = t.stack ∧ u.cmds = t.cmds) (restoreLine s kind nested t) := by
  unfold restoreLine
  refine NF.ite (fun _ => NF.ite (fun _ => by simp [NF]) fun _ => ⟨rfl, rfl, rfl, rfl⟩) fun _ => ⟨rfl, rfl, rfl, rfl⟩

theorem openDef_step (h : Env) (s : PS) (kind : DefKind) (name : Str) (args : List (Str × Option Str)) (cs : List Cmd) (p : Nat) :
    (h.openDef s kind name args cs p).pos = p ∧ (h.openDef s kind name args cs p).bp = s.bp ∧
      ∃ ds, (h.openDef s kind name args cs p).cmds = s.cmds ++ ds := by
  unfold Env.openDef
  simp only
  split <;> exact ⟨rfl, rfl, _, rfl⟩

theorem startLine_step (h : Env) (s : PS) (kind : DefKind) (name : Str) (args : List (Str × Option Str)) (p bp : Nat) :
    (h.startLine s kind name args p bp).pos = p ∧ (h.startLine s kind name args p bp).bp = bp ∧ (h.startLine s kind name args p bp).stack = s.stack ∧
      ∃ ds, (h.startLine s kind name args p bp).cmds = s.cmds ++ ds := by
  unfold Env.startLine
  split <;> exact ⟨rfl, rfl, rfl, _, rfl⟩

/-- The three functions of the loop, for a number of steps: what they give, and that they are not stopped by the number if it is large enough. -/
structure Runs (h : Env) (n : Nat) : Prop where
  loop : ∀ s, s.Ok h → (∀ t, h.loop n s = .ok t → Step h s t ∧ t.bp ≤ t.pos) ∧ (3 * (h.src.length - s.pos) + 1 ≤ n → h.loop n s ≠ .error .fuel)
  dir : ∀ s, s.Ok h → (∀ t, h.eatDirective n s = .ok t → DirStep h s t) ∧
    (s.pos < s.bp → 3 * (h.src.length - s.pos) ≤ n → h.eatDirective n s ≠ .error .fuel)
  act : ∀ s a d, s.Ok h → s.pos < s.bp → ActOk (h.px s.bp) s.pos d a → (∀ t, h.perform n s a = .ok t → DirStep h s t) ∧
    (3 * (h.src.length - s.pos) ≤ n + 1 → h.perform n s a ≠ .error .fuel)

theorem bind_ok {α β : Type} {r : Except Err α} {f : α → Except Err β} {b : β} (h : (r >>= f) = .ok b) : ∃ a, r = .ok a ∧ f a = .ok b := by
  cases r with
  | ok a => exact ⟨a, rfl, h⟩
  | error e => cases h

theorem bind_fuel {α β : Type} {r : Except Err α} {f : α → Except Err β} (h1 : r ≠ .error .fuel) (h2 : ∀ a, r = .ok a → f a ≠ .error .fuel) :
    (r >>= f) ≠ .error .fuel := by
  cases r with
  | ok a => exact h2 a rfl
  | error e => intro h; exact h1 (by cases h; rfl)

theorem NF.ne_fuel {α : Type} {good : α → Prop} {r : Except Err α} (h : NF good r) : r ≠ .error .fuel := by
  rintro rfl; exact h rfl

theorem Step.emit {h : Env} {s : PS} (hs : s.Ok h) {cs : List Cmd} {q : Nat} (h1 : s.pos ≤ q) (h2 : q ≤ s.bp) : Step h s (s.emit cs q) :=
  ⟨h1, ⟨Nat.le_trans h2 hs.2, hs.2⟩, cs, rfl⟩

theorem run_loop {h : Env} (hs : Sane h) {n : Nat} (ih : Runs h n) (s : PS) (ho : s.Ok h) :
    (∀ t, h.loop (n + 1) s = .ok t → Step h s t ∧ t.bp ≤ t.pos) ∧ (3 * (h.src.length - s.pos) + 1 ≤ n + 1 → h.loop (n + 1) s ≠ .error .fuel) := by
  have hg := hs.good ho.2
  unfold Env.loop
  split
  · refine ⟨?_, fun _ => by simp⟩
    intro t ht
    cases ht
    exact ⟨⟨Nat.le_refl _, ho, [], by simp⟩, by assumption⟩
  · rename_i hlt
    constructor
    · intro t ht
      obtain ⟨tag, h1, ht⟩ := bind_ok ht
      split at ht
      · obtain ⟨u, h2, ht⟩ := bind_ok ht
        have h3 := (ih.dir s ho).1 u h2
        have h4 := (ih.loop u h3.1.2.1).1 t ht
        exact ⟨h3.1.trans h4.1, h4.2⟩
      · obtain ⟨⟨cs, q⟩, h2, ht⟩ := bind_ok ht
        have h3 := (simple_nf hg h s.st (p := s.pos) (by show s.pos < s.bp; omega) h1).of_ok h2
        have h5 : Step h s (s.emit cs q) := Step.emit ho (by have := h3.1; omega) h3.2.1
        have h4 := (ih.loop _ h5.2.1).1 t ht
        exact ⟨h5.trans h4.1, h4.2⟩
    · intro hn
      refine bind_fuel (tagAt_nf (x := h.px s.bp) s.pos).ne_fuel fun tag h1 => ?_
      split
      · refine bind_fuel ((ih.dir s ho).2 (by omega) (by omega)) fun u h2 => ?_
        have h3 := (ih.dir s ho).1 u h2
        rcases h3.2 with h4 | h4
        · exact (ih.loop u h3.1.2.1).2 (by have := ho.2; omega)
        · have : 0 < n := by have := ho.2; omega
          obtain ⟨m, rfl⟩ : ∃ m, n = m + 1 := ⟨n - 1, by omega⟩
          unfold Env.loop
          rw [if_pos h4]
          simp
      · have h3 := simple_nf hg h s.st (p := s.pos) (by show s.pos < s.bp; omega) h1
        refine bind_fuel h3.ne_fuel fun ⟨cs, q⟩ h2 => ?_
        have h4 := h3.of_ok h2
        have h5 : Step h s (s.emit cs q) := Step.emit ho (by have := h4.1; omega) h4.2.1
        refine (ih.loop _ h5.2.1).2 ?_
        show 3 * (h.src.length - q) + 1 ≤ n
        have := h4.1
        have := ho.2
        omega

theorem run_dir {h : Env} (hs : Sane h) {n : Nat} (ih : Runs h n) (s : PS) (ho : s.Ok h) :
    (∀ t, h.eatDirective (n + 1) s = .ok t → DirStep h s t) ∧
    (s.pos < s.bp → 3 * (h.src.length - s.pos) ≤ n + 1 → h.eatDirective (n + 1) s ≠ .error .fuel) := by
  have hg := hs.good ho.2
  unfold Env.eatDirective
  cases hm : (h.px s.bp).matchDirective s.pos with
  | error e =>
    refine ⟨fun t ht => by simp at ht, fun _ _ => ?_⟩
    have := (matchDirective_nf (x := h.px s.bp) s.pos).ne_fuel
    rw [hm] at this
    exact fun he => this (by cases he; rfl)
  | ok o =>
    cases o with
    | none => exact ⟨fun t ht => by simp at ht, fun _ _ => by simp⟩
    | some name =>
      have hlt : s.pos < s.bp := matchDirective_lt hg.dir_ne hm
      have ha := directive_ok hg h s.st name hlt
      simp only
      split
      · exact ⟨fun t ht => by simp at ht, fun _ _ => by simp⟩
      · constructor
        · intro t ht
          obtain ⟨a, h1, ht⟩ := bind_ok ht
          exact (ih.act s a name ho hlt (ha.of_ok h1)).1 t ht
        · intro _ hn
          exact bind_fuel ha.ne_fuel fun a h1 => (ih.act s a name ho hlt (ha.of_ok h1)).2 hn

theorem run_act {h : Env} (hs : Sane h) {n : Nat} (ih : Runs h n) (s : PS) (a : Act) (d : Str) (ho : s.Ok h) (hlt : s.pos < s.bp)
    (ha : ActOk (h.px s.bp) s.pos d a) : (∀ t, h.perform (n + 1) s a = .ok t → DirStep h s t) ∧
    (3 * (h.src.length - s.pos) ≤ n + 1 + 1 → h.perform (n + 1) s a ≠ .error .fuel) := by
  have hg := hs.good ho.2
  have hbp : (h.px s.bp).bp = s.bp := rfl
  have hline : ∀ (o : Cmd) (q bp : Nat) (after : List Cmd), s.pos < q → q ≤ s.bp → bp ≤ h.src.length →
      (∀ t, h.perform (n + 1) s (.line [o] q bp after) = .ok t → DirStep h s t) ∧
      (3 * (h.src.length - s.pos) ≤ n + 1 + 1 → h.perform (n + 1) s (.line [o] q bp after) ≠ .error .fuel) := by
    intro o q bp after h1 h2 h3
    have hok : PS.Ok h { s.emit [o] q with bp := bp } := ⟨by show q ≤ _; have := ho.2; omega, h3⟩
    unfold Env.perform
    constructor
    · intro t ht
      obtain ⟨u, h4, ht⟩ := bind_ok ht
      cases ht
      obtain ⟨⟨h5, h6, cs, h7⟩, _⟩ := (ih.loop _ hok).1 u h4
      have h5 : q ≤ u.pos := h5
      have h7 : u.cmds = s.cmds ++ [o] ++ cs := h7
      refine ⟨⟨?_, ⟨h6.1, ho.2⟩, [o] ++ cs ++ after, ?_⟩, .inl ?_⟩
      · show s.pos ≤ u.pos; omega
      · show u.cmds ++ after = _
        rw [h7]; simp
      · show s.pos < u.pos; omega
    · intro hn
      refine bind_fuel ((ih.loop _ hok).2 ?_) fun u _ => by simp
      show 3 * (h.src.length - q) + 1 ≤ n
      have := ho.2
      omega
  cases ha with
  | go cs q h1 h2 h3 =>
    unfold Env.perform
    refine ⟨fun t ht => ?_, fun _ => by simp⟩
    cases ht
    exact ⟨Step.emit ho (by omega) (by omega), .inl h1⟩
  | opened name cs c q h1 h2 h3 =>
    unfold Env.perform
    refine ⟨fun t ht => ?_, fun _ => by simp⟩
    cases ht
    exact ⟨Step.emit (cs := cs ++ [c]) (q := q) ho (by omega) (by omega), .inl h1⟩
  | word name w e cs q h1 h2 h3 =>
    unfold Env.perform
    refine ⟨fun t ht => ?_, fun _ => by simp⟩
    cases ht
    exact ⟨Step.emit (cs := cs ++ [.simple name (strip e)]) (q := q) ho (by omega) (by omega), .inl h1⟩
  | closed name cs q h1 h2 h3 =>
    unfold Env.perform
    constructor
    · intro t ht
      obtain ⟨st, h4, ht⟩ := bind_ok ht
      obtain ⟨h5, h6, h7, ds, h8⟩ := (endBlock_nf h _ name).of_ok ht
      have h5 : t.pos = q := h5
      have h6 : t.bp = s.bp := h6
      have h8 : t.cmds = s.cmds ++ cs ++ ds := h8
      exact ⟨⟨by omega, ⟨by have := ho.2; omega, by rw [h6]; exact ho.2⟩, cs ++ ds, by rw [h8, List.append_assoc]⟩, .inl (by omega)⟩
    · intro _
      exact bind_fuel (pop_nf _ _ _).ne_fuel fun _ _ => (endBlock_nf h _ name).ne_fuel
  | stop =>
    unfold Env.perform
    refine ⟨fun t ht => ?_, fun _ => by simp⟩
    cases ht
    exact ⟨⟨Nat.le_refl _, ⟨ho.1, ho.1⟩, [], by simp⟩, .inr (Nat.le_refl _)⟩
  | lineIf o q bp h1 h2 h3 => exact hline o q bp _ h1 h2 h3.1
  | line o c q bp h1 h2 h3 => exact hline o q bp _ h1 h2 h3.1
  | defOpen kind name args cs q h1 h2 h3 =>
    unfold Env.perform
    refine ⟨fun t ht => ?_, fun _ => by simp⟩
    cases ht
    obtain ⟨h4, h5, ds, h6⟩ := openDef_step h s kind name args cs q
    exact ⟨⟨by omega, ⟨by have := ho.2; omega, by rw [h5]; exact ho.2⟩, ds, h6⟩, .inl (by omega)⟩
  | defLine kind name args q bp clear eol h1 h2 h3 =>
    obtain ⟨k1, k2, _, ds, k3⟩ := startLine_step h s kind name args q bp
    have hok : PS.Ok h (h.startLine s kind name args q bp) := by
      have := ho.2
      exact ⟨by omega, by rw [k2]; exact h3.1⟩
    unfold Env.perform
    constructor
    · intro t ht
      obtain ⟨u, h4, ht⟩ := bind_ok ht
      obtain ⟨⟨h5, h6, cs, h7⟩, _⟩ := (ih.loop _ hok).1 u h4
      obtain ⟨v, h8, ht⟩ := bind_ok ht
      obtain ⟨h9, h10, _, h11⟩ := (restoreLine_nf _ _ _ _).of_ok h8
      obtain ⟨⟨es, r⟩, h12, ht⟩ := bind_ok ht
      obtain ⟨h13, h14, h15⟩ := (restTag_nf hg.bp hg.com_ne _ _ _).of_ok h12
      cases ht
      rw [k1] at h5
      have h6 := h6.1
      have := ho.2
      refine ⟨⟨?_, ⟨?_, ho.2⟩, ds ++ cs ++ h.endLine kind name (h.nestedDef s.stack 1) ++ es, ?_⟩, .inl ?_⟩
      · show s.pos ≤ r; omega
      · show r ≤ h.src.length; omega
      · show v.cmds ++ _ ++ es = _
        rw [h11, h7, k3]; simp
      · show s.pos < r; omega
    · intro hn
      refine bind_fuel ((ih.loop _ hok).2 ?_) fun u _ => ?_
      · rw [k1]; have := ho.2; omega
      refine bind_fuel (restoreLine_nf _ _ _ _).ne_fuel fun v _ => ?_
      exact bind_fuel (restTag_nf hg.bp hg.com_ne _ _ _).ne_fuel fun _ _ => by simp
  | decorated cs q h1 h2 h3 =>
    have h5 : Step h s (s.emit cs q) := Step.emit ho (by omega) (by omega)
    unfold Env.perform
    constructor
    · intro t ht
      have h4 := (ih.dir _ h5.2.1).1 t ht
      exact ⟨h5.trans h4.1, h4.2.imp (fun h6 => by have : q < t.pos := h6; omega) id⟩
    · intro hn
      rcases Nat.lt_or_ge q s.bp with h6 | h6
      · refine (ih.dir _ h5.2.1).2 h6 ?_
        show 3 * (h.src.length - q) ≤ n
        have := ho.2
        omega
      · -- at the break point there is no directive
        have hn0 : 0 < n := by have := ho.2; omega
        obtain ⟨m, rfl⟩ : ∃ m, n = m + 1 := ⟨n - 1, by omega⟩
        show h.eatDirective (m + 1) (s.emit cs q) ≠ _
        unfold Env.eatDirective
        have hq : (s.emit cs q).pos = q := rfl
        have hb : (s.emit cs q).bp = s.bp := rfl
        rw [hq, hb]
        cases hm : (h.px s.bp).matchDirective q with
        | error e =>
          have := (matchDirective_nf (x := h.px s.bp) q).ne_fuel
          rw [hm] at this
          exact fun he => this (by cases he; rfl)
        | ok o =>
          cases o with
          | none => simp
          | some name => have := matchDirective_lt hg.dir_ne hm; omega

theorem runs {h : Env} (hs : Sane h) : ∀ n, Runs h n := by
  intro n
  induction n with
  | zero =>
    refine ⟨fun s _ => ⟨fun t ht => ?_, fun hn => by omega⟩, fun s ho => ⟨fun t ht => ?_, fun h1 h2 => ?_⟩, fun s a d ho h1 _ => ⟨fun t ht => ?_, fun h2 => ?_⟩⟩
    · unfold Env.loop at ht; cases ht
    · unfold Env.eatDirective at ht; cases ht
    · have := ho.2; omega
    · unfold Env.perform at ht; cases ht
    · have := ho.2; omega
  | succ n ih => exact ⟨run_loop hs ih, run_dir hs ih, fun s a d ho hlt ha => run_act hs ih s a d ho hlt ha⟩

/-- **C39** The parser ends on every source: the bound on the number of steps (three for each character) is never reached. -/
theorem C39_parse_terminates (h : Env) (hs : Sane h) (st : GenVar.Settings) : h.parse st ≠ .error .fuel := by
  unfold Env.parse
  refine bind_fuel (((runs hs _).loop _ ⟨Nat.zero_le _, Nat.le_refl _⟩).2 (by show 3 * (h.src.length - 0) + 1 ≤ _; omega)) fun s _ => ?_
  split <;> simp

/-- The sources of the examples. -/
example : Sane (demoEnv c!"#if $x\n$f($x)\n#end if\n") := demoEnv_sane _

example : (demoEnv c!"a#if $x\nb#else#c#end if").parse demoSt = .ok
    [.strConst c!"a", .indenting c!"if" c!"if x", .strConst c!"\nb", .reindenting c!"else" c!"else" true,
      .strConst c!"c", .commit, .dedent] := by decide +kernel

/-- **C39 (progress).** A step of the parser consumes at least one character and stays inside the source, or it ends
the parse (`#breakpoint`, which consumes nothing: `C39_breakpoint_counterexample`); errors need not be parse errors
(`C39_error_counterexample`). -/
theorem C39_progress_partial (h : Env) (hs : Sane h) (s : PS) (hp : s.pos < s.bp) (hb : s.bp ≤ h.src.length) :
    (∀ n t, h.eatDirective n s = .ok t → (s.pos < t.pos ∨ t.bp ≤ t.pos) ∧ s.pos ≤ t.pos ∧ t.pos ≤ h.src.length) ∧
    (∀ tag cs q, (h.px s.bp).tagAt s.pos = .ok tag → (h.px s.bp).simple h s.st s.pos tag = .ok (cs, q) → s.pos < q ∧ q ≤ h.src.length) := by
  have ho : s.Ok h := ⟨by omega, hb⟩
  constructor
  · intro n t ht
    have := ((runs hs n).dir s ho).1 t ht
    exact ⟨this.2, this.1.1, this.1.2.1.1⟩
  · intro tag cs q h1 h2
    have := (simple_nf (hs.good hb) h s.st hp h1).of_ok h2
    exact ⟨this.1, by have := this.2.1; have : (h.px s.bp).bp = s.bp := rfl; omega⟩

/-- `#breakpoint` consumes nothing; the rest of the template is dropped. -/
theorem C39_breakpoint_counterexample : (demoEnv c!"a#breakpoint#b").parse demoSt = .ok [.strConst c!"a"] ∧
    (demoEnv c!"a#breakpoint#b").eatDirective 9 { pos := 1, bp := 14, st := demoSt } =
      .ok { pos := 1, bp := 1, st := demoSt } := by
  constructor <;> rfl

/-- Errors that are not parse errors: an index past the end of the source. -/
theorem C39_error_counterexample : (demoEnv c!"#if $x").parse demoSt = .error .index ∧
    (demoEnv c!"#silent").parse demoSt = .error .index := by
  constructor <;> decide +kernel

end Cheetah.Parser
