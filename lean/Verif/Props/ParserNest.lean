import Verif.Props.ParserHigh
/-
C35: only properly nested directives are accepted. C68: text stays in its block.
-/
namespace Cheetah.Parser

/-! ### Nested commands -/

theorem Nested.append {a b : List Cmd} (ha : Nested a) (hb : Nested b) : Nested (a ++ b) := by
  induction ha with
  | nil => exact hb
  | plain c cs h _ ih => exact .plain c _ h ih
  | block o c body rest h1 h2 _ _ ih =>
    have : o :: body ++ c :: rest ++ b = o :: body ++ c :: (rest ++ b) := by simp
    rw [this]
    exact .block o c body _ h1 h2 ih

theorem Nested.neutral {cs : List Cmd} (h : ∀ c ∈ cs, Neutral c) : Nested cs := by
  induction cs with
  | nil => exact .nil
  | cons c cs ih => exact .plain c cs (h c (by simp)) (ih fun d hd => h d (by simp [hd]))

theorem Nested.wrap {o c : Cmd} {body : List Cmd} (h : Closes o c) (hb : Nested body) : Nested (o :: body ++ [c]) :=
  .block o c body [] h hb .nil

/-- The command that started an open block, given the name of its directive and the blocks around it. -/
inductive OpenedBy (h : Env) : Str → List Str → Cmd → Prop
  | plain (n : Str) (ns : List Str) (c : Cmd) : Opens n c → OpenedBy h n ns c
  | method (ns : List Str) (n : Str) (as : List (Str × Option Str)) : h.nestedDef ns 1 = false → OpenedBy h c!"def" ns (.startMethod n as)
  | nested (ns : List Str) (n : Str) (as : List (Str × Option Str)) : h.nestedDef ns 1 = true → OpenedBy h c!"def" ns (.addClosure n as)
  | block (ns : List Str) (n : Str) (as : List (Str × Option Str)) : OpenedBy h c!"block" ns (.startMethod n as)
  | closure (ns : List Str) (n : Str) (as : List (Str × Option Str)) : OpenedBy h c!"closure" ns (.addClosure n as)

/-- The commands given while some blocks are open. -/
inductive Ctx (h : Env) : List Str → List Cmd → Prop
  | nil (cs : List Cmd) : Nested cs → Ctx h [] cs
  | push (n : Str) (ns : List Str) (o : Cmd) (cs body : List Cmd) : Ctx h ns cs → OpenedBy h n ns o → Nested body → Ctx h (n :: ns) (cs ++ o :: body)

theorem Ctx.append {h : Env} {ns : List Str} {cs b : List Cmd} (hc : Ctx h ns cs) (hb : Nested b) : Ctx h ns (cs ++ b) := by
  cases hc with
  | nil _ h1 => exact .nil _ (h1.append hb)
  | push n ns o cs body h1 h2 h3 =>
    have : cs ++ o :: body ++ b = cs ++ o :: (body ++ b) := by simp
    rw [this]
    exact .push n ns o cs _ h1 h2 (h3.append hb)

theorem Ctx.close {h : Env} {n : Str} {ns : List Str} {cs : List Cmd} {c : Cmd} (hc : Ctx h (n :: ns) cs)
    (hcl : ∀ o, OpenedBy h n ns o → Closes o c) : Ctx h ns (cs ++ [c]) := by
  cases hc with
  | push n ns o cs body h1 h2 h3 =>
    have : cs ++ o :: body ++ [c] = cs ++ (o :: body ++ [c]) := by simp
    rw [this]
    exact h1.append (.wrap (hcl o h2) h3)

theorem Ctx.close' {h : Env} {n : Str} {ns : List Str} {cs : List Cmd} (hc : Ctx h (n :: ns) cs)
    (hcl : ∀ o, OpenedBy h n ns o → Closes o .dedent) : Ctx h ns (cs ++ [.commit, .dedent]) := by
  have h1 := (hc.append (b := [.commit]) (.plain _ _ .commit .nil)).close hcl
  simpa using h1

theorem Opens.closeable {n : Str} {c : Cmd} (h : Opens n c) : n ≠ c!"def" ∧ n ≠ c!"block" ∧ n ≠ c!"closure" := by
  cases h with
  | indenting n e hn =>
    simp only [List.mem_cons, List.not_mem_nil, or_false] at hn
    rcases hn with rfl | rfl | rfl | rfl | rfl | rfl <;> decide
  | _ => decide

/-- Ending a block gives the command that closes it. -/
theorem endBlock_ctx {h : Env} {s t : PS} {name : Str} (hc : Ctx h (name :: s.stack) s.cmds) (hn : name ∈ closeable) (hn' : name ∈ endNames)
    (ht : h.endBlock s name = .ok t) : Ctx h t.stack t.cmds := by
  have restore : (match s.orig with
      | some b => .ok { s with st := { s.st with useSearchList := b }, cmds := s.cmds ++ [Cmd.commit, Cmd.dedent] }
      | none => .error Err.assertion) = Except.ok t → t.stack = s.stack ∧ t.cmds = s.cmds ++ [Cmd.commit, Cmd.dedent] := by
    intro hr
    split at hr
    · cases hr; exact ⟨rfl, rfl⟩
    · cases hr
  unfold Env.endBlock at ht
  split at ht
  · subst name
    split at ht
    · rename_i hnd
      obtain ⟨h1, h2⟩ := restore ht
      rw [h1, h2]
      refine hc.close' fun o ho => ?_
      generalize hx : (c!"def" : Str) = d at ho
      cases ho with
      | plain _ _ _ h3 => subst hx; exact absurd rfl h3.closeable.1
      | method n as _ h3 => rw [hnd] at h3; cases h3
      | nested => exact .closure _ _
      | block => exact absurd hx (by decide)
      | closure => exact absurd hx (by decide)
    · rename_i hnd
      cases ht
      refine hc.close fun o ho => ?_
      generalize hx : (c!"def" : Str) = d at ho
      cases ho with
      | plain _ _ _ h3 => subst hx; exact absurd rfl h3.closeable.1
      | method => exact .def_ _ _
      | nested n as _ h3 => exact absurd h3 hnd
      | block => exact absurd hx (by decide)
      | closure => exact absurd hx (by decide)
  split at ht
  · subst name
    cases ht
    refine hc.close fun o ho => ?_
    generalize hx : (c!"block" : Str) = d at ho
    cases ho with
    | plain _ _ _ h3 => subst hx; exact absurd rfl h3.closeable.2.1
    | method => exact absurd hx (by decide)
    | nested => exact absurd hx (by decide)
    | block => exact .block _ _
    | closure => exact absurd hx (by decide)
  split at ht
  · subst name
    cases ht
    refine hc.close fun o ho => ?_
    generalize hx : (c!"capture" : Str) = d at ho
    cases ho with
    | plain _ _ _ h3 =>
      cases h3 with
      | indenting _ _ hm => subst hx; exact absurd hm (by decide)
      | capture => exact .capture _
      | _ => exact absurd hx (by decide)
    | _ => exact absurd hx (by decide)
  split at ht
  · subst name
    cases ht
    refine hc.close fun o ho => ?_
    generalize hx : (c!"cache" : Str) = d at ho
    cases ho with
    | plain _ _ _ h3 =>
      cases h3 with
      | indenting _ _ hm => subst hx; exact absurd hm (by decide)
      | cache => exact .cache _
      | _ => exact absurd hx (by decide)
    | _ => exact absurd hx (by decide)
  split at ht
  · subst name
    cases ht
    refine hc.close fun o ho => ?_
    generalize hx : (c!"call" : Str) = d at ho
    cases ho with
    | plain _ _ _ h3 =>
      cases h3 with
      | indenting _ _ hm => subst hx; exact absurd hm (by decide)
      | call => exact .call _ _
      | _ => exact absurd hx (by decide)
    | _ => exact absurd hx (by decide)
  split at ht
  · subst name
    cases ht
    refine hc.close fun o ho => ?_
    generalize hx : (c!"filter" : Str) = d at ho
    cases ho with
    | plain _ _ _ h3 =>
      cases h3 with
      | indenting _ _ hm => subst hx; exact absurd hm (by decide)
      | filter => exact .filter _ _
      | _ => exact absurd hx (by decide)
    | _ => exact absurd hx (by decide)
  split at ht
  · subst name
    obtain ⟨h1, h2⟩ := restore ht
    rw [h1, h2]
    refine hc.close' fun o ho => ?_
    generalize hx : (c!"closure" : Str) = d at ho
    cases ho with
    | plain _ _ _ h3 => subst hx; exact absurd rfl h3.closeable.2.2
    | method => exact absurd hx (by decide)
    | nested => exact absurd hx (by decide)
    | block => exact absurd hx (by decide)
    | closure => exact .closure _ _
  · cases ht
    refine hc.close' fun o ho => ?_
    cases ho with
    | plain _ _ _ h3 =>
      cases h3 with
      | indenting _ _ hm => exact .indenting _ _
      | _ => simp_all
    | _ => simp_all

/-! ### Bodies on one line -/

/-- After a colon no block directive and no `#end` starts on the same line. -/
def NoBlockAfterColon (h : Env) : Prop :=
  ∀ a w n r, h.src = a ++ h.cfg.dir ++ w ++ n ++ r → (∀ c ∈ w, c = ' ' ∨ c = '\t') → AfterColon h.src a.length → n ∉ c!"end" :: closeable

/-- No expression of a simple directive (`#silent`, `#echo`, `#return`, …) starts with the name of a block directive. -/
def NoBlockWords (cmds : List Cmd) : Prop := ∀ n e, Cmd.simple n e ∈ cmds → e.takeWhile (fun c => !isSpace c) ∉ closeable

theorem firstWord_prefix : ∀ s : Str, ∃ r, s = firstWord s ++ r
  | [] => ⟨[], rfl⟩
  | c :: cs => by
    rw [firstWord]
    split
    · obtain ⟨r, hr⟩ := firstWord_prefix cs
      exact ⟨r, by simpa using hr⟩
    · exact ⟨c :: cs, rfl⟩

theorem directiveOf_prefix {names : List Str} {s n : Str} (h : directiveOf names s = some n) : ∃ r, s = n ++ r := by
  unfold directiveOf at h
  split at h
  · split at h <;> simp at h
    subst h
    exact ⟨_, rfl⟩
  · cases h
  · split at h
    · simp at h
      subst h
      exact firstWord_prefix s
    · cases h

theorem name_prefix {x : Px} {p : Nat} {name : Str} (hd : x.cfg.dir ≠ []) (hb : x.bp ≤ x.src.length) (h : x.matchDirective p = .ok (some name)) :
    ∃ a w r, x.src = a ++ x.cfg.dir ++ w ++ name ++ r ∧ (∀ c ∈ w, c = ' ' ∨ c = '\t') ∧ a.length = p := by
  have hlt := matchDirective_lt hd h
  unfold Cx.matchDirective at h
  split at h
  · cases h
  · rename_i q hq
    cases hgo : x.goto q with
    | error e => rw [hgo] at h; cases h
    | ok q' =>
      rw [hgo] at h
      obtain ⟨rfl, hqb⟩ := (goto_nf (x := x) q).of_ok hgo
      have h : x.matchDirName q' = some name := by simpa [Except.map] using h
      rw [C36_directive_is_whole_word] at h
      obtain ⟨r, hr⟩ := directiveOf_prefix h
      unfold Cx.matchDirStart at hq
      split at hq
      · cases hs : stripPrefix? x.cfg.dir (x.rest p) with
        | none => rw [hs] at hq; cases hq
        | some r1 =>
          rw [hs] at hq
          simp only [Option.ite_none_right_eq_some, Option.some.injEq] at hq
          have h1 := stripPrefix?_eq _ _ _ hs
          obtain ⟨w, r2, hw, hw2, hw3⟩ : ∃ w r2, r1 = w ++ r2 ∧ (∀ c ∈ w, c = ' ' ∨ c = '\t') ∧ q' = p + x.cfg.dir.length + w.length := by
            by_cases hw : x.cfg.wsAfterDir = true
            · rw [if_pos hw] at hq
              refine ⟨_, r1.dropWhile _, List.takeWhile_append_dropWhile.symm, ?_, hq.2.symm⟩
              intro c hc
              have := List.all_eq_true.1 List.all_takeWhile c hc
              simpa using this
            · rw [if_neg hw] at hq
              exact ⟨[], r1, rfl, by simp, hq.2.symm⟩
          have h2 : x.src = x.src.take p ++ (x.cfg.dir ++ (w ++ r2)) := by
            rw [← hw, ← h1]; exact (List.take_append_drop p x.src).symm
          have h3 : r2 = x.src.drop q' := by
            have hpl : (x.src.take p).length = p := by simp; omega
            rw [hw3]
            conv => rhs; rw [h2]
            rw [← List.append_assoc, ← List.append_assoc]
            rw [List.drop_append_of_le_length (by simp; omega), List.drop_eq_nil_of_le (by simp; omega)]
            simp
          have h4 : ∃ r3, r2 = name ++ r3 := by
            rw [h3]
            have : x.src.drop q' = (x.src.take x.bp).drop q' ++ (x.src.drop x.bp) := by
              conv => lhs; rw [← List.take_append_drop x.bp x.src]
              rw [List.drop_append_of_le_length]
              simp; omega
            rw [this, hr]
            exact ⟨_, List.append_assoc _ _ _⟩
          obtain ⟨r3, h4⟩ := h4
          refine ⟨x.src.take p, w, r3, ?_, hw2, by simp; omega⟩
          conv => lhs; rw [h2, h4]
          simp
      · cases hq

theorem no_block {h : Env} (hs : Sane h) (hd : h.cfg.dir.head? ≠ some '\r' ∧ h.cfg.dir.head? ≠ some '\n') (hno : NoBlockAfterColon h)
    {p bp : Nat} (hi : Inl h.src p bp) {name : Str} (hm : (h.px bp).matchDirective p = .ok (some name)) : name ∉ c!"end" :: closeable := by
  have hlt : p < bp := matchDirective_lt (x := h.px bp) hs.dir_ne hm
  obtain ⟨a, w, r, h1, h2, h3⟩ := name_prefix (x := h.px bp) hs.dir_ne hi.1 hm
  refine hno a w name r h1 h2 ?_
  rcases hi.2 p (Nat.le_refl _) hlt with h4 | h4
  · exfalso
    have h5 : h.src[p]? = h.cfg.dir.head? := by
      have h1 : h.src = a ++ h.cfg.dir ++ w ++ name ++ r := h1
      rw [h1, ← h3]
      cases hc : h.cfg.dir with
      | nil => exact absurd hc hs.dir_ne
      | cons d ds => simp
    rw [h5] at h4
    exact h4.elim hd.1 hd.2
  · rw [h3]; exact h4

/-- The commands of a body on one line. -/
def LineStep (s t : PS) : Prop := t.stack = s.stack ∧ ∃ N, t.cmds = s.cmds ++ N ∧ Nested N

theorem NoBlockWords.prefix {a b : List Cmd} (h : NoBlockWords (a ++ b)) : NoBlockWords a :=
  fun n e hm => h n e (by simp [hm])

theorem Step.words {h : Env} {s t : PS} (a : Step h s t) (hw : NoBlockWords t.cmds) : NoBlockWords s.cmds := by
  obtain ⟨_, _, cs, hc⟩ := a
  rw [hc] at hw
  exact hw.prefix

theorem LineStep.trans {s t u : PS} (a : LineStep s t) (b : LineStep t u) : LineStep s u := by
  obtain ⟨a1, N, a2, a3⟩ := a
  obtain ⟨b1, M, b2, b3⟩ := b
  exact ⟨b1.trans a1, N ++ M, by rw [b2, a2, List.append_assoc], a3.append b3⟩

theorem Inl.mono {src : Str} {p q bp : Nat} (h : Inl src p bp) (hq : p ≤ q) : Inl src q bp := ⟨h.1, fun i h1 h2 => h.2 i (by omega) h2⟩

/-- What the parser does in a body on one line. -/
structure Lines (h : Env) (n : Nat) : Prop where
  loop : ∀ s t, s.pos ≤ h.src.length → Inl h.src s.pos s.bp → h.loop n s = .ok t → NoBlockWords t.cmds → LineStep s t
  dir : ∀ s t, s.pos ≤ h.src.length → Inl h.src s.pos s.bp → h.eatDirective n s = .ok t → NoBlockWords t.cmds →
    LineStep s t ∧ (t.bp = s.bp ∨ t.bp ≤ t.pos)
  act : ∀ s a d t, s.pos < s.bp → Inl h.src s.pos s.bp → ActOk (h.px s.bp) s.pos d a → d ∉ c!"end" :: closeable → h.perform n s a = .ok t →
    NoBlockWords t.cmds → LineStep s t ∧ (t.bp = s.bp ∨ t.bp ≤ t.pos)

theorem DefKind.name_mem (k : DefKind) : k.name ∈ closeable := by cases k <;> decide

theorem lines {h : Env} (hs : Sane h) (hd : h.cfg.dir.head? ≠ some '\r' ∧ h.cfg.dir.head? ≠ some '\n') (hno : NoBlockAfterColon h) :
    ∀ n, Lines h n := by
  intro n
  induction n with
  | zero =>
    refine ⟨fun s t _ _ ht => ?_, fun s t _ _ ht => ?_, fun s a d t _ _ _ _ ht => ?_⟩
    · unfold Env.loop at ht; cases ht
    · unfold Env.eatDirective at ht; cases ht
    · unfold Env.perform at ht; cases ht
  | succ n ih =>
    refine ⟨?_, ?_, ?_⟩
    · intro s t hp hi ht hw
      have ho : s.Ok h := ⟨hp, hi.1⟩
      unfold Env.loop at ht
      split at ht
      · cases ht; exact ⟨rfl, [], by simp, .nil⟩
      · rename_i hlt
        obtain ⟨tag, h1, ht⟩ := bind_ok ht
        split at ht
        · obtain ⟨u, h2, ht⟩ := bind_ok ht
          have h3 := ((runs hs n).dir s ho).1 u h2
          have h4 := ((runs hs n).loop u h3.1.2.1).1 t ht
          obtain ⟨h5, h6⟩ := ih.dir s u hp hi h2 (h4.1.words hw)
          refine h5.trans (ih.loop u t h3.1.2.1.1 ?_ ht hw)
          rcases h6 with h6 | h6
          · rw [h6]; exact hi.mono h3.1.1
          · exact ⟨h3.1.2.1.2, fun i h7 h8 => by omega⟩
        · obtain ⟨⟨cs, q⟩, h2, ht⟩ := bind_ok ht
          have h3 := (simple_nf (hs.good hi.1) h s.st (p := s.pos) (by show s.pos < s.bp; omega) h1).of_ok h2
          have hq : q ≤ s.bp := h3.2.1
          have h4 : LineStep s (s.emit cs q) := ⟨rfl, cs, rfl, .neutral h3.2.2⟩
          exact h4.trans (ih.loop _ t (by show q ≤ _; have := hi.1; omega) (hi.mono (by have := h3.1; show s.pos ≤ q; omega)) ht hw)
    · intro s t hp hi ht hw
      unfold Env.eatDirective at ht
      cases hm : (h.px s.bp).matchDirective s.pos with
      | error e => rw [hm] at ht; cases ht
      | ok o =>
        rw [hm] at ht
        cases o with
        | none => cases ht
        | some name =>
          simp only at ht
          have hlt : s.pos < s.bp := matchDirective_lt (x := h.px s.bp) hs.dir_ne hm
          split at ht
          · cases ht
          · obtain ⟨a, h1, ht⟩ := bind_ok ht
            exact ih.act s a name t hlt hi ((directive_ok (hs.good hi.1) h s.st name hlt).of_ok h1) (no_block hs hd hno hi hm) ht hw
    · intro s a d t hlt hi ha hdn ht hw
      have hline : ∀ (o c : Cmd) (q bp : Nat) (mid : List Cmd), s.pos < q → q ≤ s.bp → Inl h.src q bp → Closes o c → (∀ c ∈ mid, Neutral c) →
          h.perform (n + 1) s (.line [o] q bp (mid ++ [c])) = .ok t → LineStep s t ∧ (t.bp = s.bp ∨ t.bp ≤ t.pos) := by
        intro o c q bp mid h1 h2 h3 h4 h5 ht
        unfold Env.perform at ht
        obtain ⟨u, h6, ht⟩ := bind_ok ht
        cases ht
        obtain ⟨h7, N, h8, h9⟩ := ih.loop _ u (by show q ≤ _; have := hi.1; omega) h3 h6 hw.prefix
        refine ⟨⟨h7, o :: (N ++ mid) ++ [c], ?_, .wrap h4 (h9.append (.neutral h5))⟩, .inl rfl⟩
        show u.cmds ++ _ = _
        rw [h8]
        show s.cmds ++ [o] ++ N ++ (mid ++ [c]) = _
        simp
      cases ha with
      | go cs q h1 h2 h3 =>
        unfold Env.perform at ht
        cases ht
        exact ⟨⟨rfl, cs, rfl, .neutral h3⟩, .inl rfl⟩
      | opened name cs c q h1 h2 h3 h4 h5 => exact absurd (List.mem_cons_of_mem _ h5) hdn
      | word name w e cs q h1 h2 h3 h4 h5 =>
        unfold Env.perform at ht
        cases ht
        refine absurd h4 ?_
        rw [h5]
        exact hw name (strip e) (by simp [PS.emit])
      | closed name cs q h1 h2 h3 h4 h5 h6 => exact absurd (by rw [h6]; simp) hdn
      | stop =>
        unfold Env.perform at ht
        cases ht
        exact ⟨⟨rfl, [], by simp, .nil⟩, .inr (Nat.le_refl _)⟩
      | lineIf o q bp h1 h2 h3 h4 => exact hline o .dedent q bp [.commit] h1 h2 h3 h4 (by simpa using Neutral.commit) ht
      | line o c q bp h1 h2 h3 h4 => exact hline o c q bp [] h1 h2 h3 h4 (by simp) ht
      | defOpen kind name args cs q h1 h2 h3 h4 => exact absurd (by rw [h4]; exact List.mem_cons_of_mem _ kind.name_mem) hdn
      | defLine kind name args q bp clear eol h1 h2 h3 h4 => exact absurd (by rw [h4]; exact List.mem_cons_of_mem _ kind.name_mem) hdn
      | decorated cs q h1 h2 h3 =>
        unfold Env.perform at ht
        have h2 : q ≤ s.bp := h2
        obtain ⟨h4, h5⟩ := ih.dir (s.emit cs q) t (by show q ≤ _; have := hi.1; omega) (hi.mono (by show s.pos ≤ q; omega)) ht hw
        exact ⟨LineStep.trans (t := s.emit cs q) ⟨rfl, cs, rfl, .neutral h3⟩ h4, h5⟩

/-! ### The whole source -/

theorem openDef_ctx {h : Env} {s : PS} (hc : Ctx h s.stack s.cmds) (kind : DefKind) (name : Str) (args : List (Str × Option Str)) {cs : List Cmd}
    (hcs : ∀ c ∈ cs, Neutral c) (p : Nat) : Ctx h (h.openDef s kind name args cs p).stack (h.openDef s kind name args cs p).cmds := by
  have h0 := hc.append (.neutral hcs)
  have hmk : Nested (h.marker kind name) := by
    refine .neutral fun c hm => ?_
    unfold Env.marker at hm
    split at hm
    · simp at hm; subst hm; exact neutral
    · simp at hm
  have key : ∀ ds o body, ds = cs ++ o :: body → OpenedBy h kind.name s.stack o → Nested body → Ctx h (kind.name :: s.stack) (s.cmds ++ ds) := by
    intro ds o body h1 h2 h3
    rw [h1, ← List.append_assoc]
    exact .push _ _ _ _ _ h0 h2 h3
  have hnest : h.nestedDef (c!"def" :: s.stack) 2 = h.nestedDef s.stack 1 := by
    unfold Env.nestedDef
    congr 1
    simp
  unfold Env.openDef
  simp only
  split
  · rename_i hm
    refine key _ _ _ rfl ?_ hmk
    cases kind with
    | def_ =>
      refine .method _ _ _ ?_
      simp [asMethod, DefKind.name, hnest] at hm
      exact hm
    | block => exact .block _ _ _
    | closure => simp [asMethod] at hm
  · rename_i hm
    refine key _ _ _ rfl ?_ .nil
    cases kind with
    | def_ =>
      refine .nested _ _ _ ?_
      simp [asMethod, DefKind.name, hnest] at hm
      exact hm
    | block => simp [asMethod] at hm
    | closure => exact .closure _ _ _

/-- The state after each step of the parser. -/
structure Blocks (h : Env) (n : Nat) : Prop where
  loop : ∀ s t, s.Ok h → Ctx h s.stack s.cmds → h.loop n s = .ok t → NoBlockWords t.cmds → Ctx h t.stack t.cmds
  dir : ∀ s t, s.Ok h → Ctx h s.stack s.cmds → h.eatDirective n s = .ok t → NoBlockWords t.cmds → Ctx h t.stack t.cmds
  act : ∀ s a d t, s.Ok h → s.pos < s.bp → Ctx h s.stack s.cmds → ActOk (h.px s.bp) s.pos d a → h.perform n s a = .ok t → NoBlockWords t.cmds →
    Ctx h t.stack t.cmds

theorem blocks {h : Env} (hs : Sane h) (hd : h.cfg.dir.head? ≠ some '\r' ∧ h.cfg.dir.head? ≠ some '\n') (hno : NoBlockAfterColon h) :
    ∀ n, Blocks h n := by
  intro n
  induction n with
  | zero =>
    refine ⟨fun s t _ _ ht => ?_, fun s t _ _ ht => ?_, fun s a d t _ _ _ _ ht => ?_⟩
    · unfold Env.loop at ht; cases ht
    · unfold Env.eatDirective at ht; cases ht
    · unfold Env.perform at ht; cases ht
  | succ n ih =>
    refine ⟨?_, ?_, ?_⟩
    · intro s t ho hc ht hw
      unfold Env.loop at ht
      split at ht
      · cases ht; exact hc
      · rename_i hlt
        obtain ⟨tag, h1, ht⟩ := bind_ok ht
        split at ht
        · obtain ⟨u, h2, ht⟩ := bind_ok ht
          have h3 := ((runs hs n).dir s ho).1 u h2
          have h4 := ((runs hs n).loop u h3.1.2.1).1 t ht
          exact ih.loop u t h3.1.2.1 (ih.dir s u ho hc h2 (h4.1.words hw)) ht hw
        · obtain ⟨⟨cs, q⟩, h2, ht⟩ := bind_ok ht
          have h3 := (simple_nf (hs.good ho.2) h s.st (p := s.pos) (by show s.pos < s.bp; omega) h1).of_ok h2
          have hq : q ≤ s.bp := h3.2.1
          exact ih.loop (s.emit cs q) t ⟨by show q ≤ _; have := ho.2; omega, ho.2⟩ (hc.append (.neutral h3.2.2)) ht hw
    · intro s t ho hc ht hw
      unfold Env.eatDirective at ht
      cases hm : (h.px s.bp).matchDirective s.pos with
      | error e => rw [hm] at ht; cases ht
      | ok o =>
        rw [hm] at ht
        cases o with
        | none => cases ht
        | some name =>
          simp only at ht
          have hlt : s.pos < s.bp := matchDirective_lt (x := h.px s.bp) hs.dir_ne hm
          split at ht
          · cases ht
          · obtain ⟨a, h1, ht⟩ := bind_ok ht
            exact ih.act s a name t ho hlt hc ((directive_ok (hs.good ho.2) h s.st name hlt).of_ok h1) ht hw
    · intro s a d t ho hlt hc ha ht hw
      have hline : ∀ (o c : Cmd) (q bp : Nat) (mid : List Cmd), s.pos < q → q ≤ s.bp → Inl h.src q bp → Closes o c → (∀ c ∈ mid, Neutral c) →
          h.perform (n + 1) s (.line [o] q bp (mid ++ [c])) = .ok t → Ctx h t.stack t.cmds := by
        intro o c q bp mid h1 h2 h3 h4 h5 ht
        unfold Env.perform at ht
        obtain ⟨u, h6, ht⟩ := bind_ok ht
        cases ht
        obtain ⟨h7, N, h8, h9⟩ := (lines hs hd hno n).loop _ u (by show q ≤ _; have := ho.2; omega) h3 h6 hw.prefix
        have h10 := hc.append (.wrap h4 (h9.append (.neutral h5)))
        show Ctx h u.stack (u.cmds ++ (mid ++ [c]))
        rw [h7, h8]
        show Ctx h s.stack (s.cmds ++ [o] ++ N ++ (mid ++ [c]))
        simpa using h10
      cases ha with
      | go cs q h1 h2 h3 =>
        unfold Env.perform at ht
        cases ht
        exact hc.append (.neutral h3)
      | opened name cs c q h1 h2 h3 h4 h5 =>
        unfold Env.perform at ht
        cases ht
        have h6 := Ctx.push name s.stack c _ [] (hc.append (.neutral h3)) (.plain _ _ _ h4) .nil
        simpa [PS.emit] using h6
      | word name w e cs q h1 h2 h3 h4 h5 =>
        unfold Env.perform at ht
        cases ht
        refine absurd h4 ?_
        rw [h5]
        exact hw name (strip e) (by simp [PS.emit])
      | closed name cs q h1 h2 h3 h4 h5 h6 =>
        unfold Env.perform at ht
        obtain ⟨ns, h7, ht⟩ := bind_ok ht
        have h8 : s.stack = name :: ns := (pop_nf _ _ _).of_ok h7
        refine endBlock_ctx ?_ h4 h5 ht
        show Ctx h (name :: ns) (s.cmds ++ cs)
        rw [← h8]
        exact hc.append (.neutral h3)
      | stop =>
        unfold Env.perform at ht
        cases ht
        exact hc
      | lineIf o q bp h1 h2 h3 h4 => exact hline o .dedent q bp [.commit] h1 h2 h3 h4 (by simpa using Neutral.commit) ht
      | line o c q bp h1 h2 h3 h4 => exact hline o c q bp [] h1 h2 h3 h4 (by simp) ht
      | defOpen kind name args cs q h1 h2 h3 h4 =>
        unfold Env.perform at ht
        cases ht
        exact openDef_ctx hc kind name args h3 q
      | defLine kind name args q bp clear eol h1 h2 h3 h4 =>
        unfold Env.perform at ht
        obtain ⟨u, h6, ht⟩ := bind_ok ht
        obtain ⟨v, h7, ht⟩ := bind_ok ht
        obtain ⟨k1, k2, k3, k4⟩ := (restoreLine_nf _ _ _ _).of_ok h7
        obtain ⟨⟨es, r⟩, h8, ht⟩ := bind_ok ht
        obtain ⟨_, _, k5⟩ := (restTag_nf (hs.good ho.2).bp (hs.good ho.2).com_ne _ _ _).of_ok h8
        cases ht
        obtain ⟨j1, j2, j3, _⟩ := startLine_step h s kind name args q bp
        have hw' : NoBlockWords u.cmds := by
          rw [← k4]
          exact (hw.prefix).prefix
        have h2 : q ≤ s.bp := h2
        obtain ⟨h9, N, h10, h11⟩ := (lines hs hd hno n).loop _ u (by rw [j1]; have := ho.2; omega) (by rw [j1, j2]; exact h3) h6 hw'
        show Ctx h v.stack (v.cmds ++ h.endLine kind name (h.nestedDef s.stack 1) ++ es)
        rw [k3, k4, h9, j3, h10]
        refine Ctx.append ?_ (.neutral k5)
        have hmk : Nested (h.marker kind name) := by
          refine .neutral fun c hm => ?_
          unfold Env.marker at hm
          split at hm
          · simp at hm; subst hm; exact neutral
          · simp at hm
        have key : ∀ o c mid, (h.startLine s kind name args q bp).cmds = s.cmds ++ [o] → h.endLine kind name (h.nestedDef s.stack 1) = mid ++ [c] →
            Nested mid → Closes o c → Ctx h s.stack ((h.startLine s kind name args q bp).cmds ++ N ++ h.endLine kind name (h.nestedDef s.stack 1)) := by
          intro o c mid e1 e2 e3 e4
          have := hc.append (.wrap e4 (h11.append e3))
          rw [e1, e2]
          simpa using this
        cases kind with
        | def_ =>
          cases hnd : h.nestedDef s.stack 1 with
          | false =>
            rw [hnd] at key
            exact key (.startMethod name args) .closeDef [] (by simp [Env.startLine, hnd, asMethod, PS.emit]) (by simp [Env.endLine]) .nil (.def_ _ _)
          | true =>
            rw [hnd] at key
            exact key (.addClosure name args) .dedent [] (by simp [Env.startLine, hnd, asMethod, PS.emit]) (by simp [Env.endLine]) .nil (.closure _ _)
        | block => exact key (.startMethod name args) .closeBlock (h.marker .block name) (by simp [Env.startLine, asMethod, PS.emit]) rfl hmk (.block _ _)
        | closure => exact key (.addClosure name args) .dedent [] (by simp [Env.startLine, asMethod, PS.emit]) rfl .nil (.closure _ _)
      | decorated cs q h1 h2 h3 =>
        unfold Env.perform at ht
        have h2 : q ≤ s.bp := h2
        exact ih.dir (s.emit cs q) t ⟨by show q ≤ _; have := ho.2; omega, ho.2⟩ (hc.append (.neutral h3)) ht hw

/-- **C35 (soundness).** If the parser accepts a source, the commands it gives are properly nested: every block is closed by the command that
belongs to it.  Assumed: after a colon (which may start a body on one line) no block directive and no `#end` follows on the same line
(else false, `C35_line_counterexample`), and no expression of a simple directive starts with the name of a block directive (else false,
`C35_word_counterexample`). -/
theorem C35_accepted_is_nested_partial (h : Env) (hs : Sane h) (hd : h.cfg.dir.head? ≠ some '\r' ∧ h.cfg.dir.head? ≠ some '\n')
    (hno : NoBlockAfterColon h) (st : GenVar.Settings) (cmds : List Cmd) (hp : h.parse st = .ok cmds) (hw : NoBlockWords cmds) : Nested cmds := by
  unfold Env.parse at hp
  obtain ⟨s, h1, hp⟩ := bind_ok hp
  split at hp
  · rename_i hst
    cases hp
    have := (blocks hs hd hno _).loop _ s ⟨Nat.zero_le _, Nat.le_refl _⟩ (.nil _ .nil) h1 hw
    rw [hst] at this
    cases this with
    | nil _ h2 => exact h2
  · cases hp

/-! ### Deciding whether commands are nested -/

/-- What closes a command: 1 `dedent`, 2 the end of a method, 3 `endCall`, 4 `endCapture`, 5 `endCache`, 6 `closeFilter`; 0 nothing. -/
def openKind : Cmd → Nat
  | .indenting _ _ => 1
  | .reindenting _ _ false => 1
  | .addClosure _ _ => 1
  | .startMethod _ _ => 2
  | .startCall _ _ => 3
  | .startCapture _ => 4
  | .startCache _ => 5
  | .setFilter _ _ => 6
  | _ => 0

/-- What a command closes. -/
def closeKind : Cmd → Nat
  | .dedent => 1
  | .closeDef => 2
  | .closeBlock => 2
  | .endCall => 3
  | .endCapture => 4
  | .endCache => 5
  | .closeFilter => 6
  | _ => 0

/-- Run through the commands with the open blocks. -/
def nest : List Nat → List Cmd → Option (List Nat)
  | ks, [] => some ks
  | ks, c :: cs =>
    if openKind c ≠ 0 then nest (openKind c :: ks) cs
    else if closeKind c ≠ 0 then
      match ks with
      | k :: ks => if k = closeKind c then nest ks cs else none
      | [] => none
    else nest ks cs

theorem nest_append (ks : List Nat) (a b : List Cmd) : nest ks (a ++ b) = (nest ks a).bind fun ks => nest ks b := by
  induction a generalizing ks with
  | nil => rfl
  | cons c a ih =>
    simp only [List.cons_append, nest]
    split
    · exact ih _
    · split
      · split
        · split
          · exact ih _
          · rfl
        · rfl
      · exact ih _

theorem closes_kind {o c : Cmd} (h : Closes o c) : openKind o ≠ 0 ∧ openKind c = 0 ∧ closeKind c = openKind o := by
  cases h <;> simp [openKind, closeKind]

theorem kind_neutral {c : Cmd} (h : Neutral c) : openKind c = 0 ∧ closeKind c = 0 := by
  obtain ⟨h1, h2⟩ := h
  constructor
  · unfold openKind
    split
    · exact absurd (.indenting _ _) (h1 _)
    · exact absurd (.reindenting _ _) (h1 _)
    · exact absurd (.closure _ _) (h1 _)
    · exact absurd (.def_ _ _) (h1 _)
    · exact absurd (.call _ _) (h1 _)
    · exact absurd (.capture _) (h1 _)
    · exact absurd (.cache _) (h1 _)
    · exact absurd (.filter _ _) (h1 _)
    · rfl
  · unfold closeKind
    split
    · exact absurd (.indenting [] []) (h2 _)
    · exact absurd (.def_ [] []) (h2 _)
    · exact absurd (.block [] []) (h2 _)
    · exact absurd (.call [] []) (h2 _)
    · exact absurd (.capture []) (h2 _)
    · exact absurd (.cache []) (h2 _)
    · exact absurd (.filter [] true) (h2 _)
    · rfl

theorem Nested.nest {cs : List Cmd} (h : Nested cs) (ks : List Nat) : nest ks cs = some ks := by
  induction h generalizing ks with
  | nil => rfl
  | plain c cs h _ ih =>
    obtain ⟨h1, h2⟩ := kind_neutral h
    simp [Parser.nest, h1, h2, ih]
  | block o c body rest h _ _ ih1 ih2 =>
    obtain ⟨h1, h2, h3⟩ := closes_kind h
    rw [nest_append]
    simp [Parser.nest, h1, h2, h3, ih1, ih2]

/-- **C35 fails after a colon.** `#if 1: #call f` on one line opens the call inside the `#if`, whose block ends with the line: the source is
accepted and the call ends after the block it started in. -/
theorem C35_line_counterexample : ∃ cmds, (demoEnv c!"#if 1: #call f\nfoo\n#end call\n").parse demoSt = .ok cmds ∧ ¬ Nested cmds := by
  refine ⟨[.indenting c!"if" c!"if 1", .startCall c!"f" [], .strConst c!"\n", .commit, .dedent, .strConst c!"foo\n", .handleWS, .endCall],
    by decide +kernel, fun h => absurd (h.nest []) (by decide +kernel)⟩

/-- **C35 fails after a colon.** An `#end` in a body on one line ends a block that was opened outside. -/
theorem C35_end_counterexample : ∃ cmds, (demoEnv c!"#call f\n#if 1: #end call\n").parse demoSt = .ok cmds ∧ ¬ Nested cmds := by
  refine ⟨[.handleWS, .startCall c!"f" [], .indenting c!"if" c!"if 1", .endCall, .strConst c!"\n", .commit, .dedent],
    by decide +kernel, fun h => absurd (h.nest []) (by decide +kernel)⟩

/-- **C35 fails for `#silent if`.** The first word of the expression is taken for a block directive: `#end if` is accepted and
dedents although nothing was opened. -/
theorem C35_word_counterexample : ∃ cmds, (demoEnv c!"#silent if\n#end if").parse demoSt = .ok cmds ∧ ¬ Nested cmds := by
  refine ⟨[.handleWS, .simple c!"silent" c!"if", .handleWS, .commit, .dedent],
    by decide +kernel, fun h => absurd (h.nest []) (by decide +kernel)⟩

/-- A source with nested blocks that meets the hypotheses of `C35_accepted_is_nested_partial`. -/
example : ∃ cmds, (demoEnv c!"#if $x\n#for $i in $y\n$i\n#end for\n#end if\n").parse demoSt = .ok cmds ∧ NoBlockWords cmds ∧
    NoBlockAfterColon (demoEnv c!"#if $x\n#for $i in $y\n$i\n#end for\n#end if\n") := by
  cases hp : (demoEnv c!"#if $x\n#for $i in $y\n$i\n#end for\n#end if\n").parse demoSt with
  | error e => exact absurd (by rw [hp]; rfl : ((demoEnv c!"#if $x\n#for $i in $y\n$i\n#end for\n#end if\n").parse demoSt).isOk = false) (by decide +kernel)
  | ok cmds =>
    refine ⟨cmds, rfl, ?_, ?_⟩
    · intro n e hm
      have : ((demoEnv c!"#if $x\n#for $i in $y\n$i\n#end for\n#end if\n").parse demoSt).toOption.all (fun cs => cs.all fun c => match c with | .simple _ _ => false | _ => true) = true := by
        decide +kernel
      rw [hp] at this
      simp only [Except.toOption, Option.all_some, List.all_eq_true] at this
      exact absurd (this _ hm) (by simp)
    · intro a w n r _ _ ⟨k, _, hk, _⟩
      have hc : ':' ∉ (demoEnv c!"#if $x\n#for $i in $y\n$i\n#end for\n#end if\n").src := by decide
      exact absurd (List.mem_of_getElem? hk) hc

end Cheetah.Parser
