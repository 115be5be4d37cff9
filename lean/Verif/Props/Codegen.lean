import Verif.CompileAst
/-
Property C26: the generated lines are indented so that Python reads back the nesting of
the template.
-/
namespace Cheetah.Compile
variable {L : Lang}

/-! ### Spec: which templates are grammatical, and their nesting -/

/-- Does the body contain anything that becomes Python code? -/
def T.emits : T L → Bool
  | .skip => false
  | .seq a b => a.emits || b.emits
  | .text s => !s.isEmpty
  | .note => false
  | _ => true

/-- `#elif`s then at most one `#else` for `#if`; at most one `#else` for loops; `#except`s,
`#else`, `#finally` for `#try`. `stage`: 1 after `#else`, 2 after `#finally`. -/
def Tail.legalFor (o : Open L) : Nat → Tail L → Bool
  | _, .nil => true
  | stage, .cons k _ t =>
    match o, k with
    | .if_ _, .elif _ => stage == 0 && t.legalFor o 0
    | .unless _, .elif _ => stage == 0 && t.legalFor o 0
    | .try_, .except_ _ => stage == 0 && t.legalFor o 0
    | .try_, .finally_ => stage ≤ 1 && t.legalFor o 2
    | _, .else_ => stage == 0 && t.legalFor o 1
    | _, _ => false

/-- A `#try` goes on with `#except` or `#finally`. -/
def Tail.startsTry : Tail L → Bool
  | .cons (.except_ _) _ _ => true
  | .cons .finally_ _ _ => true
  | _ => false

def Tail.legal (o : Open L) (t : Tail L) : Bool :=
  t.legalFor o 0 && match o with
    | .try_ => t.startsTry
    | _ => true

mutual
/-- A grammatical template: the parts of each directive are in a legal order, and the body of each
control-flow directive contains something. -/
def T.ok : T L → Bool
  | .seq a b => a.ok && b.ok
  | .compound _ o body tail => body.emits && body.ok && tail.ok && tail.legal o
  | .capture _ _ body => body.ok
  | .call _ _ body => body.ok
  | .callKw _ _ pre _ body more => pre.ok && body.ok && more.ok
  | .filter _ _ body => body.ok
  | .cache _ _ body => body.ok
  | .skip => true
  | .text _ => true
  | .place _ _ => true
  | .ternary _ _ _ => true
  | .stmt _ => true
  | .note => true
  | .break_ => true
  | .continue_ => true
  | .stop => true
def Tail.ok : Tail L → Bool
  | .nil => true
  | .cons _ body t => body.emits && body.ok && t.ok
def Args.ok : Args L → Bool
  | .nil => true
  | .cons _ body more => body.ok && more.ok
end

/-- Kinds of blocks. -/
inductive Tag where
  | if_ | elif | else_ | while_ | for_ | try_ | except_ | finally_
  deriving DecidableEq, Repr

/-- Nested blocks, with everything else left out. -/
inductive Nest where
  | nil
  | block (k : Tag) (inside rest : Nest)
  deriving DecidableEq, Repr

def Nest.append : Nest → Nest → Nest
  | .nil, b => b
  | .block k i r, b => .block k i (r.append b)

instance : Append Nest := ⟨Nest.append⟩

def Open.tag : Open L → Tag
  | .if_ _ => .if_
  | .unless _ => .if_
  | .while_ _ => .while_
  | .for_ _ _ => .for_
  | .repeat_ _ => .for_
  | .try_ => .try_

def Cont.tag : Cont L → Tag
  | .elif _ => .elif
  | .else_ => .else_
  | .except_ _ => .except_
  | .finally_ => .finally_

mutual
/-- The nesting of a template. `$!x` counts as a `try`, `#if a then b else c` as an `if` with
`else`, `#cache` as an `if`; the other regions are not blocks. -/
def T.nest : T L → Nest
  | .seq a b => a.nest ++ b.nest
  | .place _ true => .block .try_ .nil .nil
  | .place _ false => .nil
  | .ternary _ _ _ => .block .if_ .nil (.block .else_ .nil .nil)
  | .compound _ o body tail => .block o.tag body.nest tail.nest
  | .capture _ _ body => body.nest
  | .call _ _ body => body.nest
  | .callKw _ _ pre _ body more => pre.nest ++ body.nest ++ more.nest
  | .filter _ _ body => body.nest
  | .cache _ _ body => .block .if_ body.nest .nil
  | .skip => .nil
  | .text _ => .nil
  | .stmt _ => .nil
  | .note => .nil
  | .break_ => .nil
  | .continue_ => .nil
  | .stop => .nil
def Tail.nest : Tail L → Nest
  | .nil => .nil
  | .cons k body t => .block k.tag body.nest t.nest
def Args.nest : Args L → Nest
  | .nil => .nil
  | .cons _ body more => body.nest ++ more.nest
end

def OpenHdr.tag : OpenHdr L → Tag
  | .if_ _ => .if_
  | .ifNot _ => .if_
  | .while_ _ => .while_
  | .for_ _ _ => .for_
  | .forRange _ _ => .for_
  | .try_ => .try_
  | .ifRecache _ => .if_

def ContHdr.tag : ContHdr L → Tag
  | .elif _ => .elif
  | .else_ => .else_
  | .except_ _ => .except_
  | .finally_ => .finally_

mutual
/-- The nesting of Python code. -/
def PStmt.nest : PStmt L → Nest
  | .simple _ => .nil
  | .compound h b t => .block h.tag b.nest t.nest
def PBlock.nest : PBlock L → Nest
  | .nil => .nil
  | .cons s b => s.nest ++ b.nest
def PTail.nest : PTail L → Nest
  | .nil => .nil
  | .cons h b t => .block h.tag b.nest t.nest
  | .notFound t => t.nest
end

/-! ### Python reads rendered blocks back -/

mutual
/-- Blocks Python can express. -/
def PStmt.wf : PStmt L → Prop
  | .simple _ => True
  | .compound h b t => b ≠ .nil ∧ b.wf ∧ t.wf ∧ t.legal h = true
def PBlock.wf : PBlock L → Prop
  | .nil => True
  | .cons s b => s.wf ∧ b.wf
def PTail.wf : PTail L → Prop
  | .nil => True
  | .cons _ b t => b ≠ .nil ∧ b.wf ∧ t.wf
  | .notFound t => t.wf
end

/-- The lines `rest` do not belong to a block at level `lv`. -/
def Stop (lv : Nat) : List (Nat × Line L) → Prop
  | [] => True
  | (k, _) :: _ => k < lv

/-- The lines `rest` do not continue a compound statement at level `lv`. -/
def NoCont (lv : Nat) : List (Nat × Line L) → Prop
  | [] => True
  | (k, l) :: _ => k < lv ∨ (k = lv ∧ ((∃ s, l = .simple s) ∨ ∃ h, l = .opens h))

theorem Stop.noCont {lv : Nat} : ∀ {r : List (Nat × Line L)}, Stop lv r → NoCont lv r
  | [], _ => trivial
  | (_, _) :: _, h => Or.inl h

/-- What the first line of a rendered block is. -/
theorem render_head (lv : Nat) : ∀ (b : PBlock L), b ≠ .nil → ∃ l rest, render lv b = (lv, l) :: rest ∧
    ((∃ s, l = .simple s) ∨ ∃ h, l = .opens h)
  | .nil, h => absurd rfl h
  | .cons (.simple s) b, _ => ⟨.simple s, render lv b, by simp [render, renderStmt], Or.inl ⟨s, rfl⟩⟩
  | .cons (.compound h b' t) b, _ =>
    ⟨.opens h, render (lv + 1) b' ++ renderTail lv t ++ render lv b, by simp [render, renderStmt], Or.inr ⟨h, rfl⟩⟩

theorem noCont_render (lv : Nat) (b : PBlock L) {rest : List (Nat × Line L)} (h : Stop lv rest) :
    NoCont lv (render lv b ++ rest) := by
  by_cases hb : b = .nil
  · subst hb; simpa [render] using h.noCont
  · obtain ⟨l, r, e, hl⟩ := render_head lv b hb
    rw [e]; exact Or.inr ⟨rfl, hl⟩

theorem stop_tail (lv : Nat) (t : PTail L) {rest : List (Nat × Line L)} (h : NoCont lv rest) :
    Stop (lv + 1) (renderTail lv t ++ rest) := by
  cases t with
  | nil =>
    simp only [renderTail, List.nil_append]
    cases rest with
    | nil => trivial
    | cons x r => obtain ⟨k, l⟩ := x; simp only [NoCont, Stop] at *; omega
  | cons h b t => simp [renderTail, Stop]
  | notFound t => simp [renderTail, Stop]

mutual
theorem parse_render : ∀ (b : PBlock L) (lv fuel : Nat) (rest : List (Nat × Line L)), b.wf →
    3 * (render lv b).length + 1 ≤ fuel → Stop lv rest → parseBlock fuel lv (render lv b ++ rest) = some (b, rest)
  | .nil, lv, fuel + 1, rest, _, _, hs => by
    cases rest with
    | nil => simp [render, parseBlock]
    | cons x r =>
      obtain ⟨k, l⟩ := x
      simp only [Stop] at hs
      simp [render, parseBlock, hs]
  | .cons (.simple s) b, lv, fuel + 1, rest, hw, hf, hs => by
    simp only [PBlock.wf] at hw
    have ih := parse_render b lv fuel rest hw.2 (by simp [render, renderStmt] at hf ⊢; omega) hs
    simp [render, renderStmt, parseBlock, ih]
  | .cons (.compound h b' t) b, lv, fuel + 1, rest, hw, hf, hs => by
    simp only [PBlock.wf, PStmt.wf] at hw
    obtain ⟨⟨hne, hb', ht, hl⟩, hb⟩ := hw
    simp only [render, renderStmt, List.length_append, List.length_cons] at hf
    have hnc := noCont_render lv b hs
    have i1 := parse_suite b' lv fuel (renderTail lv t ++ (render lv b ++ rest)) hne hb' (by omega) (stop_tail lv t hnc)
    have i2 := parse_tail t lv fuel (render lv b ++ rest) ht (by omega) hnc
    have i3 := parse_render b lv fuel rest hb (by omega) hs
    simp [render, renderStmt, parseBlock, i1, i2, i3, hl]
theorem parse_suite : ∀ (b : PBlock L) (lv fuel : Nat) (rest : List (Nat × Line L)), b ≠ .nil → b.wf →
    3 * (render (lv + 1) b).length + 2 ≤ fuel → Stop (lv + 1) rest →
    parseSuite fuel lv (render (lv + 1) b ++ rest) = some (b, rest)
  | .nil, _, _, _, h, _, _, _ => absurd rfl h
  | .cons s b, lv, fuel + 1, rest, _, hw, hf, hs => by
    have i := parse_render (.cons s b) (lv + 1) fuel rest hw (by omega) hs
    obtain ⟨l, r, e, _⟩ := render_head (lv + 1) (.cons s b) (by simp)
    rw [e] at i ⊢
    simpa [parseSuite] using i
theorem parse_tail : ∀ (t : PTail L) (lv fuel : Nat) (rest : List (Nat × Line L)), t.wf →
    3 * (renderTail lv t).length + 1 ≤ fuel → NoCont lv rest → parseTail fuel lv (renderTail lv t ++ rest) = some (t, rest)
  | .nil, lv, fuel + 1, rest, _, _, hs => by
    cases rest with
    | nil => simp [renderTail, parseTail]
    | cons x r =>
      obtain ⟨k, l⟩ := x
      simp only [NoCont] at hs
      simp only [renderTail, List.nil_append, parseTail]
      by_cases hk : k = lv
      · rw [if_pos hk]
        rcases hs with hs | ⟨_, ⟨s, rfl⟩ | ⟨h, rfl⟩⟩
        · omega
        · rfl
        · rfl
      · rw [if_neg hk]
  | .cons h b t, lv, fuel + 1, rest, hw, hf, hs => by
    simp only [PTail.wf] at hw
    simp only [renderTail, List.length_append, List.length_cons] at hf
    have i1 := parse_suite b lv fuel (renderTail lv t ++ rest) hw.1 hw.2.1 (by omega) (stop_tail lv t hs)
    have i2 := parse_tail t lv fuel rest hw.2.2 (by omega) hs
    simp [renderTail, parseTail, i1, i2]
  | .notFound t, lv, fuel + 1, rest, hw, hf, hs => by
    simp only [PTail.wf] at hw
    simp only [renderTail, List.length_cons] at hf
    have i2 := parse_tail t lv fuel rest hw (by omega) hs
    simp [renderTail, parseTail, i2]
end

theorem parseMethod_render (lv : Nat) (b : PBlock L) (hw : b.wf) : parseMethod lv (render lv b) = some b := by
  have := parse_render b lv (3 * (render lv b).length + 1) [] hw (Nat.le_refl _) trivial
  rw [List.append_nil] at this
  simp [parseMethod, this]

/-! ### The blocks of a grammatical template -/

theorem PBlock.wf_append : ∀ (a b : PBlock L), a.wf → b.wf → (a ++ b).wf
  | .nil, b, _, hb => hb
  | .cons s a, b, ha, hb => by
    simp only [PBlock.wf] at ha
    exact ⟨ha.1, PBlock.wf_append a b ha.2 hb⟩

theorem simples_wf : ∀ (ss : List (Simple L)), (simples ss).wf
  | [] => trivial
  | _ :: ss => ⟨trivial, simples_wf ss⟩

theorem flush_wf (st : Settings) (p : Str) : (flush st p : PBlock L).wf := by
  unfold flush; split
  · trivial
  · exact simples_wf _

theorem append_ne_left {a b : PBlock L} (h : a ≠ .nil) : a ++ b ≠ .nil := by
  cases a with
  | nil => exact absurd rfl h
  | cons => simp

theorem append_ne_right {a b : PBlock L} (h : b ≠ .nil) : a ++ b ≠ .nil := by
  cases a with
  | nil => simpa using h
  | cons => simp

theorem simples_ne {ss : List (Simple L)} (h : ss ≠ []) : simples ss ≠ .nil := by
  cases ss <;> simp_all [simples]

theorem flush_ne (st : Settings) {p : Str} (h : p ≠ []) : (flush st p : PBlock L) ≠ .nil := by
  simp [flush, h, simples]

/-- Pending text is either still pending afterwards or has become code. -/
theorem comp_keeps (st : Settings) : ∀ (t : T L) (p : Str) (r : Nat), p ≠ [] →
    (comp st t p r).1 ≠ .nil ∨ (comp st t p r).2.1 ≠ []
  | .skip, p, r, h => Or.inr h
  | .seq a b, p, r, h => by
    simp only [comp]
    rcases comp_keeps st a p r h with h1 | h1
    · exact Or.inl (append_ne_left h1)
    · rcases comp_keeps st b _ (comp st a p r).2.2 h1 with h2 | h2
      · exact Or.inl (append_ne_right h2)
      · exact Or.inr h2
  | .text s, p, r, h => by right; simp [comp, h]
  | .place e s, p, r, h => by
    left; cases s <;> exact append_ne_left (flush_ne st h)
  | .ternary .., p, r, h => Or.inl (append_ne_left (flush_ne st h))
  | .stmt .., p, r, h => Or.inl (append_ne_left (flush_ne st h))
  | .note, p, r, h => Or.inl (flush_ne st h)
  | .break_, p, r, h => Or.inl (append_ne_left (flush_ne st h))
  | .continue_, p, r, h => Or.inl (append_ne_left (flush_ne st h))
  | .stop, p, r, h => Or.inl (append_ne_left (flush_ne st h))
  | .compound .., p, r, h => Or.inl (append_ne_left (flush_ne st h))
  | .capture .., p, r, h => Or.inl (append_ne_left (append_ne_left (append_ne_left (append_ne_left (flush_ne st h)))))
  | .call .., p, r, h => Or.inl (append_ne_left (append_ne_left (append_ne_left (append_ne_left (flush_ne st h)))))
  | .callKw .., p, r, h => by
    left; exact append_ne_left (append_ne_left (append_ne_left (append_ne_left (append_ne_left (append_ne_left (flush_ne st h))))))
  | .filter .., p, r, h => Or.inl (append_ne_left (append_ne_left (append_ne_left (append_ne_left (flush_ne st h)))))
  | .cache .., p, r, h => Or.inl (append_ne_left (append_ne_left (flush_ne st h)))

theorem comp_emits (st : Settings) : ∀ (t : T L) (p : Str) (r : Nat), t.emits = true →
    (comp st t p r).1 ≠ .nil ∨ (comp st t p r).2.1 ≠ []
  | .skip, _, _, h => by simp [T.emits] at h
  | .seq a b, p, r, h => by
    simp only [T.emits, Bool.or_eq_true] at h
    simp only [comp]
    rcases h with h | h
    · rcases comp_emits st a p r h with h1 | h1
      · exact Or.inl (append_ne_left h1)
      · rcases comp_keeps st b _ (comp st a p r).2.2 h1 with h2 | h2
        · exact Or.inl (append_ne_right h2)
        · exact Or.inr h2
    · rcases comp_emits st b (comp st a p r).2.1 (comp st a p r).2.2 h with h2 | h2
      · exact Or.inl (append_ne_right h2)
      · exact Or.inr h2
  | .text s, p, r, h => by right; simp [T.emits, comp] at h ⊢; simp [h]
  | .place e s, p, r, _ => by
    left; cases s
    · exact append_ne_right (simples_ne (filteredLines_ne _ _))
    · exact append_ne_right (by simp)
  | .ternary .., p, r, _ => Or.inl (append_ne_right (by simp))
  | .stmt .., p, r, _ => Or.inl (append_ne_right (by simp [simples]))
  | .note, p, r, h => by simp [T.emits] at h
  | .break_, p, r, _ => Or.inl (append_ne_right (by simp [simples]))
  | .continue_, p, r, _ => Or.inl (append_ne_right (by simp [simples]))
  | .stop, p, r, _ => Or.inl (append_ne_right (by simp [simples]))
  | .compound .., p, r, _ => Or.inl (append_ne_right (by simp))
  | .capture .., p, r, _ => Or.inl (append_ne_right (by simp [simples, endCapture]))
  | .call .., p, r, _ => Or.inl (append_ne_right (by simp [simples, endCall, resetCall]))
  | .callKw .., p, r, _ => by
    left; exact append_ne_left (append_ne_left (append_ne_right (by simp [simples])))
  | .filter .., p, r, _ => Or.inl (append_ne_right (by simp [simples]))
  | .cache .., p, r, _ => Or.inl (append_ne_right (by simp))

theorem suite_ne (st : Settings) (t : T L) (r : Nat) (h : t.emits = true) :
    (comp st t [] r).1 ++ flush st (comp st t [] r).2.1 ≠ .nil := by
  rcases comp_emits st t [] r h with h1 | h1
  · exact append_ne_left h1
  · exact append_ne_right (flush_ne st h1)

theorem legalFor_comp (st : Settings) (o : Open L) (r0 : Nat) : ∀ (t : Tail L) (stage r : Nat),
    t.legalFor o stage = true → (compTail st t r).1.legalFor (openHdr o r0).1 stage = true
  | .nil, _, _, _ => by simp [compTail, PTail.legalFor]
  | .cons k b t, stage, r, h => by
    have ih := fun s h => legalFor_comp st o r0 t s (comp st b [] r).2.2 h
    cases o <;> cases k <;>
      simp_all [Tail.legalFor, PTail.legalFor, compTail, contHdr, openHdr]

theorem legal_comp (st : Settings) (o : Open L) (r0 r : Nat) (t : Tail L) (h : t.legal o = true) :
    (compTail st t r).1.legal (openHdr o r0).1 = true := by
  simp only [Tail.legal, PTail.legal, Bool.and_eq_true] at h ⊢
  refine ⟨legalFor_comp st o r0 t 0 r h.1, ?_⟩
  cases o <;> simp only [openHdr]
  cases t with
  | nil => simp [Tail.startsTry] at h
  | cons k b t => cases k <;> simp_all [Tail.startsTry, PTail.startsTry, compTail, contHdr]

mutual
theorem comp_wf (st : Settings) : ∀ (t : T L) (p : Str) (r : Nat), t.ok = true → (comp st t p r).1.wf
  | .skip, _, _, _ => trivial
  | .seq a b, p, r, h => by
    simp only [T.ok, Bool.and_eq_true] at h
    exact PBlock.wf_append _ _ (comp_wf st a _ _ h.1) (comp_wf st b _ _ h.2)
  | .text _, _, _, _ => trivial
  | .place e false, p, r, _ => PBlock.wf_append _ _ (flush_wf _ _) (simples_wf _)
  | .place e true, p, r, _ =>
    PBlock.wf_append _ _ (flush_wf _ _) ⟨⟨simples_ne (filteredLines_ne _ _), simples_wf _, trivial, rfl⟩, trivial⟩
  | .ternary c a b, p, r, _ =>
    PBlock.wf_append _ _ (flush_wf _ _) ⟨⟨simples_ne (filteredLines_ne _ _), simples_wf _,
      ⟨simples_ne (filteredLines_ne _ _), simples_wf _, trivial⟩, rfl⟩, trivial⟩
  | .stmt _, p, r, _ => PBlock.wf_append _ _ (flush_wf _ _) (simples_wf _)
  | .note, p, r, _ => flush_wf _ _
  | .break_, p, r, _ => PBlock.wf_append _ _ (flush_wf _ _) (simples_wf _)
  | .continue_, p, r, _ => PBlock.wf_append _ _ (flush_wf _ _) (simples_wf _)
  | .stop, p, r, _ => PBlock.wf_append _ _ (flush_wf _ _) (simples_wf _)
  | .compound s o body tail, p, r, h => by
    simp only [T.ok, Bool.and_eq_true] at h
    obtain ⟨⟨⟨h1, h2⟩, h3⟩, h4⟩ := h
    exact PBlock.wf_append _ _ (flush_wf _ _) ⟨⟨suite_ne st body _ h1, PBlock.wf_append _ _ (comp_wf st body _ _ h2) (flush_wf _ _),
      compTail_wf st tail _ h3, legal_comp st o r _ tail h4⟩, trivial⟩
  | .capture id x body, p, r, h => by
    simp only [T.ok] at h
    exact PBlock.wf_append _ _ (PBlock.wf_append _ _ (PBlock.wf_append _ _ (PBlock.wf_append _ _ (flush_wf _ _) (simples_wf _))
      (comp_wf st body _ _ h)) (flush_wf _ _)) (simples_wf _)
  | .call id x body, p, r, h => by
    simp only [T.ok] at h
    exact PBlock.wf_append _ _ (PBlock.wf_append _ _ (PBlock.wf_append _ _ (PBlock.wf_append _ _ (flush_wf _ _) (simples_wf _))
      (comp_wf st body _ _ h)) (flush_wf _ _)) (simples_wf _)
  | .callKw id f pre name body more, p, r, h => by
    simp only [T.ok, Bool.and_eq_true] at h
    obtain ⟨⟨h1, h2⟩, h3⟩ := h
    exact PBlock.wf_append _ _ (PBlock.wf_append _ _ (PBlock.wf_append _ _ (PBlock.wf_append _ _ (PBlock.wf_append _ _ (PBlock.wf_append _ _
      (flush_wf _ _) (simples_wf _)) (comp_wf st pre _ _ h1)) (flush_wf _ _)) (simples_wf _)) (comp_wf st body _ _ h2))
      (compArgs_wf st id f name more _ _ h3)
  | .filter id f body, p, r, h => by
    simp only [T.ok] at h
    exact PBlock.wf_append _ _ (PBlock.wf_append _ _ (PBlock.wf_append _ _ (PBlock.wf_append _ _ (flush_wf _ _) (simples_wf _))
      (comp_wf st body _ _ h)) (flush_wf _ _)) (simples_wf _)
  | .cache id timed body, p, r, h => by
    simp only [T.ok] at h
    exact PBlock.wf_append _ _ (PBlock.wf_append _ _ (flush_wf _ _) (simples_wf _))
      ⟨⟨append_ne_right (by simp [simples, endCacheBody]),
        PBlock.wf_append _ _ (PBlock.wf_append _ _ (PBlock.wf_append _ _ (simples_wf _) (comp_wf st body _ _ h)) (flush_wf _ _)) (simples_wf _),
        trivial, rfl⟩, trivial⟩
theorem compTail_wf (st : Settings) : ∀ (t : Tail L) (r : Nat), t.ok = true → (compTail st t r).1.wf
  | .nil, _, _ => trivial
  | .cons k body t, r, h => by
    simp only [Tail.ok, Bool.and_eq_true] at h
    exact ⟨suite_ne st body _ h.1.1, PBlock.wf_append _ _ (comp_wf st body _ _ h.1.2) (flush_wf _ _), compTail_wf st t _ h.2⟩
theorem compArgs_wf (st : Settings) (id : Nat) (f : L.Fn) (name : Str) : ∀ (t : Args L) (p : Str) (r : Nat), t.ok = true →
    (compArgs st id f name t p r).1.wf
  | .nil, _, _, _ => PBlock.wf_append _ _ (flush_wf _ _) (simples_wf _)
  | .cons n body more, p, r, h => by
    simp only [Args.ok, Bool.and_eq_true] at h
    exact PBlock.wf_append _ _ (PBlock.wf_append _ _ (PBlock.wf_append _ _ (flush_wf _ _) (simples_wf _)) (comp_wf st body _ _ h.1))
      (compArgs_wf st id f n more _ _ h.2)
end

theorem Nest.nil_append (a : Nest) : Nest.nil ++ a = a := rfl
theorem Nest.append_nil (a : Nest) : a ++ Nest.nil = a := by
  induction a with
  | nil => rfl
  | block k i r _ ih => exact congrArg (Nest.block k i) ih
theorem Nest.append_assoc (a b c : Nest) : a ++ b ++ c = a ++ (b ++ c) := by
  induction a with
  | nil => rfl
  | block k i r _ ih => exact congrArg (Nest.block k i) ih

theorem nest_append : ∀ (a b : PBlock L), (a ++ b).nest = a.nest ++ b.nest
  | .nil, b => rfl
  | .cons s a, b => by
    simp only [PBlock.cons_append, PBlock.nest, nest_append a b, Nest.append_assoc]

theorem nest_simples : ∀ (ss : List (Simple L)), (simples ss).nest = .nil
  | [] => rfl
  | _ :: ss => by simp only [simples, PBlock.nest, PStmt.nest, nest_simples ss]; rfl

theorem nest_flush (st : Settings) (p : Str) : (flush st p : PBlock L).nest = .nil := by
  unfold flush; split
  · rfl
  · exact nest_simples _

theorem openHdr_tag (o : Open L) (r : Nat) : (openHdr o r).1.tag = o.tag := by cases o <;> rfl
theorem contHdr_tag (k : Cont L) : (contHdr k).tag = k.tag := by cases k <;> rfl

mutual
theorem comp_nest (st : Settings) : ∀ (t : T L) (p : Str) (r : Nat), (comp st t p r).1.nest = t.nest
  | .skip, _, _ => rfl
  | .seq a b, p, r => by simp only [comp, nest_append, comp_nest st a, comp_nest st b, T.nest]
  | .text _, _, _ => rfl
  | .place e false, p, r => by simp only [comp, Bool.false_eq_true, if_false, nest_append, nest_flush, nest_simples, T.nest]; rfl
  | .place e true, p, r => by simp only [comp, if_true, nest_append, nest_flush, nest_simples, T.nest, PBlock.nest, PStmt.nest, PTail.nest]; rfl
  | .ternary c a b, p, r => by simp only [comp, nest_append, nest_flush, nest_simples, T.nest, PBlock.nest, PStmt.nest, PTail.nest]; rfl
  | .stmt _, p, r => by simp only [comp, nest_append, nest_flush, nest_simples, T.nest]; rfl
  | .note, p, r => by simp only [comp, nest_flush, T.nest]
  | .break_, p, r => by simp only [comp, nest_append, nest_flush, nest_simples, T.nest]; rfl
  | .continue_, p, r => by simp only [comp, nest_append, nest_flush, nest_simples, T.nest]; rfl
  | .stop, p, r => by simp only [comp, nest_append, nest_flush, nest_simples, T.nest]; rfl
  | .compound s o body tail, p, r => by
    simp only [comp, nest_append, nest_flush, T.nest, PBlock.nest, PStmt.nest, openHdr_tag, comp_nest st body,
      compTail_nest st tail, Nest.append_nil, Nest.nil_append]
  | .capture id x body, p, r => by
    simp only [comp, nest_append, nest_flush, nest_simples, T.nest, comp_nest st body, Nest.append_nil, Nest.nil_append]
  | .call id x body, p, r => by
    simp only [comp, nest_append, nest_flush, nest_simples, T.nest, comp_nest st body, Nest.append_nil, Nest.nil_append]
  | .callKw id f pre name body more, p, r => by
    simp only [comp, nest_append, nest_flush, nest_simples, T.nest, comp_nest st pre, comp_nest st body, compArgs_nest st id f name more,
      Nest.append_nil, Nest.nil_append]
  | .filter id f body, p, r => by
    simp only [comp, nest_append, nest_flush, nest_simples, T.nest, comp_nest st body, Nest.append_nil, Nest.nil_append]
  | .cache id timed body, p, r => by
    simp only [comp, nest_append, nest_flush, nest_simples, T.nest, comp_nest st body, Nest.append_nil, Nest.nil_append,
      PBlock.nest, PStmt.nest, PTail.nest, OpenHdr.tag]
theorem compTail_nest (st : Settings) : ∀ (t : Tail L) (r : Nat), (compTail st t r).1.nest = t.nest
  | .nil, _ => rfl
  | .cons k body t, r => by
    simp only [compTail, nest_append, nest_flush, Tail.nest, PTail.nest, contHdr_tag, comp_nest st body,
      compTail_nest st t, Nest.append_nil]
theorem compArgs_nest (st : Settings) (id : Nat) (f : L.Fn) (name : Str) : ∀ (t : Args L) (p : Str) (r : Nat),
    (compArgs st id f name t p r).1.nest = t.nest
  | .nil, _, _ => by simp only [compArgs, nest_append, nest_flush, nest_simples, Args.nest]; rfl
  | .cons n body more, p, r => by
    simp only [compArgs, nest_append, nest_flush, nest_simples, Args.nest, comp_nest st body, compArgs_nest st id f n more,
      Nest.append_nil, Nest.nil_append]
end

/-! ### C26 -/

/-- C26, for every template: the compiler never runs into the dedent error and the
lines are those of some block, each statement one level deeper than its header, the first at the
method's level. -/
theorem C26_indentation_balanced (st : Settings) (lev : Nat) (t : T L) :
    ∃ b : PBlock L, methodLines st lev t = some (render lev b) ∧ b.nest = t.nest := by
  refine ⟨_, methodLines_eq st lev t, ?_⟩
  simp only [compMethod, nest_append, nest_flush, nest_simples, comp_nest, Nest.append_nil]

/-- C26, for every grammatical template: Python reads the lines back as a block with the nesting
of the template, and the lines are exactly the lines of that block. -/
theorem C26_reparses_to_same_nesting (st : Settings) (lev : Nat) (t : T L) (h : t.ok = true) :
    ∃ lines b, methodLines st lev t = some lines ∧ parseMethod lev lines = some b ∧
      lines = render lev b ∧ b.nest = t.nest := by
  refine ⟨_, _, methodLines_eq st lev t, parseMethod_render lev _ ?_, rfl, ?_⟩
  · exact PBlock.wf_append _ _ (PBlock.wf_append _ _ (comp_wf st t _ _ h) (flush_wf _ _)) (simples_wf _)
  · simp only [compMethod, nest_append, nest_flush, nest_simples, comp_nest, Nest.append_nil]

/-- What is missing from C26: a directive with an empty body (or a body that consists of
comments) yields a header without a block, which Python rejects; whatever the condition. -/
theorem C26_empty_body_counterexample (st : Settings) (lev : Nat) (c : L.E) (short : Bool) :
    ∃ lines, methodLines st lev (T.compound short (.if_ c) .skip .nil : T L) = some lines ∧
      parseMethod lev lines = none := by
  refine ⟨_, methodLines_eq st lev _, ?_⟩
  simp [compMethod, comp, compTail, openHdr, render, renderStmt, renderTail, simples, parseMethod, parseBlock,
    parseSuite]

/-- A template with nested directives, regions and both forms meets the hypothesis of
`C26_reparses_to_same_nesting`. -/
example (c : L.E) (x : L.Tgt) (m : L.M) :
    (T.seq (.compound false (.for_ x c) (.seq (.text c!"a") (.compound true (.if_ c) (.text c!"b") (.cons .else_ (.text c!"c") .nil))) .nil)
      (.compound false .try_ (.cache 1 true (.place c true)) (.cons (.except_ m) .break_ .nil)) : T L).ok = true := by
  rfl

end Cheetah.Compile
