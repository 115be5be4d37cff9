import Verif.ParserHigh
import Verif.Props.ParserExpr
import Verif.Props.SourceReader
/-
Lemmas about the single steps of the parser: progress, and the commands they give.
-/
namespace Cheetah.Parser

/-! ### Specification: how commands nest -/

/-- The command that ends what a command opened. -/
inductive Closes : Cmd → Cmd → Prop
  | indenting (n e : Str) : Closes (.indenting n e) .dedent
  | reindenting (n e : Str) : Closes (.reindenting n e false) .dedent
  | closure (n : Str) (as : List (Str × Option Str)) : Closes (.addClosure n as) .dedent
  | def_ (n : Str) (as : List (Str × Option Str)) : Closes (.startMethod n as) .closeDef
  | block (n : Str) (as : List (Str × Option Str)) : Closes (.startMethod n as) .closeBlock
  | call (f as : Str) : Closes (.startCall f as) .endCall
  | capture (e : Str) : Closes (.startCapture e) .endCapture
  | cache (as : List (Str × Option Str)) : Closes (.startCache as) .endCache
  | filter (f : Str) (k : Bool) : Closes (.setFilter f k) .closeFilter

/-- A command that neither opens nor closes anything. -/
def Neutral (c : Cmd) : Prop := (∀ d, ¬ Closes c d) ∧ ∀ o, ¬ Closes o c

/-- Properly nested commands. -/
inductive Nested : List Cmd → Prop
  | nil : Nested []
  | plain (c : Cmd) (cs : List Cmd) : Neutral c → Nested cs → Nested (c :: cs)
  | block (o c : Cmd) (body rest : List Cmd) : Closes o c → Nested body → Nested rest → Nested (o :: body ++ c :: rest)

/-- The character at `i` comes after a colon on the same line. -/
def AfterColon (src : Str) (i : Nat) : Prop :=
  ∃ k, k < i ∧ src[k]? = some ':' ∧ ∀ j, k < j → j ≤ i → src[j]? ≠ some '\r' ∧ src[j]? ≠ some '\n'

/-! ### Results without the model's own error -/

/-- A result is good; an error is one of the program. -/
def NF {α : Type} (good : α → Prop) : Except Err α → Prop
  | .ok a => good a
  | .error e => e ≠ .fuel

theorem NF.bind {α β : Type} {good : α → Prop} {good' : β → Prop} {r : Except Err α} {f : α → Except Err β}
    (h : NF good r) (hf : ∀ a, good a → NF good' (f a)) : NF good' (r >>= f) := by
  cases r with
  | ok a => exact hf a h
  | error e => exact h

theorem NF.map {α β : Type} {good : α → Prop} {good' : β → Prop} {r : Except Err α} {f : α → β}
    (h : NF good r) (hf : ∀ a, good a → good' (f a)) : NF good' (r.map f) := by
  cases r with
  | ok a => exact hf a h
  | error e => exact h

theorem NF.mono {α : Type} {good good' : α → Prop} {r : Except Err α} (h : NF good r) (hf : ∀ a, good a → good' a) : NF good' r := by
  cases r with
  | ok a => exact hf a h
  | error e => exact h

theorem NF.ite {α : Type} {good : α → Prop} {c : Prop} [Decidable c] {r s : Except Err α} (hr : c → NF good r) (hs : ¬ c → NF good s) :
    NF good (if c then r else s) := by
  split
  · exact hr (by assumption)
  · exact hs (by assumption)

theorem NF.of_ok {α : Type} {good : α → Prop} {r : Except Err α} {a : α} (h : NF good r) (hr : r = .ok a) : good a := by
  subst hr; exact h

theorem Res.nf {α : Type} {x : Px} {good : α → Prop} {B n : Nat} {r : Except Err α} (h : Res x good B n r) (hn : B ≤ n) : NF good r := by
  cases r with
  | ok a => exact h
  | error e =>
    rintro rfl
    have := h.2 rfl
    omega

/-! ### Positions -/

/-- What is assumed of the settings and of the tokenizer (as in `Good`): the tokens that start a tag are not empty. -/
structure Good' (x : Px) : Prop extends Good x where
  com_ne : x.cfg.com ≠ []
  ml_ne : x.cfg.mlStart ≠ []
  dir_ne : x.cfg.dir ≠ []
  psp_ne : x.cfg.psp ≠ []

section
variable {x : Px}

theorem eol_le {p : Nat} (h : p ≤ x.src.length) : p ≤ x.eol p ∧ x.eol p ≤ x.eolGobble p ∧ x.eolGobble p ≤ x.src.length :=
  Reader.eolSearch_bounds x.src p h

theorem eolScan_line' (s : Str) : (∀ j, j < (Reader.eolScan s).1 → s[j]? ≠ some '\r' ∧ s[j]? ≠ some '\n') ∧
    ∀ j, (Reader.eolScan s).1 ≤ j → j < (Reader.eolScan s).1 + (Reader.eolScan s).2 → s[j]? = some '\r' ∨ s[j]? = some '\n' := by
  fun_induction Reader.eolScan s with
  | case1 => simp
  | case2 r =>
    refine ⟨by simp, ?_⟩
    intro j _ h2
    have : j = 0 ∨ j = 1 := by simp at h2; omega
    rcases this with rfl | rfl <;> simp
  | case3 c cs _ h =>
    refine ⟨by simp, ?_⟩
    intro j _ h2
    have : j = 0 := by simp at h2; omega
    subst this
    simpa using h
  | case4 c cs _ h ih =>
    obtain ⟨ih1, ih2⟩ := ih
    refine ⟨?_, ?_⟩
    · intro j hj
      cases j with
      | zero => simp only [List.getElem?_cons_zero, ne_eq, Option.some.injEq]; tauto
      | succ j => simpa using ih1 j (by simp at hj; omega)
    · intro j h1 h2
      cases j with
      | zero => simp at h1
      | succ j => simpa using ih2 j (by simp at h1; omega) (by simp at h2; omega)

theorem eol_line {p j : Nat} (hp : p ≤ x.src.length) (h1 : p ≤ j) (h2 : j < x.eol p) : x.src[j]? ≠ some '\r' ∧ x.src[j]? ≠ some '\n' := by
  have := (eolScan_line' (x.src.drop p)).1 (j - p) (by simp only [Cx.eol, Reader.eolSearch, Nat.min_eq_left hp] at h2; omega)
  rw [List.getElem?_drop, Nat.add_sub_cancel' h1] at this
  exact this

theorem eol_term {p j : Nat} (hp : p ≤ x.src.length) (h1 : x.eol p ≤ j) (h2 : j < x.eolGobble p) : x.src[j]? = some '\r' ∨ x.src[j]? = some '\n' := by
  simp only [Cx.eol, Cx.eolGobble, Reader.eolSearch, Nat.min_eq_left hp] at h1 h2
  have := (eolScan_line' (x.src.drop p)).2 (j - p) (by omega) (by omega)
  rw [List.getElem?_drop, Nat.add_sub_cancel' (by omega)] at this
  exact this

theorem eolGobble_lt {p : Nat} (h : p < x.src.length) : p < x.eolGobble p := by
  have := Reader.eolScan_pos (s := x.src.drop p) (by intro h'; simp at h'; omega)
  simp only [Cx.eolGobble, Reader.eolSearch, Nat.min_eq_left (Nat.le_of_lt h)]
  omega

theorem skip_le (p : Nat) : p ≤ x.skip p := by unfold Cx.skip; omega

theorem skip_bp {p : Nat} (h : p ≤ x.bp) : x.skip p ≤ x.bp := Cx.ws_le h

theorem skip1_le (p : Nat) : p ≤ x.skip1 p := by unfold Cx.skip1; split <;> omega

theorem skip1_bp {p : Nat} (h : p ≤ x.bp) : x.skip1 p ≤ x.bp := by
  unfold Cx.skip1
  split
  · rename_i h1
    rcases Nat.lt_or_ge p x.bp with h2 | h2
    · omega
    · have : x.slice p x.bp = [] := by
        unfold Cx.slice
        apply List.drop_eq_nil_of_le
        simp; omega
      rw [this] at h1; cases h1
  · exact h

theorem skip1_or (p : Nat) : x.skip1 p = p ∨ (x.skip1 p = p + 1 ∧ ∀ c, x.src[p]? = some c → isWs c = true) := by
  unfold Cx.skip1
  split
  · rename_i h
    refine .inr ⟨rfl, fun c hc => ?_⟩
    have : (x.slice p x.bp).head? = some c := by
      unfold Cx.slice at h ⊢
      cases hd : (x.src.take x.bp).drop p with
      | nil => rw [hd] at h; cases h
      | cons d ds =>
        have h2 : ((x.src.take x.bp).drop p)[0]? = some d := by rw [hd]; rfl
        rw [List.getElem?_drop, Nat.add_zero, List.getElem?_take] at h2
        split at h2
        · rw [hc] at h2; simpa using h2.symm
        · cases h2
    cases hs : x.slice p x.bp with
    | nil => rw [hs] at this; cases this
    | cons d ds =>
      rw [hs] at this h
      simp at this
      subst this
      exact h
  · exact .inl rfl

theorem goto_nf (p : Nat) : NF (fun q => q = p ∧ p ≤ x.bp) (x.goto p) := by
  unfold Cx.goto
  split
  · exact ⟨rfl, by assumption⟩
  · simp [NF]

theorem peek!_nf (p : Nat) : NF (fun _ => True) (x.peek! p) := by
  unfold Cx.peek!
  split
  · simp [NF]
  · split <;> simp [NF]

theorem stripPrefix?_length {a s r : Str} (h : stripPrefix? a s = some r) : s.length = a.length + r.length := by
  rw [stripPrefix?_eq a s r h]; simp

theorem matchTok_eq {t : Str} {p q : Nat} (h : x.matchTok t p = some q) : q = p + t.length := by
  unfold Cx.matchTok at h
  split at h <;> simp at h
  exact h.symm

theorem matchDirStart_lt (hd : x.cfg.dir ≠ []) {p q : Nat} (h : x.matchDirStart p = some q) : p < q := by
  unfold Cx.matchDirStart at h
  have : 0 < x.cfg.dir.length := List.length_pos_iff.2 hd
  split at h
  · cases hs : stripPrefix? x.cfg.dir (x.rest p) with
    | none => rw [hs] at h; cases h
    | some r =>
      rw [hs] at h
      simp only [Option.ite_none_right_eq_some, Option.some.injEq] at h
      omega
  · cases h

theorem dirStart_nf (hd : x.cfg.dir ≠ []) (p : Nat) : NF (fun q => p < q ∧ q ≤ x.bp) (x.dirStart p) := by
  unfold Px.dirStart
  cases h : x.matchDirStart p with
  | none => simp [NF]
  | some q =>
    have := matchDirStart_lt hd h
    exact (goto_nf q).mono (by rintro r ⟨rfl, hr⟩; exact ⟨this, hr⟩)

theorem afterName_nf (hd : x.cfg.dir ≠ []) (name : Str) (p : Nat) : NF (fun q => p < q ∧ q ≤ x.bp) (x.afterName name p) := by
  unfold Px.afterName
  refine (dirStart_nf hd p).bind fun q hq => ?_
  exact (goto_nf _).mono (by rintro r ⟨rfl, hr⟩; exact ⟨by omega, hr⟩)

theorem nameStart_nf (hd : x.cfg.dir ≠ []) (b : Bool) (name : Str) (p : Nat) : NF (fun q => p < q ∧ q ≤ x.bp) (x.nameStart b name p) := by
  unfold Px.nameStart
  exact NF.ite (fun _ => afterName_nf hd name p) (fun _ => dirStart_nf hd p)

theorem peek_lt {p : Nat} {c : Char} (h : x.peek p = some c) : p < x.bp := (Cx.peek_some h).1

theorem colon_nf (p : Nat) : NF (fun b => b = true → x.peek p = some ':' ∧ x.eol p ≤ x.bp) (x.colon p) := by
  unfold Px.colon
  refine NF.ite (fun h => ?_) (fun _ => by simp [NF])
  refine (goto_nf _).bind ?_
  rintro q ⟨rfl, hq⟩
  exact fun _ => ⟨h, hq⟩

theorem skipColon_nf {p : Nat} : NF (fun q => p ≤ q ∧ q ≤ x.bp) (x.skipColon p) := by
  unfold Px.skipColon
  refine (peek!_nf p).bind fun c _ => ?_
  refine (goto_nf _).bind ?_
  rintro q ⟨rfl, hq⟩
  refine ⟨?_, skip_bp hq⟩
  have := skip_le (x := x) (if c = ':' then p + 1 else p)
  have h2 : p ≤ (if c = ':' then p + 1 else p) := by split <;> omega
  exact Nat.le_trans h2 this

theorem readToEOL_nf (g : Bool) {p : Nat} (hb : x.bp ≤ x.src.length) (hp : p ≤ x.bp) :
    NF (fun (_, q) => p ≤ q ∧ q ≤ x.bp ∧ (g = true → p < x.bp → p < q)) (x.readToEOL g p) := by
  unfold Cx.readToEOL
  refine (goto_nf _).bind ?_
  rintro q ⟨rfl, hq⟩
  have := eol_le (x := x) (p := p) (by omega)
  refine ⟨by split <;> omega, hq, ?_⟩
  rintro rfl h
  exact eolGobble_lt (by omega)

theorem Neutral.handleWS : Neutral .handleWS := ⟨fun _ h => (by cases h), fun _ h => (by cases h)⟩
theorem Neutral.comment (s : Str) : Neutral (.comment s) := ⟨fun _ h => (by cases h), fun _ h => (by cases h)⟩
theorem Neutral.commit : Neutral .commit := ⟨fun _ h => (by cases h), fun _ h => (by cases h)⟩

theorem neutral_if {b : Prop} [Decidable b] {c : Cmd} (h : Neutral c) : ∀ d ∈ (if b then [c] else []), Neutral d := by
  intro d hd
  split at hd <;> simp at hd
  subst hd; exact h

theorem eatComment_nf (hb : x.bp ≤ x.src.length) (hc : x.cfg.com ≠ []) (p : Nat) :
    NF (fun (cs, q) => p < q ∧ q ≤ x.bp ∧ ∀ c ∈ cs, Neutral c) (x.eatComment p) := by
  unfold Cx.eatComment
  have hl : 0 < x.cfg.com.length := List.length_pos_iff.2 hc
  simp only
  cases h : x.matchTok x.cfg.com p with
  | none => simp [NF]
  | some q =>
    have := matchTok_eq h
    refine (goto_nf q).bind ?_
    rintro r ⟨rfl, hr⟩
    refine (readToEOL_nf (x := x) _ hb hr).bind ?_
    rintro ⟨s, e⟩ ⟨h1, h2, _⟩
    refine ⟨by omega, h2, ?_⟩
    intro c hc
    rw [List.mem_append] at hc
    rcases hc with hc | hc
    · exact neutral_if .handleWS c hc
    · simp at hc; subst hc; exact .comment _

theorem matchDirective_nf (p : Nat) : NF (fun _ => True) (x.matchDirective p) := by
  unfold Cx.matchDirective
  split
  · trivial
  · exact (goto_nf _).map (fun _ _ => trivial)

theorem tagAt_nf (p : Nat) : NF (fun _ => True) (x.tagAt p) := by
  unfold Cx.tagAt
  refine NF.ite (fun _ => trivial) (fun _ => NF.ite (fun _ => trivial) (fun _ => NF.ite (fun _ => trivial) (fun _ => NF.ite (fun _ => trivial) (fun _ => ?_))))
  refine (matchDirective_nf p).bind fun d _ => ?_
  exact NF.ite (fun _ => trivial) (fun _ => NF.ite (fun _ => trivial) (fun _ => NF.ite (fun _ => trivial) (fun _ => trivial)))

theorem tagComment_nf (hb : x.bp ≤ x.src.length) (hc : x.cfg.com ≠ []) (p : Nat) :
    NF (fun (cs, _, q) => p ≤ q ∧ q ≤ max p x.bp ∧ ∀ c ∈ cs, Neutral c) (x.tagComment p) := by
  unfold Px.tagComment
  split
  · exact ⟨Nat.le_refl p, by omega, by simp⟩
  · refine (goto_nf _).bind ?_
    rintro q ⟨rfl, hq⟩
    refine (matchDirective_nf _).bind fun d _ => ?_
    refine NF.ite (fun _ => ⟨Nat.le_refl p, by omega, by simp⟩) (fun _ => ?_)
    refine (eatComment_nf hb hc p).bind ?_
    rintro ⟨cs, r⟩ ⟨h1, h2, h3⟩
    exact ⟨by omega, by omega, h3⟩

theorem tagEnd_nf (hb : x.bp ≤ x.src.length) (clear com : Bool) (p : Nat) :
    NF (fun q => p ≤ q ∧ q ≤ max p x.bp) (x.tagEnd clear com p) := by
  unfold Px.tagEnd
  cases h : (if com = true then none else x.matchTok x.cfg.dirEnd p) with
  | some q =>
    simp only
    have : q = p + x.cfg.dirEnd.length := by
      split at h
      · cases h
      · exact matchTok_eq h
    exact (goto_nf q).mono (by rintro r ⟨rfl, hr⟩; exact ⟨by omega, by omega⟩)
  | none =>
    simp only
    refine NF.ite (fun h2 => ?_) (fun _ => ⟨Nat.le_refl _, by omega⟩)
    have hp : p < x.bp := by
      rcases h2.2 with h3 | h3 <;> exact peek_lt h3
    have := eol_le (x := x) (p := p) (by omega)
    exact (goto_nf _).mono (by rintro r ⟨rfl, hr⟩; exact ⟨by omega, by omega⟩)

theorem restTag_nf (hb : x.bp ≤ x.src.length) (hc : x.cfg.com ≠ []) (clear : Bool) (eol p : Nat) :
    NF (fun (cs, q) => p ≤ q ∧ q ≤ max p x.bp ∧ ∀ c ∈ cs, Neutral c) (x.restTag clear eol p) := by
  unfold Px.restTag
  refine (tagComment_nf hb hc p).bind ?_
  rintro ⟨cs, com, q⟩ ⟨h1, h2, h3⟩
  refine (tagEnd_nf hb clear com q).bind ?_
  rintro r ⟨h4, h5⟩
  refine ⟨by omega, by omega, ?_⟩
  intro c hc
  rw [List.mem_append] at hc
  rcases hc with hc | hc
  · exact h3 c hc
  · exact neutral_if .handleWS c hc

theorem expression_nf (hg : Good x) (st : GenVar.Settings) (en : Bool) (brk : List Str) {p : Nat} (hp : p ≤ x.bp) :
    NF (fun (_, q) => p ≤ q ∧ q ≤ x.bp) (x.expression st en brk [] p) :=
  ((Px.expression_res hg st en brk [] p hp trivial).nf (Nat.le_refl _)).mono (by rintro ⟨e, q⟩ ⟨h1, h2, _⟩; exact ⟨h1, h2⟩)

theorem exprParts_nf (hg : Good x) (st : GenVar.Settings) (en : Bool) (brk : List Str) {p : Nat} (hp : p ≤ x.bp) :
    NF (fun (_, q) => p ≤ q ∧ q ≤ x.bp) (x.exprParts (x.fuel p) st en brk [] p) :=
  (((spec hg _).expr st en brk [] p hp trivial).nf (by unfold Px.fuel; omega)).mono (by rintro ⟨e, q⟩ ⟨h1, h2, _⟩; exact ⟨h1, h2⟩)

theorem cheetahVar_nf (hg : Good x) (st : GenVar.Settings) (plain skip : Bool) {p : Nat} (hp : p ≤ x.bp) :
    NF (fun (_, q) => p ≤ q ∧ (skip = false → p < q) ∧ q ≤ x.bp) (x.cheetahVar (x.fuel p) st plain skip p) :=
  (((spec hg _).var st plain skip p hp).nf (by unfold Px.fuel; omega)).mono (by rintro ⟨e, q⟩ ⟨h1, h2, h3, _⟩; exact ⟨h1, h2, h3⟩)

theorem identifier_nf (p : Nat) : NF (fun (_, q) => p < q ∧ q ≤ x.bp) (x.identifier p) :=
  ((Px.identifier_res p).nf (Nat.le_refl _)).mono (by rintro ⟨e, q⟩ ⟨h1, h2, _⟩; exact ⟨h1, h2⟩)

theorem varStart_nf (hg : Good x) (p : Nat) : NF (fun q => p < q ∧ q ≤ x.bp) (x.varStart false p) :=
  ((Px.varStart_res hg p).nf (Nat.le_refl _)).mono (by rintro q ⟨h1, h2, _⟩; exact ⟨h1, h2⟩)

theorem skipVar_nf (hg : Good x) {p : Nat} (hp : p ≤ x.bp) : NF (fun q => p ≤ q ∧ q ≤ x.bp) (x.skipVar p) := by
  unfold Px.skipVar
  exact NF.ite (fun _ => (varStart_nf hg p).mono (by rintro q ⟨h1, h2⟩; exact ⟨by omega, h2⟩)) (fun _ => ⟨Nat.le_refl _, hp⟩)

theorem pyTok_nf (p : Nat) : NF (fun (t, q) => p ≤ q ∧ q ≤ x.bp ∧ (p = q → t = [])) (x.pyTok p) := by
  unfold Px.pyTok
  cases h : x.tok (x.rest p) with
  | none => simp [NF]
  | some n =>
    refine (goto_nf _).bind ?_
    rintro q ⟨rfl, hq⟩
    refine ⟨by omega, hq, fun he => ?_⟩
    show x.slice p (p + n) = []
    rw [← he, Cx.slice_self]

theorem assignOp_nf (p : Nat) : NF (fun (_, q) => p < q ∧ q ≤ x.bp) (x.assignOp p) := by
  unfold Px.assignOp
  refine (pyTok_nf p).bind ?_
  rintro ⟨t, q⟩ ⟨h1, h2, h3⟩
  refine NF.ite (fun ht => ⟨?_, h2⟩) (fun _ => by simp [NF])
  rcases Nat.lt_or_ge p q with h | h
  · exact h
  · have : t = [] := h3 (by omega)
    subst this
    exact absurd ht (by decide)

theorem commaLoop_nf : ∀ (n : Nat) (cur : Str) (p : Nat), x.bp - p < n → p ≤ x.bp →
    NF (fun (_, q) => p ≤ q ∧ q ≤ x.bp) (x.commaLoop n cur p) := by
  intro n
  induction n with
  | zero => intros; omega
  | succ n ih =>
    intro cur p hn hp
    unfold Px.commaLoop
    simp only
    cases hc : x.peek p with
    | none => exact ⟨Nat.le_refl _, hp⟩
    | some c =>
      have := peek_lt hc
      simp only
      refine NF.ite (fun _ => ?_) (fun _ => ?_)
      · refine (identifier_nf p).bind ?_
        rintro ⟨i, q⟩ ⟨h1, h2⟩
        exact (ih _ q (by omega) h2).mono (by rintro ⟨_, r⟩ ⟨h3, h4⟩; exact ⟨by omega, h4⟩)
      refine NF.ite (fun _ => ?_) (fun _ => ?_)
      · refine NF.ite (fun _ => ?_) (fun _ => ⟨Nat.le_refl _, hp⟩)
        exact (ih _ (p + 1) (by omega) (by omega)).mono (by rintro ⟨_, r⟩ ⟨h3, h4⟩; exact ⟨by omega, h4⟩)
      refine NF.ite (fun _ => ?_) (fun _ => ?_)
      · refine (ih _ (p + 1) (by omega) (by omega)).bind ?_
        rintro ⟨_, r⟩ ⟨h3, h4⟩
        exact ⟨by omega, h4⟩
      refine NF.ite (fun _ => ?_) (fun _ => ⟨Nat.le_refl _, hp⟩)
      exact (ih _ (p + 1) (by omega) (by omega)).mono (by rintro ⟨_, r⟩ ⟨h3, h4⟩; exact ⟨by omega, h4⟩)

theorem commaSymbols_nf {p : Nat} (hp : p ≤ x.bp) : NF (fun (_, q) => p ≤ q ∧ q ≤ x.bp) (x.commaSymbols p) := by
  unfold Px.commaSymbols
  refine (peek!_nf p).bind fun c _ => ?_
  exact NF.ite (fun _ => commaLoop_nf _ _ _ (by omega) hp) (fun _ => by simp [NF])

theorem defaultToken_nf (hg : Good x) (st : GenVar.Settings) {p : Nat} {c : Char} (hc : x.peek p = some c) :
    NF (fun (_, q) => p < q ∧ q ≤ x.bp) (x.defaultToken st p) := by
  have hp := peek_lt hc
  unfold Px.defaultToken
  refine NF.ite (fun _ => ?_) (fun _ => ?_)
  · exact (cheetahVar_nf hg st false false (by omega)).mono (by rintro ⟨_, q⟩ ⟨_, h2, h3⟩; exact ⟨h2 rfl, h3⟩)
  refine NF.ite (fun _ => by simp [NF]) (fun _ => ?_)
  refine ((Px.pyTok_res hg hc).nf (Nat.le_refl _)).bind ?_
  rintro ⟨t, q⟩ ⟨h1, h2, h3, h4, _⟩
  refine NF.ite (fun ht => ?_) (fun _ => ?_)
  · -- the token is a bracket
    have hq : q = p + 1 ∧ isOpen c = true := by
      obtain ⟨_, hs⟩ := Cx.peek_some hc
      have h5 : t.head? = some c := by
        rw [h3, Cx.slice_append x.toCx (by omega : p ≤ p + 1) (by omega), Cx.slice_one hs]; rfl
      have h6 : isOpen c = true := by
        rcases ht with rfl | rfl | rfl <;> (simp at h5; subst h5; decide)
      exact ⟨h4 (isOpen_bracket h6), h6⟩
    obtain ⟨rfl, ho⟩ := hq
    have := (spec hg (x.fuel p)).opened st true [] p c hc ho
    unfold Px.expression
    rw [Nat.add_sub_cancel]
    refine (this.nf (by unfold Px.fuel; omega)).bind ?_
    rintro ⟨bs, q⟩ ⟨h5, h6, _⟩
    exact ⟨h5, h6⟩
  · refine ((Px.transform_res t q).nf (Nat.le_refl _)).bind fun u _ => ?_
    exact ⟨h1, h2⟩

theorem addDefault_nf (a : ArgList) (t : Str) : NF (fun _ => True) (a.addDefault t) := by
  unfold ArgList.addDefault
  split <;> simp [NF]

theorem defArgs_nf (hg : Good x) : ∀ (n : Nat) (st : GenVar.Settings) (exit : Option Nat) (onDef : Bool) (a : ArgList) (p : Nat),
    x.bp - p < n → p ≤ x.bp → NF (fun (_, q) => p ≤ q ∧ q ≤ x.bp) (x.defArgs n st exit onDef a p) := by
  have hv : 0 < x.cfg.var.length := List.length_pos_iff.2 hg.var_ne
  intro n
  induction n with
  | zero => intros; omega
  | succ n ih =>
    intro st exit onDef a p hn hp
    have ih' : ∀ (onDef : Bool) (a : ArgList) (q : Nat), p < q → q ≤ x.bp → NF (fun (_, r) => p ≤ r ∧ r ≤ x.bp) (x.defArgs n st exit onDef a q) := by
      intro onDef a q h1 h2
      exact (ih st exit onDef a q (by omega) h2).mono (by rintro ⟨_, r⟩ ⟨h3, h4⟩; exact ⟨by omega, h4⟩)
    unfold Px.defArgs
    cases hc : x.peek p with
    | none => simp [NF]
    | some c =>
      have hp2 := peek_lt hc
      simp only
      refine NF.ite (fun _ => ⟨Nat.le_refl _, hp⟩) (fun _ => ?_)
      refine NF.ite (fun _ => ⟨Nat.le_refl _, hp⟩) (fun _ => ?_)
      refine NF.ite (fun _ => ⟨Nat.le_refl _, hp⟩) (fun _ => ?_)
      refine NF.ite (fun _ => ?_) (fun _ => ?_)
      · refine NF.ite (fun _ => ?_) (fun _ => ih' _ _ _ (by omega) (by omega))
        exact (addDefault_nf a _).bind fun a _ => ih' _ _ _ (by omega) (by omega)
      refine NF.ite (fun _ => ih' _ _ _ (by omega) (by omega)) (fun _ => ?_)
      refine NF.ite (fun _ => ih' _ _ _ (by omega) (by omega)) (fun _ => ?_)
      refine NF.ite (fun _ => ?_) (fun _ => ?_)
      · refine (goto_nf _).bind ?_
        rintro q ⟨rfl, hq⟩
        exact ih' _ _ _ (by omega) hq
      refine NF.ite (fun _ => ?_) (fun _ => ?_)
      · refine (identifier_nf p).bind ?_
        rintro ⟨i, q⟩ ⟨h1, h2⟩
        exact ih' _ _ _ h1 h2
      refine NF.ite (fun _ => ?_) (fun _ => ?_)
      · refine (defaultToken_nf hg st hc).bind ?_
        rintro ⟨t, q⟩ ⟨h1, h2⟩
        exact (addDefault_nf a t).bind fun a _ => ih' _ _ _ h1 h2
      refine NF.ite (fun _ => ?_) (fun _ => by simp [NF])
      refine (peek!_nf _).bind fun d _ => ?_
      refine NF.ite (fun _ => ?_) (fun _ => by simp [NF])
      refine (identifier_nf _).bind ?_
      rintro ⟨i, q⟩ ⟨h1, h2⟩
      exact ih' _ _ _ (by omega) h2

theorem defArgList_nf (hg : Good x) (st : GenVar.Settings) (nm : Bool) (p : Nat) :
    NF (fun (_, q) => p ≤ q ∧ q ≤ x.bp) (x.defArgList st nm p) := by
  unfold Px.defArgList
  refine (peek!_nf p).bind fun c _ => ?_
  simp only
  generalize hpp : (if c = '(' then ((none : Option Nat), p + 1) else (some (x.eol p), p)) = pp
  obtain ⟨exit, p1⟩ := pp
  have : p ≤ p1 := by
    split at hpp <;> simp at hpp <;> omega
  simp only
  refine (goto_nf p1).bind ?_
  rintro q ⟨rfl, hq⟩
  refine (defArgs_nf hg _ _ _ _ _ _ (by omega) hq).bind ?_
  rintro ⟨a, r⟩ ⟨h1, h2⟩
  exact ⟨by omega, h2⟩

theorem optArgs_nf (hg : Good x) (st : GenVar.Settings) {p : Nat} (hp : p ≤ x.bp) :
    NF (fun (_, q) => p ≤ q ∧ q ≤ x.bp) (x.optArgs st p) := by
  unfold Px.optArgs
  refine (peek!_nf p).bind fun c _ => ?_
  refine NF.ite (fun _ => ?_) (fun _ => ⟨Nat.le_refl _, hp⟩)
  refine (defArgList_nf hg st false p).bind ?_
  rintro ⟨as, q⟩ ⟨h1, h2⟩
  refine (goto_nf _).bind ?_
  rintro r ⟨rfl, hr⟩
  exact ⟨by omega, hr⟩

theorem optArgs'_nf (hg : Good x) (st : GenVar.Settings) {p : Nat} (hp : p ≤ x.bp) :
    NF (fun (_, q) => p ≤ q ∧ q ≤ x.bp) (x.optArgs' st p) := by
  unfold Px.optArgs'
  exact NF.ite (fun _ => optArgs_nf hg st hp) (fun _ => ⟨Nat.le_refl _, hp⟩)

theorem baseName_nf (hg : Good x) (b : Bool) (st : GenVar.Settings) {p : Nat} (hp : p ≤ x.bp) :
    NF (fun (_, q) => p ≤ q ∧ q ≤ x.bp) (x.baseName b st p) := by
  unfold Px.baseName
  exact NF.ite (fun _ => expression_nf hg st _ _ hp) (fun _ => (commaSymbols_nf hp).map (by rintro ⟨_, q⟩ h; exact h))

theorem setStyle_nf {p : Nat} (hp : p ≤ x.bp) : NF (fun (_, q) => p ≤ q ∧ q ≤ x.bp) (x.setStyle p) := by
  unfold Px.setStyle
  have : ∀ n : Nat, NF (fun (_, q) => p ≤ q ∧ q ≤ x.bp) (x.identifier p >>= fun (_, q) => .ok (n, x.skip q)) := by
    intro n
    refine (identifier_nf p).bind ?_
    rintro ⟨_, q⟩ ⟨h1, h2⟩
    exact ⟨by have := skip_le (x := x) q; omega, skip_bp h2⟩
  exact NF.ite (fun _ => this 0) (fun _ => NF.ite (fun _ => this 1) (fun _ => NF.ite (fun _ => this 2) (fun _ => ⟨Nat.le_refl _, hp⟩)))

theorem includeSource_nf {p : Nat} (hp : p ≤ x.bp) : NF (fun (_, q) => p ≤ q ∧ q ≤ x.bp) (x.includeSource p) := by
  unfold Px.includeSource
  refine NF.ite (fun _ => ?_) (fun _ => ⟨Nat.le_refl _, hp⟩)
  refine (goto_nf _).bind ?_
  rintro q ⟨rfl, hq⟩
  simp only
  refine (peek!_nf _).bind fun c _ => ?_
  refine NF.ite (fun _ => ?_) (fun _ => by simp [NF])
  refine (goto_nf _).bind ?_
  rintro r ⟨rfl, hr⟩
  have := skip_le (x := x) (p + 6)
  exact ⟨by omega, hr⟩

theorem callName_nf (hg : Good x) (st : GenVar.Settings) {p : Nat} (hp : p ≤ x.bp) :
    NF (fun (_, q) => p ≤ q ∧ q ≤ x.bp) (x.callName st p) := by
  unfold Px.callName
  refine NF.ite (fun _ => ?_) (fun _ => ?_) <;>
    exact (cheetahVar_nf hg _ _ _ hp).mono (by rintro ⟨_, q⟩ ⟨h1, _, h2⟩; exact ⟨h1, h2⟩)

theorem filterName_nf (hg : Good x) (st : GenVar.Settings) {p : Nat} (hp : p ≤ x.bp) :
    NF (fun (_, _, q) => p ≤ q ∧ q ≤ x.bp) (x.filterName st p) := by
  unfold Px.filterName
  refine NF.ite (fun _ => ?_) (fun _ => ?_)
  · refine (expression_nf hg st _ _ hp).bind ?_
    rintro ⟨e, q⟩ h
    exact h
  · refine (identifier_nf p).bind ?_
    rintro ⟨e, q⟩ ⟨h1, h2⟩
    exact ⟨by have := skip_le (x := x) q; omega, skip_bp h2⟩

theorem endScan_nf (hg : Good' x) (name : Str) : ∀ (n p : Nat), x.bp - p < n → p ≤ x.bp →
    NF (fun (_, q, _) => p ≤ q ∧ q ≤ x.bp) (x.endScan name n p) := by
  intro n
  induction n with
  | zero => intros; omega
  | succ n ih =>
    intro p hn hp
    unfold Px.endScan
    refine NF.ite (fun _ => ⟨Nat.le_refl _, hp⟩) (fun hp2 => ?_)
    have ih' : ∀ q, p < q → q ≤ x.bp → NF (fun (_, r, _) => p ≤ r ∧ r ≤ x.bp) (x.endScan name n q) := by
      intro q h1 h2
      exact (ih q (by omega) h2).mono (by rintro ⟨_, r, _⟩ ⟨h3, h4⟩; exact ⟨by omega, h4⟩)
    refine NF.ite (fun _ => ?_) (fun _ => ih' _ (by omega) (by omega))
    refine (matchDirective_nf p).bind fun d _ => ?_
    refine NF.ite (fun _ => ?_) (fun _ => ih' _ (by omega) (by omega))
    refine (afterName_nf hg.dir_ne _ p).bind ?_
    rintro q ⟨h1, h2⟩
    simp only
    have := skip_le (x := x) q
    refine NF.ite (fun _ => ?_) (fun _ => ?_)
    · refine (goto_nf _).bind ?_
      rintro r ⟨rfl, hr⟩
      have := skip_le (x := x) (x.skip q + name.length)
      refine ⟨?_, skip_bp hr⟩
      show p ≤ x.skip (x.skip q + name.length)
      omega
    · refine (goto_nf _).bind ?_
      rintro r ⟨rfl, hr⟩
      exact ih' _ (by omega) hr

theorem toEnd_nf (hg : Good' x) (name : Str) {p : Nat} (hp : p ≤ x.bp) :
    NF (fun (_, cs, q) => p ≤ q ∧ q ≤ x.bp ∧ ∀ c ∈ cs, Neutral c) (x.toEnd name p) := by
  unfold Px.toEnd
  refine (endScan_nf hg name _ p (by omega) hp).bind ?_
  rintro ⟨e, q, clear⟩ ⟨h1, h2⟩
  refine (goto_nf _).bind ?_
  rintro e ⟨rfl, _⟩
  refine (goto_nf _).bind ?_
  rintro q ⟨rfl, _⟩
  refine (tagEnd_nf hg.bp clear false q).bind ?_
  rintro r ⟨h3, h4⟩
  exact ⟨by omega, by omega, fun c hc => neutral_if .handleWS c hc⟩

/-! ### Tags that are no directives -/

theorem plainEnd_nf : ∀ (n p : Nat), NF (fun q => p ≤ q ∧ q ≤ p + n) (x.plainEnd n p) := by
  intro n
  induction n with
  | zero => intro p; exact ⟨Nat.le_refl _, Nat.le_refl _⟩
  | succ n ih =>
    intro p
    unfold Cx.plainEnd
    have : NF (fun _ => True) (x.topLevel p) := by
      unfold Cx.topLevel
      split
      · refine NF.ite (fun _ => tagAt_nf p) (fun _ => trivial)
      · trivial
    refine this.bind fun t _ => ?_
    cases t with
    | some t => exact ⟨Nat.le_refl _, by omega⟩
    | none => exact (ih (p + 1)).mono (by rintro q ⟨h1, h2⟩; exact ⟨by omega, by omega⟩)

theorem eatPlainText_nf {p : Nat} (hp : p < x.bp) (ht : x.tagAt p = .ok none) :
    NF (fun (_, q) => p < q ∧ q ≤ x.bp) (x.eatPlainText p) := by
  unfold Cx.eatPlainText
  have h1 : x.topLevel p = .ok none := by
    unfold Cx.topLevel
    split
    · split
      · exact ht
      · rfl
    · rfl
  obtain ⟨n, hn⟩ : ∃ n, x.bp - p = n + 1 := ⟨x.bp - p - 1, by omega⟩
  rw [hn]
  unfold Cx.plainEnd
  rw [h1]
  refine NF.bind (good := fun q => p + 1 ≤ q ∧ q ≤ p + 1 + n) (plainEnd_nf n (p + 1)) ?_
  rintro q ⟨h2, h3⟩
  exact ⟨by omega, by omega⟩

theorem mlScan_nf (hm : x.cfg.mlStart ≠ []) : ∀ (n level p : Nat), x.bp - p < n → p ≤ x.bp → NF (fun q => p ≤ q ∧ q ≤ x.bp) (x.mlScan n level p) := by
  intro n
  induction n with
  | zero => intros; omega
  | succ n ih =>
    intro level p hn hp
    unfold Cx.mlScan
    have ih' : ∀ level q, p < q → q ≤ x.bp → NF (fun r => p ≤ r ∧ r ≤ x.bp) (x.mlScan n level q) := by
      intro level q h1 h2
      exact (ih level q (by omega) h2).mono (by rintro r ⟨h3, h4⟩; exact ⟨by omega, h4⟩)
    refine NF.ite (fun _ => ⟨Nat.le_refl _, hp⟩) (fun hp2 => ?_)
    cases h1 : x.matchTok x.cfg.mlStart p with
    | some q =>
      have := matchTok_eq h1
      refine (goto_nf _).bind ?_
      rintro q ⟨rfl, _⟩
      refine (goto_nf _).bind ?_
      rintro r ⟨rfl, hr⟩
      exact ih' _ _ (by omega) hr
    | none =>
      simp only
      cases h2 : x.matchTok x.cfg.mlEnd p with
      | some q =>
        have := matchTok_eq h2
        refine (goto_nf _).bind ?_
        rintro q ⟨rfl, hq⟩
        refine NF.ite (fun _ => ⟨Nat.le_refl _, hp⟩) (fun _ => ?_)
        refine (goto_nf _).bind ?_
        rintro r ⟨rfl, hr⟩
        exact ih' _ _ (by omega) hr
      | none => exact ih' _ _ (by omega) (by omega)

theorem afterMl_nf (hb : x.bp ≤ x.src.length) (clear : Bool) (eol1 : Nat) (comm : Str) {p : Nat} (hp : p ≤ x.bp) :
    NF (fun (cs, q) => p ≤ q ∧ q ≤ x.bp ∧ ∀ c ∈ cs, Neutral c) (x.afterMl clear eol1 comm p) := by
  unfold Cx.afterMl
  refine NF.ite (fun _ => ?_) (fun _ => ⟨Nat.le_refl _, hp, by simpa using Neutral.comment comm⟩)
  refine (goto_nf _).bind ?_
  rintro e ⟨rfl, _⟩
  have hj : ∀ q, p ≤ q → q ≤ x.bp → NF (fun (cs, q) => p ≤ q ∧ q ≤ x.bp ∧ ∀ c ∈ cs, Neutral c)
      (.ok ((if clear && (x.bp ≤ q || eol1 < q) then [Cmd.handleWS] else []) ++ [.comment comm], q)) := by
    intro q h1 h2
    refine ⟨h1, h2, ?_⟩
    intro c hc
    rw [List.mem_append] at hc
    rcases hc with hc | hc
    · exact neutral_if .handleWS c hc
    · simp at hc; subst hc; exact .comment _
  refine NF.ite (fun _ => ?_) (fun _ => hj p (Nat.le_refl _) hp)
  refine NF.bind (good := fun q => p ≤ q ∧ q ≤ x.bp) ?_ (fun q h => hj q h.1 h.2)
  refine (readToEOL_nf (x := x) clear hb hp).bind ?_
  rintro ⟨s, q⟩ ⟨h1, h2, _⟩
  exact ⟨h1, h2⟩

theorem eatMlComment_nf (hb : x.bp ≤ x.src.length) (hm : x.cfg.mlStart ≠ []) (p : Nat) :
    NF (fun (cs, q) => p < q ∧ q ≤ x.bp ∧ ∀ c ∈ cs, Neutral c) (x.eatMlComment p) := by
  have hl : 0 < x.cfg.mlStart.length := List.length_pos_iff.2 hm
  unfold Cx.eatMlComment
  cases h : x.matchTok x.cfg.mlStart p with
  | none => simp [NF]
  | some q =>
    have := matchTok_eq h
    refine (goto_nf _).bind ?_
    rintro q ⟨rfl, hq⟩
    refine (mlScan_nf hm _ _ _ (by omega) hq).bind ?_
    rintro e ⟨h1, h2⟩
    simp only
    refine NF.ite (fun _ => ?_) (fun _ => ?_)
    · cases h : x.matchTok x.cfg.mlEnd e with
      | none => simp [NF]
      | some r =>
        have := matchTok_eq h
        refine (goto_nf _).bind ?_
        rintro r ⟨rfl, hr⟩
        exact (afterMl_nf hb _ _ _ hr).mono (by rintro ⟨cs, q⟩ ⟨h3, h4, h5⟩; exact ⟨by omega, h4, h5⟩)
    · exact (afterMl_nf hb _ _ _ h2).mono (by rintro ⟨cs, q⟩ ⟨h3, h4, h5⟩; exact ⟨by omega, h4, h5⟩)

theorem pspScan_le : ∀ (n p : Nat), p ≤ x.pspScan n p ∧ x.pspScan n p ≤ p + n := by
  intro n
  induction n with
  | zero => intro p; exact ⟨Nat.le_refl _, Nat.le_refl _⟩
  | succ n ih =>
    intro p
    unfold Cx.pspScan
    split
    · omega
    · have := ih (p + 1); omega

theorem Neutral.psp (s : Str) : Neutral (.psp s) := ⟨fun _ h => (by cases h), fun _ h => (by cases h)⟩

theorem eatPsp_nf (hm : x.cfg.psp ≠ []) (p : Nat) :
    NF (fun (cs, q) => p < q ∧ q ≤ x.bp ∧ ∀ c ∈ cs, Neutral c) (x.eatPsp p) := by
  have hl : 0 < x.cfg.psp.length := List.length_pos_iff.2 hm
  unfold Cx.eatPsp
  cases h : x.matchTok x.cfg.psp p with
  | none => simp [NF]
  | some q =>
    have := matchTok_eq h
    refine (goto_nf _).bind ?_
    rintro q ⟨rfl, hq⟩
    have h3 := pspScan_le (x := x) (x.bp - q) q
    simp only
    cases h : x.matchTok x.cfg.pspEnd (x.pspScan (x.bp - q) q) with
    | none => simp [NF]
    | some r =>
      have := matchTok_eq h
      refine (goto_nf _).bind ?_
      rintro r ⟨rfl, hr⟩
      exact ⟨by omega, hr, by simpa using Neutral.psp _⟩

theorem slurp_nf (hb : x.bp ≤ x.src.length) {p : Nat} (hp : p < x.bp) :
    NF (fun (cs, q) => p < q ∧ q ≤ x.bp ∧ ∀ c ∈ cs, Neutral c) (x.slurp p) := by
  unfold Px.slurp
  refine (readToEOL_nf (x := x) true hb (by omega)).bind ?_
  rintro ⟨s, q⟩ ⟨h1, h2, h3⟩
  refine ⟨h3 rfl hp, h2, ?_⟩
  intro c hc
  rw [List.mem_append] at hc
  rcases hc with hc | hc
  · exact neutral_if .handleWS c hc
  · simp at hc; subst hc; exact .commit

theorem placeholder_nf (hg : Good x) (st : GenVar.Settings) (p : Nat) : NF (fun (_, q) => p < q ∧ q ≤ x.bp) (x.placeholder st p) :=
  ((Px.placeholder_res hg st p).nf (Nat.le_refl _)).mono (by rintro ⟨ph, q⟩ ⟨h1, h2, _⟩; exact ⟨h1, h2⟩)

theorem simple_nf (hg : Good' x) (h : Env) (st : GenVar.Settings) {p : Nat} (hp : p < x.bp) {t : Option Tag} (ht : x.tagAt p = .ok t) :
    NF (fun (cs, q) => p < q ∧ q ≤ x.bp ∧ ∀ c ∈ cs, Neutral c) (x.simple h st p t) := by
  have hph : NF (fun (cs, q) => p < q ∧ q ≤ x.bp ∧ ∀ c ∈ cs, Neutral c) ((x.placeholder st p).map fun (ph, q) =>
      ([Cmd.placeholder ph.expr ph.raw ph.filterArgs ph.cache ph.silent], q)) := by
    refine (placeholder_nf hg.toGood st p).map ?_
    rintro ⟨ph, q⟩ ⟨h1, h2⟩
    exact ⟨h1, h2, by rintro c hc; simp at hc; subst hc; exact ⟨fun _ h => (by cases h), fun _ h => (by cases h)⟩⟩
  unfold Px.simple
  split
  · exact eatComment_nf hg.bp hg.com_ne p
  · exact eatMlComment_nf hg.bp hg.ml_ne p
  · exact NF.ite (fun _ => by simp [NF]) (fun _ => eatPsp_nf hg.psp_ne p)
  · exact slurp_nf hg.bp hp
  · refine (eatPlainText_nf hp ht).map ?_
    rintro ⟨s, q⟩ ⟨h1, h2⟩
    exact ⟨h1, h2, by rintro c hc; simp at hc; subst hc; exact ⟨fun _ h => (by cases h), fun _ h => (by cases h)⟩⟩
  · exact hph

/-! ### Directives -/

/-- The command that starts a block, other than a definition, with the name of its directive. -/
inductive Opens : Str → Cmd → Prop
  | indenting (n e : Str) : n ∈ [c!"if", c!"unless", c!"for", c!"while", c!"repeat", c!"try"] → Opens n (.indenting n e)
  | call (f as : Str) : Opens c!"call" (.startCall f as)
  | capture (e : Str) : Opens c!"capture" (.startCapture e)
  | cache (as : List (Str × Option Str)) : Opens c!"cache" (.startCache as)
  | filter (f : Str) (k : Bool) : Opens c!"filter" (.setFilter f k)

/-- What comes before the end of a line is after a colon. -/
def Inl (src : Str) (p bp : Nat) : Prop :=
  bp ≤ src.length ∧ ∀ i, p ≤ i → i < bp → (src[i]? = some '\r' ∨ src[i]? = some '\n') ∨ AfterColon src i

/-- What the directive `d` does. -/
inductive ActOk (x : Px) (p : Nat) (d : Str) : Act → Prop
  | go (cs : List Cmd) (q : Nat) : p < q → q ≤ x.bp → (∀ c ∈ cs, Neutral c) → ActOk x p d (.go cs q)
  | opened (name : Str) (cs : List Cmd) (c : Cmd) (q : Nat) : p < q → q ≤ x.bp → (∀ c ∈ cs, Neutral c) → Opens name c → d ∈ closeable →
      ActOk x p d (.opened name (cs ++ [c]) q)
  | word (name w e : Str) (cs : List Cmd) (q : Nat) : p < q → q ≤ x.bp → (∀ c ∈ cs, Neutral c) → w ∈ closeable →
      w = (strip e).takeWhile (fun c => !isSpace c) → ActOk x p d (.opened w (cs ++ [.simple name (strip e)]) q)
  | closed (name : Str) (cs : List Cmd) (q : Nat) : p < q → q ≤ x.bp → (∀ c ∈ cs, Neutral c) → name ∈ closeable → name ∈ endNames → d = c!"end" →
      ActOk x p d (.closed name cs q)
  | stop : ActOk x p d .stop
  | lineIf (o : Cmd) (q bp : Nat) : p < q → q ≤ x.bp → Inl x.src q bp → Closes o .dedent → ActOk x p d (.line [o] q bp [.commit, .dedent])
  | line (o c : Cmd) (q bp : Nat) : p < q → q ≤ x.bp → Inl x.src q bp → Closes o c → c ≠ .dedent → ActOk x p d (.line [o] q bp [c])
  | defOpen (kind : DefKind) (name : Str) (args : List (Str × Option Str)) (cs : List Cmd) (q : Nat) : p < q → q ≤ x.bp →
      (∀ c ∈ cs, Neutral c) → d = kind.name → ActOk x p d (.defOpen kind name args cs q)
  | defLine (kind : DefKind) (name : Str) (args : List (Str × Option Str)) (q bp : Nat) (clear : Bool) (eol : Nat) : p < q → q ≤ x.bp →
      Inl x.src q bp → d = kind.name → ActOk x p d (.defLine kind name args q bp clear eol)
  | decorated (cs : List Cmd) (q : Nat) : p < q → q ≤ x.bp → (∀ c ∈ cs, Neutral c) → ActOk x p d (.decorated cs q)

macro "neutral" : term => `(⟨fun _ h => (by cases h), fun _ h => (by cases h)⟩)

theorem neutral_snoc {cs : List Cmd} {d : Cmd} (h : ∀ c ∈ cs, Neutral c) (hd : Neutral d) : ∀ c ∈ cs ++ [d], Neutral c := by
  intro c hc
  rw [List.mem_append] at hc
  rcases hc with hc | hc
  · exact h c hc
  · simp at hc; subst hc; exact hd

theorem neutral_cons {cs : List Cmd} {d : Cmd} (h : ∀ c ∈ cs, Neutral c) (hd : Neutral d) : ∀ c ∈ d :: cs, Neutral c := by
  intro c hc
  rcases List.mem_cons.1 hc with rfl | hc
  · exact hd
  · exact h c hc

theorem afterColon_of {src : Str} {k i : Nat} (hk : src[k]? = some ':') (hki : k < i)
    (h : ∀ j, k < j → j ≤ i → src[j]? ≠ some '\r' ∧ src[j]? ≠ some '\n') : AfterColon src i := ⟨k, hki, hk, h⟩

theorem isWs_not_eol {c : Char} (h : isWs c = true) : c ≠ '\r' ∧ c ≠ '\n' := by
  unfold isWs at h
  constructor <;> rintro rfl <;> revert h <;> decide

/-- The body after a colon, up to the end of the line. -/
theorem inl_colon (hb : x.bp ≤ x.src.length) {q : Nat} (hc : x.peek q = some ':') (g : Bool) (hq : x.skip1 (q + 1) ≤ x.bp) :
    Inl x.src (x.skip1 (q + 1)) (if g then x.eolGobble (x.skip1 (q + 1)) else x.eol (x.skip1 (q + 1))) := by
  obtain ⟨h1, h2⟩ := Cx.peek_some hc
  have hs := skip1_le (x := x) (q + 1)
  have he := eol_le (x := x) (p := x.skip1 (q + 1)) (by omega)
  refine ⟨by split <;> omega, ?_⟩
  intro i hi1 hi2
  have hi3 : i < x.eolGobble (x.skip1 (q + 1)) := by split at hi2 <;> omega
  rcases Nat.lt_or_ge i (x.eol (x.skip1 (q + 1))) with h3 | h3
  · refine .inr (afterColon_of h2 (by omega) ?_)
    intro j hj1 hj2
    rcases Nat.lt_or_ge j (x.skip1 (q + 1)) with h4 | h4
    · rcases skip1_or (x := x) (q + 1) with h5 | ⟨h5, h6⟩
      · omega
      · have : j = q + 1 := by omega
        subst this
        constructor <;> intro h7
        · exact absurd rfl (isWs_not_eol (h6 _ h7)).1
        · exact absurd rfl (isWs_not_eol (h6 _ h7)).2
    · exact eol_line (by omega) h4 (by omega)
  · exact .inl (eol_term (by omega) h3 hi3)

theorem simpleExpr_ok (hg : Good' x) (st : GenVar.Settings) (name : Str) (p : Nat) : NF (ActOk x p name) (x.simpleExpr st name p) := by
  unfold Px.simpleExpr
  refine (nameStart_nf hg.dir_ne _ _ p).bind ?_
  rintro q ⟨h1, h2⟩
  refine (expression_nf hg.toGood st _ _ h2).bind ?_
  rintro ⟨e, r⟩ ⟨h3, h4⟩
  simp only
  refine NF.ite (fun _ => by simp [NF]) (fun _ => ?_)
  refine (restTag_nf hg.bp hg.com_ne _ _ r).bind ?_
  rintro ⟨cs, r⟩ ⟨h5, h6, h7⟩
  show ActOk x p name (if _ then _ else _)
  split
  · exact .word _ _ _ _ _ (by omega) (by omega) h7 (by assumption) rfl
  · exact .go _ _ (by omega) (by omega) (neutral_snoc h7 neutral)

/-- A directive with its body on the same line. -/
theorem line_ok (hb : x.bp ≤ x.src.length) {d : Str} {p q : Nat} (hpq : p ≤ q) (hc : x.peek q = some ':') (g : Bool) {o c : Cmd} {a : Act}
    (hc' : Closes o c) {after : List Cmd} (h : (after = [.commit, .dedent] ∧ c = .dedent) ∨ (after = [c] ∧ c ≠ .dedent))
    (ha : a = .line [o] (x.skip1 (q + 1)) (if g then x.eolGobble (x.skip1 (q + 1)) else x.eol (x.skip1 (q + 1))) after) : ActOk x p d a := by
  have hq := peek_lt hc
  have h1 := skip1_bp (x := x) (p := q + 1) (by omega)
  have h2 := skip1_le (x := x) (q + 1)
  have h3 := inl_colon hb hc g h1
  subst ha
  rcases h with ⟨rfl, rfl⟩ | ⟨rfl, h⟩
  · exact .lineIf _ _ _ (by omega) h1 h3 hc'
  · exact .line _ _ _ _ (by omega) h1 h3 hc' h

theorem simpleIndenting_ok (hg : Good' x) (st : GenVar.Settings) {name : Str} (hn : name ∈ indentingNames) (p : Nat) :
    NF (ActOk x p name) (x.simpleIndenting st name p) := by
  unfold Px.simpleIndenting
  refine (nameStart_nf hg.dir_ne _ _ p).bind ?_
  rintro q ⟨h1, h2⟩
  have := skip_le (x := x) q
  refine (expression_nf hg.toGood st _ _ (skip_bp h2)).bind ?_
  rintro ⟨e, r⟩ ⟨h3, h4⟩
  refine (colon_nf r).bind fun b hb => ?_
  refine NF.ite (fun hb' => ?_) (fun _ => ?_)
  · refine (goto_nf _).bind ?_
    rintro q ⟨rfl, hq⟩
    refine line_ok hg.bp (by omega) (hb hb').1 true ?_ (.inl ⟨rfl, rfl⟩) rfl
    split
    · exact .reindenting _ _
    · exact .indenting _ _
  · refine skipColon_nf.bind ?_
    rintro q ⟨h5, h6⟩
    refine (restTag_nf hg.bp hg.com_ne _ _ q).bind ?_
    rintro ⟨cs, r⟩ ⟨h7, h8, h9⟩
    refine NF.ite (fun hc => ?_) (fun _ => ?_)
    · refine ActOk.opened _ _ _ _ (by omega) (by omega) h9 (.indenting _ _ ?_) hc
      revert hc
      simp only [indentingNames, List.mem_cons, List.not_mem_nil, or_false] at hn
      rcases hn with rfl | rfl | rfl | rfl | rfl | rfl | rfl | rfl | rfl <;> decide
    · exact ActOk.go _ _ (by omega) (by omega) (neutral_snoc h9 neutral)

theorem endDirective_ok (hg : Good' x) (st : GenVar.Settings) (p : Nat) : NF (ActOk x p c!"end") (x.endDirective st p) := by
  unfold Px.endDirective
  refine (afterName_nf hg.dir_ne _ p).bind ?_
  rintro q ⟨h1, h2⟩
  have := skip_le (x := x) q
  simp only
  cases hf : endNames.find? fun k => startsWith (x.rest (x.skip q)) k with
  | none => simp [NF]
  | some name =>
    simp only
    refine (expression_nf hg.toGood st _ _ (skip_bp h2)).bind ?_
    rintro ⟨e, r⟩ ⟨h3, h4⟩
    refine (restTag_nf hg.bp hg.com_ne _ _ r).bind ?_
    rintro ⟨cs, r⟩ ⟨h7, h8, h9⟩
    refine NF.ite (fun hc => ?_) (fun _ => ?_)
    · exact ActOk.closed _ _ _ (by omega) (by omega) h9 hc (List.mem_of_find?_eq_some hf) rfl
    · exact ActOk.go _ _ (by omega) (by omega) (neutral_snoc h9 neutral)

theorem textDirective_ok (hg : Good' x) (name : Str) (mk : Str → Cmd) (hm : ∀ s, Neutral (mk s)) (p : Nat) :
    NF (ActOk x p name) (x.textDirective name mk p) := by
  unfold Px.textDirective
  refine (afterName_nf hg.dir_ne _ p).bind ?_
  rintro q ⟨h1, h2⟩
  have := skip_le (x := x) q
  refine (readToEOL_nf (x := x) true hg.bp (skip_bp h2)).bind ?_
  rintro ⟨s, r⟩ ⟨h3, h4, _⟩
  exact ActOk.go _ _ (by omega) h4 (by rintro c hc; simp at hc; subst hc; exact hm _)

theorem attrDirective_ok (hg : Good' x) (st : GenVar.Settings) (p : Nat) : NF (ActOk x p c!"attr") (x.attrDirective st p) := by
  unfold Px.attrDirective
  refine (afterName_nf hg.dir_ne _ p).bind ?_
  rintro q ⟨h1, h2⟩
  have := skip_le (x := x) q
  refine (skipVar_nf hg.toGood (skip_bp h2)).bind ?_
  rintro q2 ⟨h3, h4⟩
  refine (identifier_nf q2).bind ?_
  rintro ⟨name, q3⟩ ⟨h5, h6⟩
  have := skip_le (x := x) q3
  refine (assignOp_nf _).bind ?_
  rintro ⟨op, q4⟩ ⟨h7, h8⟩
  refine (expression_nf hg.toGood st _ _ h8).bind ?_
  rintro ⟨e, q5⟩ ⟨h9, h10⟩
  refine (restTag_nf hg.bp hg.com_ne _ _ q5).bind ?_
  rintro ⟨cs, r⟩ ⟨k1, k2, k3⟩
  exact ActOk.go _ _ (by omega) (by omega) (neutral_cons k3 neutral)

theorem decorator_ok (hg : Good' x) (st : GenVar.Settings) (p : Nat) : NF (ActOk x p c!"@") (x.decorator st p) := by
  unfold Px.decorator
  refine (dirStart_nf hg.dir_ne p).bind ?_
  rintro q ⟨h1, h2⟩
  refine (expression_nf hg.toGood st _ _ h2).bind ?_
  rintro ⟨e, q5⟩ ⟨h9, h10⟩
  refine (restTag_nf hg.bp hg.com_ne _ _ q5).bind ?_
  rintro ⟨cs, r⟩ ⟨k1, k2, k3⟩
  have := skip_le (x := x) r
  simp only
  refine (matchDirective_nf _).bind fun d _ => ?_
  cases d with
  | none => simp [NF]
  | some d =>
    refine NF.ite (fun _ => ?_) (fun _ => by simp [NF])
    exact ActOk.decorated _ _ (by omega) (skip_bp (by omega)) (neutral_cons k3 neutral)

theorem definition_ok (hg : Good' x) (st : GenVar.Settings) (kind : DefKind) {p : Nat} (hp : p ≤ x.bp) : NF (ActOk x p kind.name) (x.definition st kind p) := by
  unfold Px.definition
  refine (afterName_nf hg.dir_ne _ p).bind ?_
  rintro q ⟨h1, h2⟩
  have := skip_le (x := x) q
  refine (skipVar_nf hg.toGood (skip_bp h2)).bind ?_
  rintro q2 ⟨h3, h4⟩
  refine (identifier_nf q2).bind ?_
  rintro ⟨name, q3⟩ ⟨h5, h6⟩
  have := skip_le (x := x) q3
  refine (optArgs_nf hg.toGood st (skip_bp h6)).bind ?_
  rintro ⟨as, q4⟩ ⟨h7, h8⟩
  refine (colon_nf q4).bind fun b hb => ?_
  refine NF.ite (fun hb' => ?_) (fun _ => ?_)
  · refine (goto_nf _).bind ?_
    rintro q5 ⟨rfl, hq5⟩
    refine (goto_nf _).bind ?_
    rintro e ⟨rfl, he⟩
    have h9 := skip1_bp hq5
    have h10 := skip1_le (x := x) (q4 + 1)
    obtain ⟨_, h11⟩ := Cx.peek_some (hb hb').1
    refine ActOk.defLine _ _ _ _ _ _ _ (by omega) h9 ⟨by have := hg.bp; omega, ?_⟩ rfl
    intro i hi1 hi2
    refine .inr (afterColon_of h11 (by omega) ?_)
    intro j hj1 hj2
    exact eol_line (by have := hg.bp; omega : p ≤ x.src.length) (by omega) (by omega)
  · refine (peek!_nf _).bind fun c _ => ?_
    simp only
    have h9 : q4 ≤ (if c = ':' ∧ q4 + 1 ≤ x.bp then q4 + 1 else q4) ∧ (if c = ':' ∧ q4 + 1 ≤ x.bp then q4 + 1 else q4) ≤ x.bp := by
      split <;> omega
    refine (expression_nf hg.toGood st _ _ h9.2).bind ?_
    rintro ⟨e, q5⟩ ⟨h9, h10⟩
    refine (restTag_nf hg.bp hg.com_ne _ _ q5).bind ?_
    rintro ⟨cs, r⟩ ⟨k1, k2, k3⟩
    exact ActOk.defOpen _ _ _ _ _ (by omega) (by omega) k3 rfl

theorem extendsDirective_ok (hg : Good' x) (b : Bool) (st : GenVar.Settings) (p : Nat) : NF (ActOk x p c!"extends") (x.extendsDirective b st p) := by
  unfold Px.extendsDirective
  refine (afterName_nf hg.dir_ne _ p).bind ?_
  rintro q ⟨h1, h2⟩
  have := skip_le (x := x) q
  refine (baseName_nf hg.toGood b st (skip_bp h2)).bind ?_
  rintro ⟨e, q5⟩ ⟨h9, h10⟩
  refine (restTag_nf hg.bp hg.com_ne _ _ q5).bind ?_
  rintro ⟨cs, r⟩ ⟨k1, k2, k3⟩
  exact ActOk.go _ _ (by omega) (by omega) (neutral_cons k3 neutral)

theorem implementsDirective_ok (hg : Good' x) (st : GenVar.Settings) (p : Nat) : NF (ActOk x p c!"implements") (x.implementsDirective st p) := by
  unfold Px.implementsDirective
  refine (afterName_nf hg.dir_ne _ p).bind ?_
  rintro q ⟨h1, h2⟩
  have := skip_le (x := x) q
  refine (identifier_nf _).bind ?_
  rintro ⟨name, q3⟩ ⟨h5, h6⟩
  refine (optArgs'_nf hg.toGood st h6).bind ?_
  rintro ⟨as, q4⟩ ⟨h7, h8⟩
  refine (expression_nf hg.toGood st _ _ h8).bind ?_
  rintro ⟨e, q5⟩ ⟨h9, h10⟩
  refine (restTag_nf hg.bp hg.com_ne _ _ q5).bind ?_
  rintro ⟨cs, r⟩ ⟨k1, k2, k3⟩
  exact ActOk.go _ _ (by omega) (by omega) (neutral_cons k3 neutral)

theorem superDirective_ok (hg : Good' x) (st : GenVar.Settings) (p : Nat) : NF (ActOk x p c!"super") (x.superDirective st p) := by
  unfold Px.superDirective
  refine (afterName_nf hg.dir_ne _ p).bind ?_
  rintro q ⟨h1, h2⟩
  have := skip_le (x := x) q
  refine (optArgs'_nf hg.toGood st (skip_bp h2)).bind ?_
  rintro ⟨as, q4⟩ ⟨h7, h8⟩
  refine (expression_nf hg.toGood st _ _ h8).bind ?_
  rintro ⟨e, q5⟩ ⟨h9, h10⟩
  refine (restTag_nf hg.bp hg.com_ne _ _ q5).bind ?_
  rintro ⟨cs, r⟩ ⟨k1, k2, k3⟩
  exact ActOk.go _ _ (by omega) (by omega) (neutral_snoc k3 neutral)

theorem setDirective_ok (hg : Good' x) (st : GenVar.Settings) (p : Nat) : NF (ActOk x p c!"set") (x.setDirective st p) := by
  unfold Px.setDirective
  refine (afterName_nf hg.dir_ne _ p).bind ?_
  rintro q ⟨h1, h2⟩
  have := skip_le (x := x) q
  refine (setStyle_nf (skip_bp h2)).bind ?_
  rintro ⟨style, q2⟩ ⟨h3, h4⟩
  refine (expression_nf hg.toGood _ _ _ h4).bind ?_
  rintro ⟨l, q3⟩ ⟨h5, h6⟩
  refine (assignOp_nf _).bind ?_
  rintro ⟨op, q4⟩ ⟨h7, h8⟩
  refine (expression_nf hg.toGood st _ _ h8).bind ?_
  rintro ⟨e, q5⟩ ⟨h9, h10⟩
  refine (restTag_nf hg.bp hg.com_ne _ _ q5).bind ?_
  rintro ⟨cs, r⟩ ⟨k1, k2, k3⟩
  exact ActOk.go _ _ (by omega) (by omega) (neutral_snoc k3 neutral)

theorem rawDirective_ok (hg : Good' x) (p : Nat) : NF (ActOk x p c!"raw") (x.rawDirective p) := by
  unfold Px.rawDirective
  refine (afterName_nf hg.dir_ne _ p).bind ?_
  rintro q ⟨h1, h2⟩
  have := skip_le (x := x) q
  simp only
  refine (colon_nf _).bind fun b hb => ?_
  refine NF.ite (fun hb' => ?_) (fun _ => ?_)
  · refine (goto_nf _).bind ?_
    rintro q5 ⟨rfl, hq5⟩
    have h9 := skip1_bp hq5
    have h10 := skip1_le (x := x) (x.skip q + 1)
    refine (readToEOL_nf (x := x) false hg.bp h9).bind ?_
    rintro ⟨s, r⟩ ⟨h3, h4, _⟩
    exact ActOk.go _ _ (by omega) h4 (by rintro c hc; simp at hc; subst hc; exact neutral)
  · refine skipColon_nf.bind ?_
    rintro q ⟨h5, h6⟩
    refine (restTag_nf hg.bp hg.com_ne _ _ q).bind ?_
    rintro ⟨cs, r⟩ ⟨h7, h8, h9⟩
    refine (toEnd_nf hg _ (by omega : r ≤ x.bp)).bind ?_
    rintro ⟨s, cs2, q6⟩ ⟨k1, k2, k3⟩
    refine ActOk.go _ q6 (by omega) (by omega) (neutral_snoc ?_ neutral)
    intro c hc
    rw [List.mem_append] at hc
    exact hc.elim (h9 c) (k3 c)

theorem includeDirective_ok (hg : Good' x) (st : GenVar.Settings) (p : Nat) : NF (ActOk x p c!"include") (x.includeDirective st p) := by
  unfold Px.includeDirective
  refine (afterName_nf hg.dir_ne _ p).bind ?_
  rintro q ⟨h1, h2⟩
  have := skip_le (x := x) q
  refine (goto_nf _).bind ?_
  rintro q2 ⟨h3, h4⟩
  have h5 : x.skip q ≤ q2 := by rw [h3]; split <;> omega
  have := skip_le (x := x) q2
  refine (includeSource_nf (skip_bp (by omega))).bind ?_
  rintro ⟨b, q4⟩ ⟨h7, h8⟩
  refine (expression_nf hg.toGood st _ _ h8).bind ?_
  rintro ⟨e, q5⟩ ⟨h9, h10⟩
  refine (restTag_nf hg.bp hg.com_ne _ _ q5).bind ?_
  rintro ⟨cs, r⟩ ⟨k1, k2, k3⟩
  exact ActOk.go _ _ (by omega) (by omega) (neutral_snoc k3 neutral)

theorem cacheDirective_ok (hg : Good' x) (st : GenVar.Settings) (p : Nat) : NF (ActOk x p c!"cache") (x.cacheDirective st p) := by
  unfold Px.cacheDirective
  refine (afterName_nf hg.dir_ne _ p).bind ?_
  rintro q ⟨h1, h2⟩
  refine (defArgList_nf hg.toGood st true q).bind ?_
  rintro ⟨as, q2⟩ ⟨h3, h4⟩
  refine (colon_nf q2).bind fun b hb => ?_
  refine NF.ite (fun hb' => ?_) (fun _ => ?_)
  · refine (goto_nf _).bind ?_
    rintro q5 ⟨rfl, hq⟩
    exact line_ok hg.bp (by omega) (hb hb').1 true (.cache _) (.inr ⟨rfl, by simp⟩) rfl
  · refine skipColon_nf.bind ?_
    rintro q ⟨h5, h6⟩
    refine (restTag_nf hg.bp hg.com_ne _ _ q).bind ?_
    rintro ⟨cs, r⟩ ⟨h7, h8, h9⟩
    exact ActOk.opened _ _ _ _ (by omega) (by omega) h9 (.cache _) (by decide)

theorem callDirective_ok (hg : Good' x) (st : GenVar.Settings) (p : Nat) : NF (ActOk x p c!"call") (x.callDirective st p) := by
  unfold Px.callDirective
  refine (afterName_nf hg.dir_ne _ p).bind ?_
  rintro q ⟨h1, h2⟩
  have := skip_le (x := x) q
  refine (callName_nf hg.toGood st (skip_bp h2)).bind ?_
  rintro ⟨f, q3⟩ ⟨h5, h6⟩
  have := skip_le (x := x) q3
  refine (expression_nf hg.toGood st _ _ (skip_bp h6)).bind ?_
  rintro ⟨e, q2⟩ ⟨h9, h10⟩
  refine (colon_nf q2).bind fun b hb => ?_
  refine NF.ite (fun hb' => ?_) (fun _ => ?_)
  · refine (goto_nf _).bind ?_
    rintro q5 ⟨rfl, hq⟩
    exact line_ok hg.bp (by omega) (hb hb').1 false (.call _ _) (.inr ⟨rfl, by simp⟩) rfl
  · refine skipColon_nf.bind ?_
    rintro q ⟨h5, h6⟩
    refine (restTag_nf hg.bp hg.com_ne _ _ q).bind ?_
    rintro ⟨cs, r⟩ ⟨h7, h8, h9⟩
    exact ActOk.opened _ _ _ _ (by omega) (by omega) h9 (.call _ _) (by decide)

theorem argDirective_ok (hg : Good' x) (p : Nat) : NF (ActOk x p c!"arg") (x.argDirective p) := by
  unfold Px.argDirective
  refine (afterName_nf hg.dir_ne _ p).bind ?_
  rintro q ⟨h1, h2⟩
  have := skip_le (x := x) q
  refine (identifier_nf _).bind ?_
  rintro ⟨name, q3⟩ ⟨h5, h6⟩
  have := skip_le (x := x) q3
  have h7 := skip_bp h6
  simp only
  refine (peek!_nf _).bind fun c _ => ?_
  refine NF.ite (fun _ => ?_) (fun _ => ?_)
  · exact ActOk.go _ _ (by split <;> omega) (by split <;> omega) (by rintro c hc; simp at hc; subst hc; exact neutral)
  · refine (restTag_nf hg.bp hg.com_ne _ _ _).bind ?_
    rintro ⟨cs, r⟩ ⟨k1, k2, k3⟩
    exact ActOk.go _ _ (by omega) (by omega) (neutral_cons k3 neutral)

theorem filterDirective_ok (hg : Good' x) (st : GenVar.Settings) (p : Nat) : NF (ActOk x p c!"filter") (x.filterDirective st p) := by
  unfold Px.filterDirective
  refine (afterName_nf hg.dir_ne _ p).bind ?_
  rintro q ⟨h1, h2⟩
  have := skip_le (x := x) q
  refine (filterName_nf hg.toGood st (skip_bp h2)).bind ?_
  rintro ⟨f, k, q2⟩ ⟨h5, h6⟩
  refine (colon_nf q2).bind fun b hb => ?_
  refine NF.ite (fun hb' => ?_) (fun _ => ?_)
  · refine (goto_nf _).bind ?_
    rintro q5 ⟨rfl, hq⟩
    exact line_ok hg.bp (by omega) (hb hb').1 false (.filter _ _) (.inr ⟨rfl, by simp⟩) rfl
  · refine skipColon_nf.bind ?_
    rintro q ⟨h5, h6⟩
    refine (restTag_nf hg.bp hg.com_ne _ _ q).bind ?_
    rintro ⟨cs, r⟩ ⟨h7, h8, h9⟩
    exact ActOk.opened _ _ _ _ (by omega) (by omega) h9 (.filter _ _) (by decide)

theorem transformDirective_ok (hg : Good' x) (st : GenVar.Settings) (p : Nat) : NF (ActOk x p c!"transform") (x.transformDirective st p) := by
  unfold Px.transformDirective
  refine (afterName_nf hg.dir_ne _ p).bind ?_
  rintro q ⟨h1, h2⟩
  have := skip_le (x := x) q
  refine (filterName_nf hg.toGood st (skip_bp h2)).bind ?_
  rintro ⟨f, k, q2⟩ ⟨h5, h6⟩
  refine skipColon_nf.bind ?_
  rintro q ⟨h5, h6⟩
  refine (restTag_nf hg.bp hg.com_ne _ _ q).bind ?_
  rintro ⟨cs, r⟩ ⟨h7, h8, h9⟩
  exact ActOk.go _ _ (by omega) (by omega) (neutral_snoc h9 neutral)

theorem errorCatcherDirective_ok (hg : Good' x) (p : Nat) : NF (ActOk x p c!"errorCatcher") (x.errorCatcherDirective p) := by
  unfold Px.errorCatcherDirective
  refine (afterName_nf hg.dir_ne _ p).bind ?_
  rintro q ⟨h1, h2⟩
  have := skip_le (x := x) q
  refine (identifier_nf _).bind ?_
  rintro ⟨name, q3⟩ ⟨h5, h6⟩
  refine (restTag_nf hg.bp hg.com_ne _ _ _).bind ?_
  rintro ⟨cs, r⟩ ⟨h7, h8, h9⟩
  exact ActOk.go _ _ (by omega) (by omega) (neutral_snoc h9 neutral)

theorem captureDirective_ok (hg : Good' x) (st : GenVar.Settings) (p : Nat) : NF (ActOk x p c!"capture") (x.captureDirective st p) := by
  unfold Px.captureDirective
  refine (afterName_nf hg.dir_ne _ p).bind ?_
  rintro q ⟨h1, h2⟩
  have := skip_le (x := x) q
  refine (expression_nf hg.toGood st _ _ (skip_bp h2)).bind ?_
  rintro ⟨e, q2⟩ ⟨h9, h10⟩
  refine (colon_nf q2).bind fun b hb => ?_
  refine NF.ite (fun hb' => ?_) (fun _ => ?_)
  · refine (goto_nf _).bind ?_
    rintro q5 ⟨rfl, hq⟩
    exact line_ok hg.bp (by omega) (hb hb').1 false (.capture _) (.inr ⟨rfl, by simp⟩) rfl
  · refine skipColon_nf.bind ?_
    rintro q ⟨h5, h6⟩
    refine (restTag_nf hg.bp hg.com_ne _ _ q).bind ?_
    rintro ⟨cs, r⟩ ⟨h7, h8, h9⟩
    exact ActOk.opened _ _ _ _ (by omega) (by omega) h9 (.capture _) (by decide)

theorem ifDirective_ok (hg : Good' x) (st : GenVar.Settings) (p : Nat) : NF (ActOk x p c!"if") (x.ifDirective st p) := by
  unfold Px.ifDirective
  refine (dirStart_nf hg.dir_ne p).bind ?_
  rintro q ⟨h1, h2⟩
  refine (exprParts_nf hg.toGood st _ _ h2).bind ?_
  rintro ⟨ws, q2⟩ ⟨h3, h4⟩
  simp only
  refine NF.ite (fun _ => ?_) (fun _ => ?_)
  · refine (restTag_nf hg.bp hg.com_ne _ _ _).bind ?_
    rintro ⟨cs, r⟩ ⟨h7, h8, h9⟩
    exact ActOk.go _ _ (by omega) (by omega) (neutral_snoc h9 neutral)
  refine (colon_nf q2).bind fun b hb => ?_
  refine NF.ite (fun hb' => ?_) (fun _ => ?_)
  · refine (goto_nf _).bind ?_
    rintro q5 ⟨rfl, hq⟩
    exact line_ok hg.bp (by omega) (hb hb').1 true (.indenting _ _) (.inl ⟨rfl, rfl⟩) rfl
  · refine skipColon_nf.bind ?_
    rintro q ⟨h5, h6⟩
    refine (restTag_nf hg.bp hg.com_ne _ _ q).bind ?_
    rintro ⟨cs, r⟩ ⟨h7, h8, h9⟩
    exact ActOk.opened _ _ _ _ (by omega) (by omega) h9 (.indenting _ _ (by decide)) (by decide)

theorem directive_ok (hg : Good' x) (h : Env) (st : GenVar.Settings) (name : Str) {p : Nat} (hp : p < x.bp) :
    NF (ActOk x p name) (x.directive h st name p) := by
  unfold Px.directive
  refine NF.ite (fun hn => simpleIndenting_ok hg st hn p) fun _ => ?_
  refine NF.ite (fun _ => simpleExpr_ok hg st name p) fun _ => ?_
  refine NF.ite (fun hn => by subst hn; exact ifDirective_ok hg st p) fun _ => ?_
  refine NF.ite (fun hn => by subst hn; exact endDirective_ok hg st p) fun _ => ?_
  refine NF.ite (fun hn => by subst hn; exact setDirective_ok hg st p) fun _ => ?_
  refine NF.ite (fun hn => by subst hn; exact definition_ok hg st _ (by omega)) fun _ => ?_
  refine NF.ite (fun hn => by subst hn; exact definition_ok hg st _ (by omega)) fun _ => ?_
  refine NF.ite (fun hn => by subst hn; exact definition_ok hg st _ (by omega)) fun _ => ?_
  refine NF.ite (fun hn => by subst hn; exact decorator_ok hg st p) fun _ => ?_
  refine NF.ite (fun hn => by subst hn; exact callDirective_ok hg st p) fun _ => ?_
  refine NF.ite (fun hn => by subst hn; exact argDirective_ok hg p) fun _ => ?_
  refine NF.ite (fun hn => by subst hn; exact captureDirective_ok hg st p) fun _ => ?_
  refine NF.ite (fun hn => by subst hn; exact cacheDirective_ok hg st p) fun _ => ?_
  refine NF.ite (fun hn => by subst hn; exact filterDirective_ok hg st p) fun _ => ?_
  refine NF.ite (fun hn => by subst hn; exact transformDirective_ok hg st p) fun _ => ?_
  refine NF.ite (fun hn => by subst hn; exact errorCatcherDirective_ok hg p) fun _ => ?_
  refine NF.ite (fun hn => by subst hn; exact includeDirective_ok hg st p) fun _ => ?_
  refine NF.ite (fun hn => by subst hn; exact rawDirective_ok hg p) fun _ => ?_
  refine NF.ite (fun hn => by subst hn; exact (slurp_nf hg.bp hp).map (by rintro ⟨cs, q⟩ ⟨h1, h2, h3⟩; exact .go _ _ h1 h2 h3)) fun _ => ?_
  refine NF.ite (fun hn => by subst hn; exact attrDirective_ok hg st p) fun _ => ?_
  refine NF.ite (fun hn => by subst hn; exact extendsDirective_ok hg _ st p) fun _ => ?_
  refine NF.ite (fun hn => by subst hn; exact implementsDirective_ok hg st p) fun _ => ?_
  refine NF.ite (fun hn => by subst hn; exact superDirective_ok hg st p) fun _ => ?_
  refine NF.ite (fun hn => by subst hn; exact textDirective_ok hg _ _ (fun _ => neutral) p) fun _ => ?_
  refine NF.ite (fun hn => by subst hn; exact textDirective_ok hg _ _ (fun _ => neutral) p) fun _ => ?_
  refine NF.ite (fun hn => by subst hn; exact ActOk.stop) fun _ => ?_
  simp [NF]

end

end Cheetah.Parser
