import Verif.Props.Methods
import Verif.ClassBody
/-
The parameters of the methods of a compiled template and the lines with which they begin.  Property C83.
-/
namespace Cheetah.Setup
open Cheetah.Driver Cheetah.Parser

/-! ### Specification -/

/-- A parameter of a Python function: `w`, `*w` or `**w`. -/
inductive Param where
  | plain (w : Str)
  | star (w : Str)
  | dict (w : Str)

/-- How it is written. -/
def Param.text : Param → Str
  | .plain w => w
  | .star w => '*' :: w
  | .dict w => '*' :: '*' :: w

/-- Its name. -/
def Param.name : Param → Str
  | .plain w => w
  | .star w => w
  | .dict w => w

/-- The dictionary of the keyword arguments. -/
def dictOf : List (Param × Option Str) → Option Str
  | [] => none
  | (.dict w, _) :: _ => some w
  | _ :: ps => dictOf ps

/-- Are there parameters with stars? -/
def Starred (ps : List (Param × Option Str)) : Prop := ∃ w d, (Param.star w, d) ∈ ps ∨ (Param.dict w, d) ∈ ps

/-- The method is the main method or names a parameter `trans` itself. -/
def Given (name : Str) (ps : List (Param × Option Str)) : Prop := name = c!"respond" ∨ ∃ d, (Param.plain c!"trans", d) ∈ ps

/-- The parameters of a method as a list of texts. -/
def texts (ps : List (Param × Option Str)) : List (Str × Option Str) := ps.map fun p => (p.1.text, p.2)

/-- Takes the transaction of the object, or makes one. -/
def seek : List (Nat × Str) :=
  [(0, c!"if (not trans and not self._CHEETAH__isBuffering and not callable(self.transaction)):"), (1, c!"trans = self.transaction"),
   (0, c!"if not trans:"), (1, c!"trans = DummyTransaction()"), (1, c!"_dummyTrans = True"), (0, c!"else: _dummyTrans = False")]

/-- Makes a transaction. -/
def own : List (Nat × Str) := [(0, c!"trans = DummyTransaction()"), (0, c!"_dummyTrans = True")]

/-- Lines at a level. -/
def at_ (n : Nat) (ls : List (Nat × Str)) : List (Nat × Str) := ls.map fun l => (n + l.1, l.2)

/-- Is it the method of an object? -/
def Instance (m : Meth) : Prop := c!"@classmethod" ∉ m.decorators ∧ c!"@staticmethod" ∉ m.decorators

open Classical in
/-- What the compiler adds to the parameters: with a way for the transaction in place, `trans=None` or, behind parameters with stars,
nothing; else the dictionary of the keyword arguments, unless there is one. -/
noncomputable def extra (name : Str) (ps : List (Param × Option Str)) : List (Param × Option Str) :=
  if Given name ps then (if Starred ps then [] else [(.plain c!"trans", some c!"None")])
  else if (dictOf ps).isSome then [] else [(.dict c!"KWS", none)]

open Classical in
/-- Where the transaction comes from: a function without an object makes its own, and so does a method that could not be given one; else
it is what the caller has given, or that of the object, or a new one. -/
noncomputable def transaction (bound : Prop) (name : Str) (ps : List (Param × Option Str)) : List (Nat × Str) :=
  if bound ∧ ¬ (Given name ps ∧ Starred ps) then
    (if Given name ps then [] else [(0, c!"trans = " ++ (dictOf ps).getD c!"KWS" ++ c!".get(\"trans\")")]) ++ seek
  else own

open Classical in
/-- Where the names are looked up: in a parameter `SL` or `searchList`, else in the search list of the object, else among the keyword
arguments. -/
noncomputable def search (bound : Prop) (ps : List (Param × Option Str)) : List (Nat × Str) :=
  if ∃ d, (Param.plain c!"SL", d) ∈ ps then []
  else if ∃ d, (Param.plain c!"searchList", d) ∈ ps then [(0, c!"SL = searchList")]
  else if bound then [(0, c!"SL = self._CHEETAH__searchList")] else [(0, c!"SL = [KWS]")]

open Classical in
/-- Which filter is at work. -/
noncomputable def filterLine (bound : Prop) : List (Nat × Str) :=
  if bound then [(0, c!"_filter = self._CHEETAH__currentFilter")] else [(0, c!"_filter = lambda x, **kwargs: unicode(x)")]

/-- The lines in front of the body. -/
noncomputable def setup (bound : Prop) (name : Str) (ps : List (Param × Option Str)) : List (Nat × Str) :=
  transaction bound name ps ++ [(0, c!"write = trans.response().write")] ++ search bound ps ++ filterLine bound

/-! ### Parameters -/

theorem strip_text {p : Param} (h : Word p.name) : strip p.text = p.text := by
  have h1 : ∀ c ∈ p.name, isSpace c = false := fun c hc => identChar_space (h.all c hc)
  have hs : isSpace '*' = false := by decide +kernel
  have h2 : ∀ c ∈ p.text, isSpace c = false := by
    cases p with
    | plain w => exact h1
    | star w => intro c hc; rcases List.mem_cons.1 hc with rfl | hc; exacts [hs, h1 c hc]
    | dict w =>
      intro c hc
      rcases List.mem_cons.1 hc with rfl | hc
      · exact hs
      · rcases List.mem_cons.1 hc with rfl | hc
        exacts [hs, h1 c hc]
  exact strip_self (fun c hc => h2 c (List.mem_of_mem_head? hc)) (fun c hc => h2 c (List.mem_of_getLast? hc))

theorem no_star {w : Str} (h : Word w) : ∀ u, w ≠ '*' :: u := by
  rintro u rfl
  obtain ⟨c, r, e, h1, _⟩ := h
  injection e with e _
  subst e
  exact absurd h1 (by decide)

theorem starts_star {w : Str} (h : Word w) : startsWith w c!"*" = false ∧ startsWith w c!"**" = false := by
  cases w with
  | nil => exact ⟨rfl, rfl⟩
  | cons c r =>
    have : c ≠ '*' := fun e => no_star h r (by rw [e])
    have h2 : ('*' = c) = False := by simpa using fun h => this h.symm
    constructor <;> simp [startsWith, stripPrefix?, h2]

theorem kwargs_texts : ∀ {ps : List (Param × Option Str)}, (∀ p ∈ ps, Word p.1.name) → Meth.kwargsName (texts ps) = dictOf ps
  | [], _ => rfl
  | (p, d) :: ps, h => by
    have hp := h (p, d) (by simp)
    have ih := kwargs_texts fun q hq => h q (List.mem_cons_of_mem _ hq)
    show Meth.kwargsName ((p.text, d) :: texts ps) = _
    rw [Meth.kwargsName, strip_text hp]
    cases p with
    | plain w => rw [if_neg (by simp only [Param.text]; rw [(starts_star (w := w) hp).2]; simp)]; exact ih
    | star w =>
      have : startsWith (Param.star w).text c!"**" = false := by
        have := (starts_star (w := w) hp).1
        simpa [Param.text, startsWith, stripPrefix?] using this
      rw [if_neg (by rw [this]; simp)]; exact ih
    | dict w =>
      have hne : w ≠ [] := by rintro rfl; obtain ⟨c, r, e, _⟩ := hp; cases e
      rw [if_pos (by simp [Param.text, startsWith, stripPrefix?])]
      show (if w = [] then none else some w) = some w
      rw [if_neg hne]

theorem starred_texts : ∀ {ps : List (Param × Option Str)}, (∀ p ∈ ps, Word p.1.name) → (((dictOf ps).isSome || Meth.hasStar (texts ps)) = true ↔ ∃ p ∈ ps, ∀ w, p.1 ≠ .plain w)
  | [], _ => by simp [dictOf, texts, Meth.hasStar]
  | (p, d) :: ps, h => by
    have hp := h (p, d) (by simp)
    have ih := starred_texts fun q hq => h q (List.mem_cons_of_mem _ hq)
    show ((dictOf ((p, d) :: ps)).isSome || Meth.hasStar ((p.text, d) :: texts ps)) = true ↔ _
    rw [Meth.hasStar, strip_text hp]
    cases p with
    | plain w =>
      rw [if_neg (by simp only [Param.text]; rw [(starts_star (w := w) hp).2]; simp), show (Param.plain w).text = w from rfl, (starts_star (w := w) hp).1, Bool.false_and, Bool.false_or]
      refine ih.trans ?_
      simp
    | star w =>
      have h1 : startsWith (Param.star w).text c!"**" = false := by
        have := (starts_star (w := w) hp).1
        simpa [Param.text, startsWith, stripPrefix?] using this
      have hne : w ≠ [] := by rintro rfl; obtain ⟨c, r, e, _⟩ := hp; cases e
      have h2 : startsWith (Param.star w).text c!"*" = true := by simp [Param.text, startsWith, stripPrefix?]
      rw [if_neg (by rw [h1]; simp), h2]
      simp [Param.text, hne]
    | dict w => simp [dictOf]

/-- Parameters with stars, as a question. -/
theorem starred_iff {ps : List (Param × Option Str)} : (∃ p ∈ ps, ∀ w, p.1 ≠ .plain w) ↔ Starred ps := by
  constructor
  · rintro ⟨⟨p, d⟩, h1, h2⟩
    cases p with
    | plain w => exact absurd rfl (h2 w)
    | star w => exact ⟨w, d, .inl h1⟩
    | dict w => exact ⟨w, d, .inr h1⟩
  · rintro ⟨w, d, h | h⟩
    · exact ⟨_, h, by simp⟩
    · exact ⟨_, h, by simp⟩

theorem any_texts {ps : List (Param × Option Str)} {n : Str} (hn : Word n) :
    ((texts ps).any fun a => a.1 = n) = true ↔ ∃ d, (Param.plain n, d) ∈ ps := by
  simp only [List.any_eq_true, decide_eq_true_eq, texts, List.mem_map, Prod.exists]
  constructor
  · rintro ⟨_, _, ⟨p, d, hp, e⟩, rfl⟩
    obtain ⟨e1, e2⟩ := Prod.mk.inj e
    cases p with
    | plain w => exact ⟨d, by rw [← e1]; exact hp⟩
    | star w => exact absurd e1.symm (no_star hn w)
    | dict w => exact absurd e1.symm (no_star hn _)
  · rintro ⟨d, hd⟩
    exact ⟨n, d, ⟨_, _, hd, rfl⟩, rfl⟩

theorem uses_texts {cf : Cf} (hu : EndToEnd.Usual cf) {m : Meth} {ps : List (Param × Option Str)} (ha : m.args = texts ps) :
    m.usesKws cf = true ↔ ¬ Given m.name ps := by
  have ht : Word c!"trans" := word_of_ascii _ _ _ rfl (by decide) (by decide)
  have := any_texts (ps := ps) ht
  unfold Meth.usesKws Given
  rw [ha, hu.kws, ← this, not_or, Bool.not_eq_true, Bool.and_true, Bool.and_eq_true, decide_eq_true_eq, Bool.not_eq_true']

theorem texts_snoc (ps : List (Param × Option Str)) (p : Param) (d : Option Str) : texts ps ++ [(p.text, d)] = texts (ps ++ [(p, d)]) := by simp [texts]

theorem dictOf_snoc : ∀ (ps : List (Param × Option Str)) (w : Str) (d : Option Str), dictOf ps = none → dictOf (ps ++ [(.dict w, d)]) = some w
  | [], _, _, _ => rfl
  | (.plain _, _) :: ps, w, d, h => dictOf_snoc ps w d h
  | (.star _, _) :: ps, w, d, h => dictOf_snoc ps w d h

open Classical in
/-- The set-up, as the compiler chooses it. -/
theorem sealed_setup {cf : Cf} (hu : EndToEnd.Usual cf) {m : Meth} {ps : List (Param × Option Str)} (h : ∀ p ∈ ps, Word p.1.name) (ha : m.args = texts ps) :
    ∃ M : Meth, M.args = texts (ps ++ extra m.name ps) ∧ M.name = m.name ∧ M.decorators = m.decorators ∧
    (m.sealed cf).args = M.args ∧ (m.sealed cf).chunks = M.setupLines cf (dictOf (ps ++ extra m.name ps)) (decide (¬ (Given m.name ps ∧ Starred ps))) ++
      (m.chunks ++ if m.generator then [] else [(cf.initLev, Meth.stopLine)]) := by
  have hk := kwargs_texts h
  have hs := (starred_texts h).trans starred_iff
  have hg := uses_texts hu ha
  unfold Meth.sealed
  rw [ha, hk]
  by_cases g : Given m.name ps
  · have g' : m.usesKws cf = false := by cases e : m.usesKws cf with | false => rfl | true => exact absurd g (hg.1 e)
    by_cases st : Starred ps
    · have st' := hs.2 st
      refine ⟨m, ?_⟩
      simp only [g', Bool.and_false, Bool.false_eq_true, if_false, Bool.not_false, Bool.true_and, ha, st', Bool.not_true, extra, g, st, if_true, List.append_nil, and_self, not_true, decide_false]
      simp
    · have st' : ((dictOf ps).isSome || Meth.hasStar (texts ps)) = false := by
        cases e : ((dictOf ps).isSome || Meth.hasStar (texts ps)) with
        | false => rfl
        | true => exact absurd (hs.1 e) st
      have d0 : dictOf ps = none := by
        rw [Bool.or_eq_false_iff] at st'
        simpa using st'.1
      have hap : ∀ (ps : List (Param × Option Str)), dictOf (ps ++ [(.plain c!"trans", some c!"None")]) = dictOf ps := by
        intro ps
        induction ps with
        | nil => rfl
        | cons p ps ih => obtain ⟨p, d⟩ := p; cases p <;> first | exact ih | rfl
      refine ⟨{ m with args := m.args ++ [(c!"trans", some c!"None")] }, ?_⟩
      simp only [g', Bool.and_false, Bool.false_eq_true, if_false, Bool.not_false, Bool.true_and, ha, st', extra, g, st, if_true, and_false, not_false_eq_true, decide_true, hap]
      exact ⟨texts_snoc ps (.plain c!"trans") _, trivial, trivial, by simp⟩
  · have g' : m.usesKws cf = true := hg.2 g
    cases hd : dictOf ps with
    | some k =>
      refine ⟨m, ?_⟩
      simp only [g', Option.isNone_some, Bool.false_and, Bool.false_eq_true, if_false, Bool.not_true, extra, g, hd, Option.isSome_some, if_true, List.append_nil, ha, false_and, not_false_eq_true,
        decide_true]
      simp
    | none =>
      have hg2 : ∀ M : Meth, M.name = m.name → M.args = m.args ++ [(c!"**KWS", none)] → M.usesKws cf = true := by
        intro M h1 h2
        unfold Meth.usesKws at g' ⊢
        rw [h1, h2, List.any_append]
        simpa using g'
      refine ⟨{ m with args := m.args ++ [(c!"**KWS", none)] }, ?_⟩
      have g2 := hg2 { m with args := m.args ++ [(c!"**KWS", none)] } rfl rfl
      rw [ha] at g2
      simp only [g', g2, Option.isNone_none, Bool.and_self, if_true, Bool.not_true, Bool.false_and, Bool.false_eq_true, if_false, extra, g, hd, Option.isSome_none, false_and, not_false_eq_true,
        decide_true, ha, Bool.not_false, dictOf_snoc ps c!"KWS" none hd]
      exact ⟨texts_snoc ps (.dict c!"KWS") _, trivial, trivial, by simp⟩

theorem mem_extra {name : Str} {ps : List (Param × Option Str)} {w : Str} (hw : w ≠ c!"trans") :
    (∃ d, (Param.plain w, d) ∈ ps ++ extra name ps) ↔ ∃ d, (Param.plain w, d) ∈ ps := by
  unfold extra
  split_ifs <;> simp [hw]

theorem given_extra {name : Str} {ps : List (Param × Option Str)} : Given name (ps ++ extra name ps) ↔ Given name ps := by
  by_cases g : Given name ps
  · refine iff_of_true ?_ g
    rcases g with g | ⟨d, g⟩
    · exact .inl g
    · exact .inr ⟨d, List.mem_append_left _ g⟩
  · unfold extra
    rw [if_neg g]
    split_ifs
    · simp
    · simp [Given]

theorem dict_extra {name : Str} {ps : List (Param × Option Str)} (g : ¬ Given name ps) : dictOf (ps ++ extra name ps) = some ((dictOf ps).getD c!"KWS") := by
  unfold extra
  rw [if_neg g]
  cases h : dictOf ps with
  | some k => simp [h]
  | none =>
    rw [if_neg (by simp)]
    exact dictOf_snoc ps _ _ h

theorem extra_word {name : Str} {ps : List (Param × Option Str)} (h : ∀ p ∈ ps, Word p.1.name) : ∀ p ∈ ps ++ extra name ps, Word p.1.name := by
  have ht : Word c!"trans" := word_of_ascii _ _ _ rfl (by decide) (by decide)
  have hk : Word c!"KWS" := word_of_ascii _ _ _ rfl (by decide) (by decide)
  intro p hp
  rcases List.mem_append.1 hp with hp | hp
  · exact h p hp
  · unfold extra at hp
    split_ifs at hp
    · simp at hp
    · rw [List.mem_singleton.1 hp]; exact ht
    · simp at hp
    · rw [List.mem_singleton.1 hp]; exact hk

open Classical in
theorem setup_lines {cf : Cf} (hu : EndToEnd.Usual cf) (hs : cf.searchListAsArg = true) {m : Meth} {ps : List (Param × Option Str)}
    (ha : m.args = texts (ps ++ extra m.name ps)) :
    m.setupLines cf (dictOf (ps ++ extra m.name ps)) (decide (¬ (Given m.name ps ∧ Starred ps))) = at_ cf.initLev (setup (Instance m) m.name ps) := by
  have w1 : Word c!"SL" := word_of_ascii _ _ _ rfl (by decide) (by decide)
  have w2 : Word c!"searchList" := word_of_ascii _ _ _ rfl (by decide) (by decide)
  have a1 := (any_texts (ps := ps ++ extra m.name ps) w1).trans (mem_extra (by decide))
  have a2 := (any_texts (ps := ps ++ extra m.name ps) w2).trans (mem_extra (by decide))
  have hg := (uses_texts hu ha).trans (not_congr given_extra)
  have hb : (!(m.decorators.any fun d => d = c!"@classmethod" || d = c!"@staticmethod")) = true ↔ Instance m := by
    unfold Instance
    simp only [Bool.not_eq_true', List.any_eq_false, Bool.or_eq_true, decide_eq_true_eq, not_or]
    exact ⟨fun h => ⟨fun k => (h _ k).1 rfl, fun k => (h _ k).2 rfl⟩, fun h d hd => ⟨fun e => h.1 (e ▸ hd), fun e => h.2 (e ▸ hd)⟩⟩
  unfold Meth.setupLines setup at_
  rw [ha, hu.filters, hu.mapper, hs]
  simp only [Bool.true_and, if_true, Bool.and_eq_true, decide_eq_true_eq, a1, a2, hb, hg, List.map_append]
  congr 1
  · congr 1
    · congr 1
      unfold transaction
      by_cases b : Instance m
      · by_cases g : Given m.name ps
        · by_cases st : Starred ps
          · simp [b, g, st, own]
          · simp [b, g, st, seek]
        · simp [b, g, dict_extra g, seek]
      · simp [b, own]
    · unfold search
      split_ifs <;> rfl
  · unfold filterLine
    split_ifs <;> rfl

theorem commit_same {cf : Cf} {m : Meth} : (m.commit cf).args = m.args ∧ (m.commit cf).name = m.name ∧ (m.commit cf).decorators = m.decorators ∧ (m.commit cf).generator = m.generator := by
  unfold Meth.commit
  split_ifs <;> simp

/-! ### The property -/

/-- C83: the parameters of a finished method are those of its definition and, behind them, what the compiler adds. -/
theorem C83_parameters {cf : Cf} (hu : EndToEnd.Usual cf) {m M : Meth} (h1 : m.cache = []) (h2 : m.calls = []) {ps : List (Param × Option Str)}
    (h : ∀ p ∈ ps, Word p.1.name) (ha : m.args = texts ps) (hM : m.finish cf = .ok M) : M.args = texts (ps ++ extra m.name ps) := by
  rw [finish_ok h1 h2] at hM
  injection hM with hM
  subst hM
  obtain ⟨c1, c2, c3, c4⟩ := commit_same (cf := cf) (m := m)
  obtain ⟨M', e1, e2, e3, e4, e5⟩ := sealed_setup hu (m := m.commit cf) h (c1.trans ha)
  rw [e4, e1, c2]

/-- C83: the lines of a finished method are those that set it up, those of its body and, unless it yields, the one that returns the text. -/
theorem C83_lines {cf : Cf} (hu : EndToEnd.Usual cf) (hs : cf.searchListAsArg = true) {m M : Meth} (h1 : m.cache = []) (h2 : m.calls = [])
    {ps : List (Param × Option Str)} (h : ∀ p ∈ ps, Word p.1.name) (ha : m.args = texts ps) (hM : m.finish cf = .ok M) :
    M.chunks = at_ cf.initLev (setup (Instance m) m.name ps) ++ (m.commit cf).chunks ++
      if m.generator then [] else [(cf.initLev, c!"return _dummyTrans and trans.response().getvalue() or \"\"")] := by
  rw [finish_ok h1 h2] at hM
  injection hM with hM
  subst hM
  obtain ⟨c1, c2, c3, c4⟩ := commit_same (cf := cf) (m := m)
  obtain ⟨M', e1, e2, e3, e4, e5⟩ := sealed_setup hu (m := m.commit cf) h (c1.trans ha)
  rw [c2] at e1 e5
  rw [e5, show m.name = M'.name by rw [e2, c2], setup_lines hu hs (by rw [e1, e2, c2]), c4, e2, c2, ← List.append_assoc]
  have : Instance M' ↔ Instance m := by unfold Instance; rw [e3, c3]
  rw [propext this]
  rfl

/-- C83: a class method or a static method reads nothing of an object in these lines: none of them mentions `self`. -/
theorem C83_static (name : Str) (ps : List (Param × Option Str)) : ∀ l ∈ setup False name ps, ¬ c!"self" <:+: l.2 := by
  have : ∀ l ∈ setup False name ps, l ∈ [(0, c!"trans = DummyTransaction()"), (0, c!"_dummyTrans = True"),
      (0, c!"write = trans.response().write"), (0, c!"SL = searchList"), (0, c!"SL = [KWS]"), (0, c!"_filter = lambda x, **kwargs: unicode(x)")] := by
    intro l hl
    unfold setup transaction search filterLine own at hl
    split_ifs at hl <;> simp at hl ⊢ <;> tauto
  intro l hl
  have := this l hl
  clear hl
  revert l
  clear * -
  decide +kernel

/-- C83: a class method or a static method always makes a transaction of its own, and so returns its text wherever it is called. -/
theorem C83_static_text (name : Str) (ps : List (Param × Option Str)) :
    ∃ rest, setup False name ps = (0, c!"trans = DummyTransaction()") :: (0, c!"_dummyTrans = True") :: (0, c!"write = trans.response().write") :: rest :=
  ⟨search False ps ++ filterLine False, by simp [setup, transaction, own]⟩

/-- C83: the dictionary that the lines read is a parameter of the method, whatever the name of the method and its parameters. -/
theorem C83_dictionary {name : Str} {ps : List (Param × Option Str)} (g : ¬ Given name ps) : ∃ d, (Param.dict ((dictOf ps).getD c!"KWS"), d) ∈ ps ++ extra name ps := by
  have h := dict_extra g
  generalize ps ++ extra name ps = qs at h
  generalize (dictOf ps).getD c!"KWS" = k at h
  induction qs with
  | nil => cases h
  | cons q qs ih =>
    obtain ⟨q, d⟩ := q
    cases q with
    | dict w => injection h with h; subst h; exact ⟨d, by simp⟩
    | plain w => obtain ⟨d, hd⟩ := ih h; exact ⟨d, List.mem_cons_of_mem _ hd⟩
    | star w => obtain ⟨d, hd⟩ := ih h; exact ⟨d, List.mem_cons_of_mem _ hd⟩

/-- C83: the names of a class method or a static method without a dictionary of its own are looked up in a parameter that it has. -/
theorem C83_static_names_partial {name : Str} {ps : List (Param × Option Str)} (g : ¬ Given name ps) (hd : dictOf ps = none)
    (h1 : ∀ d, (Param.plain c!"SL", d) ∉ ps) (h2 : ∀ d, (Param.plain c!"searchList", d) ∉ ps) :
    (0, c!"SL = [KWS]") ∈ setup False name ps ∧ (Param.dict c!"KWS", none) ∈ ps ++ extra name ps := by
  refine ⟨?_, ?_⟩
  · unfold setup search
    rw [if_neg (by simpa using h1), if_neg (by simpa using h2), if_neg id]
    simp
  · unfold extra
    rw [if_neg g, hd, if_neg (by simp)]
    simp

/-- With a dictionary of its own, or with a parameter `trans`, such a method looks its names up in `KWS` although it has no such parameter:
every placeholder in it then ends in a `NameError`. -/
theorem C83_static_names_counterexample {name : Str} {ps : List (Param × Option Str)} (hd : Given name ps ∨ (dictOf ps).isSome)
    (hk : ∀ p ∈ ps, p.1.name ≠ c!"KWS") (h1 : ∀ d, (Param.plain c!"SL", d) ∉ ps) (h2 : ∀ d, (Param.plain c!"searchList", d) ∉ ps) :
    (0, c!"SL = [KWS]") ∈ setup False name ps ∧ ∀ p ∈ ps ++ extra name ps, p.1.name ≠ c!"KWS" := by
  refine ⟨?_, ?_⟩
  · unfold setup search
    rw [if_neg (by simpa using h1), if_neg (by simpa using h2), if_neg id]
    simp
  · intro p hp
    rcases List.mem_append.1 hp with hp | hp
    · exact hk p hp
    · unfold extra at hp
      by_cases g : Given name ps
      · rw [if_pos g] at hp
        split_ifs at hp
        · simp at hp
        · rw [List.mem_singleton.1 hp]; decide
      · rw [if_neg g, if_pos (hd.resolve_left g)] at hp
        simp at hp

/-- A parameter in the line `def …(…):`. -/
def shown (p : Param × Option Str) : Str := p.1.text ++ match p.2 with
  | some d => c!"=" ++ d
  | none => []

theorem text_self {ps : List (Param × Option Str)} (h : ∀ d, (Param.plain c!"self", d) ∉ ps) : ∀ p ∈ ps, p.1.text ≠ c!"self" := by
  rintro ⟨p, d⟩ hp
  cases p with
  | plain w => intro e; exact h d (by rw [← show w = c!"self" from e]; exact hp)
  | star w => intro e; injection e with e _; exact absurd e (by decide)
  | dict w => intro e; injection e with e _; exact absurd e (by decide)

theorem argTexts_cons {m : Meth} {a : Str} {d : Option Str} {as : List (Str × Option Str)} (h : m.args = (a, d) :: as) :
    ClassBody.argTexts m = (if a = c!"self" then (if c!"@classmethod" ∈ m.decorators then [c!"cls" ++ (d.map (c!"=" ++ ·)).getD []] else
      if c!"@staticmethod" ∈ m.decorators then [] else [c!"self" ++ (d.map (c!"=" ++ ·)).getD []])
      else [a ++ (d.map (c!"=" ++ ·)).getD []]) ++ ClassBody.argTexts { m with args := as } := by
  unfold ClassBody.argTexts
  rw [h]
  by_cases h1 : a = c!"self" <;> by_cases h2 : c!"@classmethod" ∈ m.decorators <;> by_cases h3 : c!"@staticmethod" ∈ m.decorators <;> cases d <;> simp [h1, h2, h3]

theorem argTexts_rest : ∀ (ps : List (Param × Option Str)) (m : Meth), (∀ p ∈ ps, p.1.text ≠ c!"self") → m.args = texts ps → ClassBody.argTexts m = ps.map shown
  | [], m, _, ha => by unfold ClassBody.argTexts; rw [ha]; rfl
  | (p, d) :: ps, m, h, ha => by
    rw [argTexts_cons (a := p.text) (d := d) (as := texts ps) ha, argTexts_rest ps { m with args := texts ps } (fun q hq => h q (List.mem_cons_of_mem _ hq)) rfl,
      if_neg (h (p, d) (by simp))]
    cases d <;> simp [shown]

/-- C83: the `def` line of a method has the decorators above it and the parameters in their order.  The object is the first of them, a class
method has `cls` for it, and a static method does not have it. -/
theorem C83_signature {m : Meth} {ps : List (Param × Option Str)} (hp : ∀ d, (Param.plain c!"self", d) ∉ ps) (ha : m.args = texts ((.plain c!"self", none) :: ps)) :
    (c!"@classmethod" ∈ m.decorators → ClassBody.signature m = m.decorators.map (1, ·) ++ [(1, c!"def " ++ m.name ++ c!"(" ++ joinStr c!", " (c!"cls" :: ps.map shown) ++ c!"):")]) ∧
    (c!"@classmethod" ∉ m.decorators → c!"@staticmethod" ∈ m.decorators →
      ClassBody.signature m = m.decorators.map (1, ·) ++ [(1, c!"def " ++ m.name ++ c!"(" ++ joinStr c!", " (ps.map shown) ++ c!"):")]) ∧
    (Instance m → ClassBody.signature m = m.decorators.map (1, ·) ++ [(1, c!"def " ++ m.name ++ c!"(" ++ joinStr c!", " (c!"self" :: ps.map shown) ++ c!"):")]) := by
  have key := argTexts_rest ps { m with args := texts ps } (text_self hp) rfl
  have h0 := argTexts_cons (m := m) (a := c!"self") (d := none) (as := texts ps) ha
  rw [key, if_pos rfl] at h0
  unfold ClassBody.signature
  rw [h0]
  refine ⟨fun h => ?_, fun h1 h2 => ?_, fun h => ?_⟩
  · rw [if_pos h]; rfl
  · rw [if_neg h1, if_pos h2]; rfl
  · rw [if_neg h.1, if_neg h.2]; rfl

/-! ### Cases -/

/-- What is generated from a source: the parameters and the lines of its first method. -/
def first (src : Str) : Option (List (Str × Option Str) × List (Nat × Str)) := ((EndToEnd.methodsOf src).bind List.head?).map fun m => (m.2.1, m.2.2)

-- A static method with a dictionary of its own: `SL = [KWS]`, and no `KWS`.
example : first c!"#@staticmethod\n#def f($x, **kw)\n$x\n#end def\n" = some ([(c!"self", none), (c!"x", none), (c!"**kw", none)],
    [(2, c!"trans = DummyTransaction()"), (2, c!"_dummyTrans = True"), (2, c!"write = trans.response().write"),
      (2, c!"SL = [KWS]"), (2, c!"_filter = lambda x, **kwargs: unicode(x)"), (2, c!"_v = VFFSL(SL,\"x\",True)"),
      (2, c!"if _v is not None: write(_filter(_v, rawExpr='$x'))"), (2, c!"write('''\n''')"),
      (2, c!"return _dummyTrans and trans.response().getvalue() or \"\"")]) := by decide +kernel

-- A method of the object with one: the transaction is looked up there.
example : (first c!"#def f($x, **kw)\n$x\n#end def\n").map (fun p => (p.1, p.2.take 3)) = some ([(c!"self", none), (c!"x", none), (c!"**kw", none)],
    [(2, c!"trans = kw.get(\"trans\")"), (2, c!"if (not trans and not self._CHEETAH__isBuffering and not callable(self.transaction)):"), (3, c!"trans = self.transaction")]) := by
  decide +kernel

-- The theorems apply to such methods.
example : ∃ m : Meth, m.cache = [] ∧ m.calls = [] ∧ m.decorators = [c!"@staticmethod"] ∧ m.args = texts [(.plain c!"self", none), (.plain c!"x", some c!"1"), (.star c!"as", none)] ∧
    (∀ p ∈ [(Param.plain c!"self", (none : Option Str)), (.plain c!"x", some c!"1"), (.star c!"as", none)], Word p.1.name) ∧
    (∃ M, m.finish Driver.demoCf = .ok M) ∧ ¬ Given m.name [(.plain c!"self", none), (.plain c!"x", some c!"1"), (.star c!"as", none)] := by
  refine ⟨{ uid := 0, name := c!"f", lev := 2, decorators := [c!"@staticmethod"], args := texts [(.plain c!"self", none), (.plain c!"x", some c!"1"), (.star c!"as", none)] },
    rfl, rfl, rfl, rfl, ?_, ⟨_, finish_ok rfl rfl⟩, ?_⟩
  · intro p hp
    simp only [List.mem_cons, List.not_mem_nil, or_false] at hp
    rcases hp with rfl | rfl | rfl <;> exact word_of_ascii _ _ _ rfl (by decide) (by decide)
  · rintro (h | ⟨d, h⟩)
    · exact absurd h (by decide)
    · simp at h

example : EndToEnd.Usual Driver.demoCf ∧ Driver.demoCf.searchListAsArg = true := ⟨⟨rfl, rfl, rfl, rfl, rfl, rfl⟩, rfl⟩

end Cheetah.Setup
