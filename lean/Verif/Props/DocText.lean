import Verif.DocText
import Verif.Props.StrConst
/-
C76: comments and documentation never become code.
-/
namespace Cheetah.Doc
open Cheetah.StrConst

/-! ### Specification -/

/-- A Python comment on a line of its own. -/
def Remark (l : Str) : Prop := l.head? = some '#' ∧ '\n' ∉ l ∧ '\r' ∉ l

/-- Where a literal in three double quotes ends, for a source text after the opening quotes: what follows
the first three quotes; a backslash takes the next character with it. -/
def closes : Str → Option Str
  | [] => none
  | '\\' :: _ :: s => closes s
  | '"' :: '"' :: '"' :: s => some s
  | _ :: s => closes s

/-- A text that is one string literal and a line end, indented by `ind`. -/
def OneLiteral (ind text : Str) : Prop := ∃ t, text = ind ++ c!"\"\"\"" ++ t ∧ closes t = some ['\n']

/-- Reading a literal in single or double quotes: its value and what follows. -/
def lexShort (q : Char) : Nat → Str → Option (Str × Str)
  | 0, _ => none
  | _ + 1, [] => none
  | fuel + 1, c :: s =>
    if c = q then some ([], s)
    else if c = '\n' ∨ c = '\r' ∨ c.toNat = 0 then none
    else if c = '\\' then match escape s with
      | .char out rest => (lexShort q fuel rest).map fun (v, r) => (out ++ v, r)
      | _ => none
    else (lexShort q fuel s).map fun (v, r) => (c :: v, r)

/-- The value of a literal at the start of a text, and what follows it. -/
def literalAt : Str → Option (Str × Str)
  | [] => none
  | q :: s => if q = '\'' ∨ q = '"' then lexShort q (s.length + 1) s else none

/-- Only blanks. -/
def Blank (s : Str) : Prop := ∀ c ∈ s, c = ' ' ∨ c = '\t'

/-- What a sequence of comments leaves behind. -/
def after (offset : Nat) (comms : List Str) : Docs := comms.foldl (fun d c => addComment offset c d) {}

/-- The lines the comments that begin with one of some words say. -/
def written (words : List Str) (comms : List Str) : List Str :=
  comms.flatMap fun c => match words.findSome? fun w => stripPrefix? w c with
    | some text => Indent.splitlines (strip text)
    | none => []

/-- Each percent sign twice. -/
def twice (s : Str) : Str := s.flatMap fun c => if c = '%' then c!"%%" else [c]

/-! ### Lines have no line ends -/

theorem splitlines_no_eol (s : Str) : ∀ l ∈ Indent.splitlines s, '\n' ∉ l ∧ '\r' ∉ l := by
  fun_induction Indent.splitlines s with
  | case1 => simp
  | case2 c h => simp
  | case3 c h =>
    intro l hl
    simp at hl; subst hl
    constructor <;> (simp; rintro rfl; exact h (by decide))
  | case4 c d s h ih =>
    intro l hl
    simp at hl
    rcases hl with rfl | hl
    · simp
    · exact ih l hl
  | case5 c d s h1 h2 ih =>
    intro l hl
    simp at hl
    rcases hl with rfl | hl
    · simp
    · exact ih l hl
  | case6 c d s h1 h2 ih =>
    have hc1 : c ≠ '\n' := by rintro rfl; exact h2 (by decide)
    have hc2 : c ≠ '\r' := by rintro rfl; exact h2 (by decide)
    intro l hl
    cases hs : Indent.splitlines (d :: s) with
    | nil =>
      rw [hs] at hl
      simp [Indent.consLine] at hl; subst hl
      simp [Ne.symm hc1, Ne.symm hc2]
    | cons x xs =>
      rw [hs] at hl ih
      simp [Indent.consLine] at hl
      rcases hl with rfl | hl
      · have := ih x (by simp)
        simp [Ne.symm hc1, Ne.symm hc2, this]
      · exact ih l (by simp [hl])

theorem double_no_eol {l : Str} (h : '\n' ∉ l ∧ '\r' ∉ l) : '\n' ∉ doublePercent l ∧ '\r' ∉ doublePercent l := by
  constructor
  · intro hm
    simp only [doublePercent, List.mem_flatMap] at hm
    obtain ⟨c, hc, hm⟩ := hm
    split at hm <;> simp at hm
    subst hm; exact h.1 hc
  · intro hm
    simp only [doublePercent, List.mem_flatMap] at hm
    obtain ⟨c, hc, hm⟩ := hm
    split at hm <;> simp at hm
    subst hm; exact h.2 hc

/-- No line holds a line end. -/
def Flat (ls : List Str) : Prop := ∀ l ∈ ls, '\n' ∉ l ∧ '\r' ∉ l

/-- What holds after every comment. -/
structure Inv (d : Docs) : Prop where
  header : Flat d.header
  moduleDoc : Flat d.moduleDoc
  classDoc : ∃ ls, d.classDoc = ls.map doublePercent ∧ Flat ls
  methDoc : ∃ ls, d.methDoc = ls.map doublePercent ∧ Flat ls
  lines : ∀ l ∈ d.lines, Remark l

theorem Flat.append {a b : List Str} (ha : Flat a) (hb : Flat b) : Flat (a ++ b) := by
  intro l hl
  rcases List.mem_append.1 hl with h | h
  · exact ha l h
  · exact hb l h

theorem addComment_inv (offset : Nat) (comm : Str) (d : Docs) (h : Inv d) : Inv (addComment offset comm d) := by
  have hs : ∀ s, Flat (Indent.splitlines s) := splitlines_no_eol
  obtain ⟨h1, h2, ⟨c, hc, hcf⟩, ⟨m, hm, hmf⟩, h5⟩ := h
  unfold addComment
  split
  · exact ⟨h1, h2, ⟨c, hc, hcf⟩, ⟨m, hm, hmf⟩, h5⟩
  · split
    · exact ⟨h1, h2, ⟨c, hc, hcf⟩, ⟨m, hm, hmf⟩, h5⟩
    · split
      next r _ => exact ⟨h1, h2, ⟨c, hc, hcf⟩, ⟨m ++ Indent.splitlines (strip r), by simp [hm], hmf.append (hs _)⟩, h5⟩
      · split
        next r _ => exact ⟨h1, h2, ⟨c, hc, hcf⟩, ⟨m ++ Indent.splitlines (strip r), by simp [hm], hmf.append (hs _)⟩, h5⟩
        · split
          · exact ⟨h1, h2.append (hs _), ⟨c, hc, hcf⟩, ⟨m, hm, hmf⟩, h5⟩
          · split
            next r _ => exact ⟨h1, h2, ⟨c ++ Indent.splitlines (strip r), by simp [hc], hcf.append (hs _)⟩, ⟨m, hm, hmf⟩, h5⟩
            · split
              · exact ⟨h1.append (hs _), h2, ⟨c, hc, hcf⟩, ⟨m, hm, hmf⟩, h5⟩
              · refine ⟨h1, h2, ⟨c, hc, hcf⟩, ⟨m, hm, hmf⟩, ?_⟩
                intro l hl
                rcases List.mem_append.1 hl with hl | hl
                · exact h5 l hl
                · simp only [List.mem_map] at hl
                  obtain ⟨x, hx, rfl⟩ := hl
                  have := hs comm x hx
                  exact ⟨rfl, by simp [this], by simp [this]⟩

theorem after_inv (offset : Nat) (comms : List Str) : Inv (after offset comms) := by
  have key : ∀ (comms : List Str) (d : Docs), Inv d → Inv (comms.foldl (fun d c => addComment offset c d) d) := by
    intro comms
    induction comms with
    | nil => intro d h; exact h
    | cons c cs ih => intro d h; exact ih _ (addComment_inv offset c d h)
  apply key
  exact ⟨by simp [Flat], by simp [Flat], ⟨[], rfl, by simp [Flat]⟩, ⟨[], rfl, by simp [Flat]⟩, by simp⟩

/-! ### Literals -/

/-- Three double quotes in a row. -/
def Quotes (s : Str) : Prop := c!"\"\"\"" <:+: s

theorem closes_plain (t rest : Str) (hq : ¬ Quotes t) (he : t = [] ∨ ∃ u c, t = u ++ [c] ∧ c ≠ '\\' ∧ c ≠ '"') :
    closes (t ++ '"' :: '"' :: '"' :: rest) = some rest := by
  generalize hn : t.length = n
  induction n using Nat.strongRecOn generalizing t with
  | _ n ih =>
    cases t with
    | nil => rfl
    | cons c s =>
      have hs : ¬ Quotes s := fun ⟨a, b, h⟩ => hq ⟨c :: a, b, by simp [← h]⟩
      have hes : s = [] ∨ ∃ u c, s = u ++ [c] ∧ c ≠ '\\' ∧ c ≠ '"' := by
        rcases he with h | ⟨u, d, h, hd⟩
        · cases h
        · cases u with
          | nil => left; simpa using (List.cons.inj h).2
          | cons x u => right; exact ⟨u, d, (List.cons.inj h).2, hd⟩
      by_cases hb : c = '\\'
      · subst hb
        cases s with
        | nil =>
          exfalso
          rcases he with h | ⟨u, d, h, hd, _⟩
          · cases h
          · cases u with
            | nil => simp at h; exact hd h.symm
            | cons x u => simp at h
        | cons d s' =>
          have hs' : ¬ Quotes s' := fun ⟨a, b, h⟩ => hs ⟨d :: a, b, by simp [← h]⟩
          have hes' : s' = [] ∨ ∃ u c, s' = u ++ [c] ∧ c ≠ '\\' ∧ c ≠ '"' := by
            rcases hes with h | ⟨u, e, h, he'⟩
            · cases h
            · cases u with
              | nil => left; simpa using (List.cons.inj h).2
              | cons x u => right; exact ⟨u, e, (List.cons.inj h).2, he'⟩
          show closes ('\\' :: d :: (s' ++ _)) = _
          rw [closes]
          exact ih s'.length (by simp at hn; omega) s' hs' hes' rfl
      · show closes (c :: (s ++ _)) = _
        rw [closes.eq_4]
        · exact ih s.length (by simp at hn; omega) s hs hes rfl
        · intro x y hx hy; exact hb hx
        · intro y hc hy
          subst hc
          -- three quotes at the start: within `s`, or across its end
          cases s with
          | nil =>
            rcases he with h | ⟨u, d, h, _, hd⟩
            · cases h
            · cases u with
              | nil => simp at h; exact hd h.symm
              | cons x u => simp at h
          | cons a s1 =>
            cases s1 with
            | nil =>
              simp at hy
              rcases hes with h | ⟨u, d, h, _, hd⟩
              · cases h
              · cases u with
                | nil => simp at h; rw [← h] at hd; exact hd hy.1
                | cons x u => simp at h
            | cons b s2 =>
              simp at hy
              obtain ⟨rfl, rfl, _⟩ := hy
              exact hq ⟨[], s2, rfl⟩

theorem quotes_append {a b : Str} (ha : ¬ Quotes a) (hb : ¬ Quotes b) (c : Char) (hc : c ≠ '"') : ¬ Quotes (a ++ c :: b) := by
  rintro ⟨x, y, h⟩
  induction x generalizing a with
  | nil =>
    match a, ha, h with
    | [], _, h => simp at h; exact hc h.1.symm
    | [p], _, h => simp at h; exact hc h.2.1.symm
    | [p, q], _, h => simp at h; exact hc h.2.2.1.symm
    | p :: q :: r :: a, ha, h => simp at h; exact ha ⟨[], a, by simp [← h.1, ← h.2.1, ← h.2.2.1]⟩
  | cons d x ih =>
    cases a with
    | nil =>
      simp at h
      exact hb ⟨x, y, by simpa using h.2⟩
    | cons e a =>
      simp at h
      exact ih (a := a) (fun ⟨p, q, hh⟩ => ha ⟨e :: p, q, by simp [← hh]⟩) (by simpa using h.2)

theorem quotes_blank {s : Str} (h : Blank s) : ¬ Quotes s := by
  rintro ⟨x, y, rfl⟩
  have := h '"' (by simp)
  revert this; decide

theorem quotes_blank_append {a b : Str} (ha : Blank a) (hb : ¬ Quotes b) : ¬ Quotes (a ++ b) := by
  cases List.eq_nil_or_concat a with
  | inl h => rw [h]; exact hb
  | inr h =>
    obtain ⟨u, c, rfl⟩ := h
    rw [List.concat_eq_append, List.append_assoc]
    apply quotes_append (quotes_blank fun x hx => ha x (by simp [hx])) hb
    rintro rfl
    have := ha '"' (by simp)
    revert this; decide

theorem quotes_join (ind : Str) (hi : Blank ind) (ls : List Str) (h : ∀ l ∈ ls, ¬ Quotes l) :
    ¬ Quotes (joinWith ('\n' :: ind) ls) := by
  induction ls with
  | nil => rintro ⟨x, y, h⟩; simp [joinWith] at h
  | cons l ls ih =>
    cases ls with
    | nil => exact h l (by simp)
    | cons m ls =>
      rw [joinWith, List.append_assoc, List.cons_append]
      apply quotes_append (h l (by simp)) _ _ (by decide)
      exact quotes_blank_append hi (ih fun x hx => h x (by simp [hx]))

/-- A docstring written over several lines is one literal if none of the lines has three quotes. -/
theorem literal_of_lines (ind pre : Str) (hi : Blank ind) (hp : pre = [] ∨ pre = '\n' :: ind) (ls : List Str)
    (h : ∀ l ∈ ls, ¬ Quotes l) :
    closes (pre ++ joinWith ('\n' :: ind) ls ++ '\n' :: ind ++ c!"\"\"\"\n") = some ['\n'] := by
  have hj := quotes_join ind hi ls h
  have hq : ¬ Quotes (pre ++ joinWith ('\n' :: ind) ls) := by
    rcases hp with rfl | rfl
    · exact hj
    · exact quotes_append (a := []) (by rintro ⟨x, y, h⟩; simp at h) (quotes_blank_append hi hj) _ (by decide)
  refine closes_plain (pre ++ joinWith ('\n' :: ind) ls ++ '\n' :: ind) ['\n']
    (quotes_append hq (quotes_blank hi) _ (by decide)) (Or.inr ?_)
  cases List.eq_nil_or_concat ind with
  | inl h => exact ⟨_, '\n', by rw [h], by decide, by decide⟩
  | inr h =>
    obtain ⟨u, c, rfl⟩ := h
    refine ⟨pre ++ joinWith ('\n' :: u.concat c) ls ++ '\n' :: u, c, by simp, ?_, ?_⟩
    · rintro rfl
      have := hi '\\' (by simp)
      revert this; decide
    · rintro rfl
      have := hi '"' (by simp)
      revert this; decide

theorem quotes_replaced (s : Str) : ¬ Quotes (replaceStr c!"\"\"\"" c!"'''" s) := by
  have key : ∀ (n : Nat) (s : Str), s.length ≤ n → ¬ Quotes (replaceStrAux c!"\"\"\"" c!"'''" n s) := by
    intro n
    induction n with
    | zero =>
      intro s h
      obtain rfl : s = [] := List.length_eq_zero_iff.1 (by omega)
      rintro ⟨x, y, h⟩; simp [replaceStrAux] at h
    | succ n ih =>
      intro s h
      cases s with
      | nil => rintro ⟨x, y, h⟩; simp [replaceStrAux] at h
      | cons c cs =>
        rw [replaceStrAux]
        cases hs : stripPrefix? c!"\"\"\"" (c :: cs) with
        | some rest =>
          have hl := stripPrefix?_some.1 hs
          have hlen := congrArg List.length hl
          simp at hlen h
          show ¬ Quotes ('\'' :: '\'' :: '\'' :: replaceStrAux _ _ n rest)
          have hr := ih rest (by omega)
          have e : ∀ t, ¬ Quotes t → ¬ Quotes ('\'' :: t) := fun t ht =>
            quotes_append (a := []) (by rintro ⟨x, y, h⟩; simp at h) ht _ (by decide)
          exact e _ (e _ (e _ hr))
        | none =>
          simp at h
          show ¬ Quotes (c :: replaceStrAux _ _ n cs)
          have hr := ih cs (by omega)
          rintro ⟨x, y, hxy⟩
          cases x with
          | cons d x => exact hr ⟨x, y, by simpa using (List.cons.inj hxy).2⟩
          | nil =>
            simp at hxy
            obtain ⟨rfl, hxy⟩ := hxy
            -- the two following characters were there before
            have hback : ∀ (m : Nat) (t u : Str), replaceStrAux c!"\"\"\"" c!"'''" m t = '"' :: u →
                ∃ t', t = '"' :: t' ∧ (t.length ≤ m → u = replaceStrAux c!"\"\"\"" c!"'''" (m - 1) t') := by
              intro m t u htu
              cases m with
              | zero => rw [replaceStrAux] at htu; exact ⟨u, htu, fun hl => by rw [htu] at hl; simp at hl⟩
              | succ m =>
                cases t with
                | nil => simp [replaceStrAux] at htu
                | cons a t =>
                  rw [replaceStrAux] at htu
                  cases ha : stripPrefix? c!"\"\"\"" (a :: t) with
                  | some r => rw [ha] at htu; simp at htu
                  | none =>
                    rw [ha] at htu
                    simp at htu
                    exact ⟨t, by rw [htu.1], fun _ => by simp [htu.2]⟩
            obtain ⟨t1, h1, h1'⟩ := hback n cs _ hxy.symm
            obtain ⟨t2, h2, _⟩ := hback (n - 1) t1 _ (h1' (by omega)).symm
            rw [h1, h2] at hs
            simp [stripPrefix?] at hs
  exact key _ s (Nat.le_refl _)

/-! ### The theorems -/

/-- **C76, comments.** Whatever comments a template has, in whatever order, each of the lines they
add to the method is a Python comment. -/
theorem C76_comments_stay_comments (offset : Nat) (comms : List Str) :
    ∀ l ∈ (after offset comms).lines, Remark l := (after_inv offset comms).lines

/-- **C76, the header.** After the lines for the interpreter and the encoding, the header of the module
consists of Python comments. -/
theorem C76_header_is_comments (offset : Nat) (comms : List Str) (shBang encoding : Str) :
    ∃ ls : List Str, moduleHeader offset shBang encoding (after offset comms).header =
        shBang ++ c!"\n" ++ encoding ++ c!"\n" ++ ls.flatMap (· ++ c!"\n") ∧ ∀ l ∈ ls, Remark l := by
  have hf := (after_inv offset comms).header
  generalize (after offset comms).header = hs at hf
  refine ⟨hs.map fun l => '#' :: List.replicate offset ' ' ++ l, ?_, ?_⟩
  · unfold moduleHeader
    cases hs with
    | nil => rfl
    | cons h hs =>
      simp only [reduceCtorEq, if_false]
      congr 1
      clear hf
      induction hs generalizing h with
      | nil => simp [joinWith]
      | cons k hs ih =>
        rw [joinWith]
        have := ih k
        simp only [List.map_cons, List.flatMap_cons, List.append_assoc, List.cons_append, List.nil_append] at this ⊢
        rw [← this]
  · intro l hl
    simp only [List.mem_map] at hl
    obtain ⟨x, hx, rfl⟩ := hl
    have := hf x hx
    exact ⟨rfl, by simp [this], by simp [this]⟩

/-- **C76, documentation of methods.** Whatever the comments are, the docstring of the method, if there is
one, is one string literal. -/
theorem C76_method_doc_is_a_literal (offset : Nat) (comms : List Str) (step : Str) (hi : Blank step)
    (h : (after offset comms).methDoc ≠ []) :
    OneLiteral (step ++ step) (docString step (after offset comms).methDoc) := by
  have hi' : Blank (step ++ step) := by
    intro c hc; rcases List.mem_append.1 hc with hc | hc <;> exact hi c hc
  unfold docString
  rw [if_neg h]
  refine ⟨'\n' :: (step ++ step) ++ joinWith ('\n' :: (step ++ step)) ((after offset comms).methDoc.map (replaceStr c!"\"\"\"" c!"'''"))
    ++ '\n' :: (step ++ step) ++ c!"\"\"\"\n", by simp, ?_⟩
  refine literal_of_lines (step ++ step) _ hi' (Or.inr rfl) _ ?_
  intro l hl
  simp only [List.mem_map] at hl
  obtain ⟨x, _, rfl⟩ := hl
  exact quotes_replaced x

/-- **C76, documentation of the module, part.** The docstring of the module is one string literal if none
of its lines has three double quotes. -/
theorem C76_module_doc_is_a_literal_partial (offset : Nat) (comms : List Str)
    (h : (after offset comms).moduleDoc ≠ []) (hq : ∀ l ∈ (after offset comms).moduleDoc, ¬ Quotes l) :
    OneLiteral [] (moduleDocstring (after offset comms).moduleDoc) := by
  unfold moduleDocstring
  rw [if_neg h]
  refine ⟨joinWith ['\n'] (after offset comms).moduleDoc ++ c!"\n\"\"\"\n", by simp, ?_⟩
  have := literal_of_lines [] [] (by simp [Blank]) (Or.inl rfl) _ hq
  simpa using this

theorem format_step (ind : Str) (c : Char) (s : Str) (f : Nat) (hc : c ≠ '%') :
    format ind (f + 1) (c :: s) = (format ind f s).map (c :: ·) := by
  rw [format, if_neg hc]

theorem format_plain (ind a s : Str) (f : Nat) (ha : '%' ∉ a) :
    format ind (a.length + f) (a ++ s) = (format ind f s).map (a ++ ·) := by
  induction a with
  | nil => simp
  | cons c a ih =>
    simp only [List.mem_cons, not_or] at ha
    show format ind ((c :: a).length + f) (c :: (a ++ s)) = _
    rw [show (c :: a).length + f = (a.length + f) + 1 by simp; omega, format_step _ _ _ _ (Ne.symm ha.1), ih ha.2]
    cases format ind f s <;> rfl

theorem format_ind (ind s : Str) (f : Nat) : format ind (f + 1) (c!"%(ind)s" ++ s) = (format ind f s).map (ind ++ ·) := by
  show format ind (f + 1) ('%' :: '(' :: 'i' :: 'n' :: 'd' :: ')' :: 's' :: s) = _
  rw [format, if_pos rfl]
  have : percent ind ('(' :: 'i' :: 'n' :: 'd' :: ')' :: 's' :: s) = some (ind, s) := by simp [percent, stripPrefix?]
  simp only [this]

theorem format_fuel (ind : Str) : ∀ (f g : Nat) (s t : Str), format ind f s = some t → f ≤ g → format ind g s = some t := by
  intro f
  induction f with
  | zero =>
    intro g s t h _
    cases s with
    | nil => cases g <;> exact h
    | cons c s => simp [format] at h
  | succ f ih =>
    intro g s t h hg
    cases s with
    | nil => cases g <;> exact h
    | cons c s =>
      cases g with
      | zero => omega
      | succ g =>
        rw [format] at h ⊢
        split at h
        next hc =>
          rw [if_pos hc]
          split at h
          next out r hr =>
            simp only [Option.map_eq_some_iff] at h
            obtain ⟨u, hu, rfl⟩ := h
            simp only [ih g r u hu (by omega), Option.map_some]
          · cases h
        next hc =>
          rw [if_neg hc]
          simp only [Option.map_eq_some_iff] at h ⊢
          obtain ⟨u, hu, rfl⟩ := h
          exact ⟨u, ih g s u hu (by omega), rfl⟩

theorem format_double (ind a s : Str) (f : Nat) :
    format ind (a.length + f) (doublePercent a ++ s) = (format ind f s).map (a ++ ·) := by
  induction a with
  | nil => simp [doublePercent]
  | cons c a ih =>
    rw [show (c :: a).length + f = (a.length + f) + 1 by simp; omega]
    by_cases hc : c = '%'
    · subst hc
      show format ind (a.length + f + 1) ('%' :: '%' :: (doublePercent a ++ s)) = _
      rw [format, if_pos rfl]
      simp only [percent, ih]
      cases format ind f s <;> rfl
    · have : doublePercent (c :: a) = c :: doublePercent a := by simp [doublePercent, hc]
      rw [this, List.cons_append, format_step _ _ _ _ hc, ih]
      cases format ind f s <;> rfl

theorem double_length (a : Str) : a.length ≤ (doublePercent a).length := by
  induction a with
  | nil => simp
  | cons c a ih =>
    have : doublePercent (c :: a) = (if c = '%' then c!"%%" else [c]) ++ doublePercent a := by simp [doublePercent]
    rw [this, List.length_append, List.length_cons]
    split <;> simp only [List.length_cons, List.length_nil] <;> omega

theorem format_join (ind : Str) (ls : List Str) (s t : Str) (f : Nat) (h : format ind f s = some t) :
    ∃ g, g ≤ (joinWith c!"\n%(ind)s" (ls.map doublePercent)).length + f ∧
      format ind g (joinWith c!"\n%(ind)s" (ls.map doublePercent) ++ s) = some (joinWith ('\n' :: ind) ls ++ t) := by
  induction ls with
  | nil => exact ⟨f, by simp, by simpa [joinWith] using h⟩
  | cons l ls ih =>
    cases ls with
    | nil =>
      refine ⟨l.length + f, ?_, ?_⟩
      · have := double_length l
        simp [joinWith]; exact this
      · simp only [List.map_cons, List.map_nil, joinWith]
        rw [format_double, h]; rfl
    | cons m ls =>
      obtain ⟨g, hg, hf⟩ := ih
      refine ⟨l.length + (g + 1 + 1), ?_, ?_⟩
      · have := double_length l
        simp only [List.map_cons, joinWith, List.length_append] at hg ⊢
        simp at hg ⊢
        omega
      · simp only [List.map_cons, joinWith, List.append_assoc] at hf ⊢
        rw [format_double]
        show (format ind (g + 1 + 1) ('\n' :: (c!"%(ind)s" ++ _))).map _ = _
        rw [format_step _ _ _ _ (by decide), format_ind, hf]
        rfl

/-- The docstring of a class, written out. -/
theorem classDocstring_eq (ind : Str) (ls : List Str) (hne : ls ≠ []) :
    classDocstring ind (ls.map doublePercent) =
      some (ind ++ c!"\"\"\"\n" ++ ind ++ joinWith ('\n' :: ind) ls ++ '\n' :: ind ++ c!"\"\"\"\n") := by
  have hend : format ind 6 c!"\n%(ind)s\"\"\"\n" = some ('\n' :: (ind ++ c!"\"\"\"\n")) := by
    show format ind (5 + 1) ('\n' :: (c!"%(ind)s" ++ c!"\"\"\"\n")) = _
    rw [format_step _ _ _ _ (by decide), format_ind]
    simp [format]
  obtain ⟨g, hg, hj⟩ := format_join ind ls _ _ _ hend
  have hall : format ind (g + 6) (c!"%(ind)s" ++ (c!"\"\"\"\n" ++ (c!"%(ind)s" ++
      (joinWith c!"\n%(ind)s" (ls.map doublePercent) ++ c!"\n%(ind)s\"\"\"\n")))) =
      some (ind ++ (c!"\"\"\"\n" ++ (ind ++ (joinWith ('\n' :: ind) ls ++ ('\n' :: (ind ++ c!"\"\"\"\n")))))) := by
    rw [show g + 6 = (4 + (g + 1)) + 1 by omega, format_ind]
    rw [show 4 + (g + 1) = (c!"\"\"\"\n" : Str).length + (g + 1) from rfl, format_plain _ _ _ _ (by decide), format_ind, hj]
    rfl
  unfold classDocstring
  rw [if_neg (by simpa using hne)]
  have := format_fuel ind _ (c!"%(ind)s" ++ (c!"\"\"\"\n" ++ (c!"%(ind)s" ++
      (joinWith c!"\n%(ind)s" (ls.map doublePercent) ++ c!"\n%(ind)s\"\"\"\n")))).length _ _ hall
      (by simp at hg ⊢; omega)
  simp only [List.append_assoc, List.cons_append, List.nil_append] at this ⊢
  exact this

/-- **C76, documentation of the class, part.** The docstring of the class is one string literal if none
of its lines has three double quotes. -/
theorem C76_class_doc_is_a_literal_partial (offset : Nat) (comms : List Str) (step : Str) (hi : Blank step)
    (h : (after offset comms).classDoc ≠ []) (hq : ∀ l ∈ (after offset comms).classDoc, ¬ Quotes l) :
    ∃ t, classDocstring step (after offset comms).classDoc = some t ∧ OneLiteral step t := by
  obtain ⟨ls, hls, _⟩ := (after_inv offset comms).classDoc
  rw [hls] at h hq ⊢
  have hne : ls ≠ [] := by rintro rfl; exact h rfl
  refine ⟨_, classDocstring_eq step ls hne, ⟨'\n' :: step ++ joinWith ('\n' :: step) ls ++ '\n' :: step ++ c!"\"\"\"\n", by simp, ?_⟩⟩
  refine literal_of_lines step _ hi (Or.inr rfl) ls ?_
  intro l hl
  have := hq (doublePercent l) (List.mem_map_of_mem hl)
  rintro ⟨x, y, rfl⟩
  exact this ⟨doublePercent x, doublePercent y, by simp [doublePercent]⟩

/-- **C76, special variables.** -/
theorem lexShort_repr (p : Char → Bool) (hp : Printable p) (q : Char) (hq : q = '\'' ∨ q = '"') (rest : Str) :
    ∀ (s : Str) (n : Nat), s.length < n → lexShort q n (s.flatMap (reprChar p q) ++ q :: rest) = some (s, rest)
  | [], n + 1, _ => by simp [lexShort]
  | c :: s, n + 1, h => by
    have ih := lexShort_repr p hp q hq rest s n (by simpa using h)
    have hqb : q ≠ '\\' := by rcases hq with rfl | rfl <;> decide
    have hesc : ∀ u out r, escape u = .char out r →
        lexShort q (n + 1) ('\\' :: u) = (lexShort q n r).map fun (v, r) => (out ++ v, r) := by
      intro u out r hu
      rw [lexShort, if_neg (Ne.symm hqb), if_neg (by decide), if_pos rfl, hu]
    rw [List.flatMap_cons, List.append_assoc]
    generalize hu : s.flatMap (reprChar p q) ++ q :: rest = u at ih ⊢
    clear hu
    unfold reprChar
    by_cases h1 : c = q ∨ c = '\\'
    · rw [if_pos h1]
      have hn : c ≠ '\n' := by
        rintro rfl
        rcases h1 with h | h
        · rcases hq with h' | h' <;> rw [h'] at h <;> exact absurd h (by decide)
        · exact absurd h (by decide)
      have hr : c ≠ '\r' := by
        rintro rfl
        rcases h1 with h | h
        · rcases hq with h' | h' <;> rw [h'] at h <;> exact absurd h (by decide)
        · exact absurd h (by decide)
      have h3 : c = '\\' ∨ c = '\'' ∨ c = '"' := by
        rcases h1 with h | h
        · rcases hq with h' | h' <;> simp [h, h']
        · exact Or.inl h
      show lexShort q (n + 1) ('\\' :: c :: u) = _
      rw [hesc _ [c] _ (by rw [escape, if_neg hn, if_neg hr, if_pos h3]), ih]
      rfl
    rw [if_neg h1]
    by_cases h2 : c = '\t'
    · rw [if_pos h2, h2]
      show lexShort q (n + 1) ('\\' :: 't' :: u) = _
      rw [hesc _ ['\t'] _ rfl, ih]; rfl
    rw [if_neg h2]
    by_cases hn : c = '\n'
    · rw [if_pos hn, hn]
      show lexShort q (n + 1) ('\\' :: 'n' :: u) = _
      rw [hesc _ ['\n'] _ rfl, ih]; rfl
    rw [if_neg hn]
    by_cases h3 : c = '\r'
    · rw [if_pos h3, h3]
      show lexShort q (n + 1) ('\\' :: 'r' :: u) = _
      rw [hesc _ ['\r'] _ rfl, ih]; rfl
    rw [if_neg h3]
    by_cases h4 : p c
    · rw [if_pos h4]
      show lexShort q (n + 1) (c :: u) = _
      have h0 : c.toNat ≠ 0 := fun h => by rw [hp.control c (Or.inl (by omega))] at h4; exact absurd h4 (by decide)
      rw [lexShort, if_neg (fun h => h1 (Or.inl h)), if_neg (by simp [hn, h3, h0]), if_neg (fun h => h1 (Or.inr h))]
      rw [ih]; rfl
    rw [if_neg h4]
    by_cases h5 : c.toNat < 256
    · rw [if_pos h5]
      show lexShort q (n + 1) ('\\' :: 'x' :: (hex 2 c.toNat ++ u)) = _
      rw [hesc ('x' :: (hex 2 c.toNat ++ u)) [c] u ((show escape ('x' :: (hex 2 c.toNat ++ u)) = hexEsc 2 (hex 2 c.toNat ++ u) from rfl).trans
        (hexEsc_char 2 c u (by simpa using h5))), ih]; rfl
    rw [if_neg h5]
    by_cases h6 : c.toNat < 65536
    · rw [if_pos h6]
      show lexShort q (n + 1) ('\\' :: 'u' :: (hex 4 c.toNat ++ u)) = _
      rw [hesc ('u' :: (hex 4 c.toNat ++ u)) [c] u ((show escape ('u' :: (hex 4 c.toNat ++ u)) = hexEsc 4 (hex 4 c.toNat ++ u) from rfl).trans
        (hexEsc_char 4 c u (by simpa using h6))), ih]; rfl
    rw [if_neg h6]
    show lexShort q (n + 1) ('\\' :: 'U' :: (hex 8 c.toNat ++ u)) = _
    rw [hesc ('U' :: (hex 8 c.toNat ++ u)) [c] u ((show escape ('U' :: (hex 8 c.toNat ++ u)) = hexEsc 8 (hex 8 c.toNat ++ u) from rfl).trans
      (hexEsc_char 8 c u ?_)), ih]; · rfl
    have h : c.toNat < 0xD800 ∨ (0xDFFF < c.toNat ∧ c.toNat < 0x110000) := c.valid
    omega

theorem repr_reads (p : Char → Bool) (hp : Printable p) (s rest : Str) :
    literalAt (pyRepr p s ++ rest) = some (s, rest) := by
  have hq := reprQuote_cases s
  have hlen : s.length ≤ (s.flatMap (reprChar p (reprQuote s))).length := by
    generalize reprQuote s = q at hq
    induction s with
    | nil => simp
    | cons c s ih =>
      have : 1 ≤ (reprChar p q c).length := by
        unfold reprChar
        repeat (split; · simp)
        simp
      simp only [List.flatMap_cons, List.length_append, List.length_cons]; omega
  simp only [pyRepr, List.cons_append, List.nil_append, List.append_assoc, literalAt]
  rw [if_pos hq]
  apply lexShort_repr p hp _ hq rest s
  simp only [List.length_append]; omega

theorem insert_perm (x : Str × Str) (l : List (Str × Str)) : (insert x l).Perm (x :: l) := by
  induction l with
  | nil => exact List.Perm.refl _
  | cons y ys ih =>
    rw [insert]
    split
    · exact List.Perm.refl _
    · exact (List.Perm.cons y ih).trans (List.Perm.swap x y ys)

/-- The order of texts by their code points: the first difference decides, and a text comes before its continuations. -/
def Before (s t : Str) : Prop :=
  (∃ u, t = s ++ u) ∨ ∃ (u : Str) (a b : Char) (s' t' : Str), s = u ++ a :: s' ∧ t = u ++ b :: t' ∧ a.toNat < b.toNat

theorem le_before (s t : Str) : le s t = true ↔ Before s t := by
  induction s generalizing t with
  | nil => simp [le, Before]
  | cons a s ih =>
    cases t with
    | nil =>
      constructor
      · intro h; simp [le] at h
      · rintro (⟨u, h⟩ | ⟨u, a', b, s', t', _, h2, _⟩)
        · simp at h
        · cases u <;> simp at h2
    | cons b t =>
      simp only [le, Bool.or_eq_true, Bool.and_eq_true, decide_eq_true_eq, beq_iff_eq, ih]
      constructor
      · rintro (h | ⟨rfl, ⟨u, rfl⟩ | ⟨u, a', b', s', t', rfl, rfl, h⟩⟩)
        · exact Or.inr ⟨[], a, b, s, t, rfl, rfl, h⟩
        · exact Or.inl ⟨u, rfl⟩
        · exact Or.inr ⟨a :: u, a', b', s', t', rfl, rfl, h⟩
      · rintro (⟨u, h⟩ | ⟨u, a', b', s', t', h1, h2, h⟩)
        · injection h with h1 h2
          exact Or.inr ⟨h1.symm, Or.inl ⟨u, h2⟩⟩
        · cases u with
          | nil =>
            injection h1 with h1 _; injection h2 with h2 _
            subst h1; subst h2
            exact Or.inl h
          | cons x u =>
            injection h1 with h1 h1'; injection h2 with h2 h2'
            exact Or.inr ⟨h1.trans h2.symm, Or.inr ⟨u, a', b', s', t', h1', h2', h⟩⟩

theorem le_total (s t : Str) (h : le s t = false) : le t s = true := by
  induction s generalizing t with
  | nil => simp [le] at h
  | cons a s ih =>
    cases t with
    | nil => simp [le]
    | cons b t =>
      simp only [le, Bool.or_eq_false_iff, Bool.and_eq_false_iff, decide_eq_false_iff_not, beq_eq_false_iff_ne, Bool.or_eq_true,
        Bool.and_eq_true, decide_eq_true_eq, beq_iff_eq] at h ⊢
      rcases h.2 with h2 | h2
      · have : a.toNat ≠ b.toNat := fun e => h2 (Char.toNat_inj.mp e)
        omega
      · by_cases e : a = b
        · subst e
          exact Or.inr ⟨rfl, ih t h2⟩
        · have : a.toNat ≠ b.toNat := fun e' => e (Char.toNat_inj.mp e')
          omega

theorem Before.trans {s t u : Str} (h1 : Before s t) (h2 : Before t u) : Before s u := by
  rw [← le_before] at *
  induction s generalizing t u with
  | nil => simp [le]
  | cons a s ih =>
    cases t with
    | nil => simp [le] at h1
    | cons b t =>
      cases u with
      | nil => simp [le] at h2
      | cons c u =>
        simp only [le, Bool.or_eq_true, Bool.and_eq_true, decide_eq_true_eq, beq_iff_eq] at h1 h2 ⊢
        rcases h1 with h1 | ⟨rfl, h1⟩ <;> rcases h2 with h2 | ⟨rfl, h2⟩
        · left; omega
        · exact Or.inl h1
        · exact Or.inl h2
        · exact Or.inr ⟨rfl, ih h1 h2⟩

theorem insert_sorted (x : Str × Str) (l : List (Str × Str)) (h : l.Pairwise fun a b => Before a.1 b.1) :
    (insert x l).Pairwise fun a b => Before a.1 b.1 := by
  induction l with
  | nil => simp [insert]
  | cons y ys ih =>
    rw [List.pairwise_cons] at h
    rw [insert]
    split
    · next hle =>
      rw [le_before] at hle
      refine List.Pairwise.cons ?_ (List.Pairwise.cons h.1 h.2)
      intro z hz
      rcases List.mem_cons.1 hz with rfl | hz
      · exact hle
      · exact hle.trans (h.1 z hz)
    · next hle =>
      have hyx : Before y.1 x.1 := (le_before _ _).1 (le_total _ _ (by simpa using hle))
      refine List.Pairwise.cons ?_ (ih h.2)
      intro z hz
      rcases List.mem_cons.1 ((insert_perm x ys).mem_iff.1 hz) with rfl | hz
      · exact hyx
      · exact h.1 z hz

/-- **C76, special variables.** The special variables become assignments, one to a line and
one to a variable, in the order of their names, each with a literal that evaluates to the variable's value. -/
theorem C76_special_variables (p : Char → Bool) (hp : Printable p) (offset : Nat) (comms : List Str) :
    ∃ vs : List (Str × Str), vs.Perm (after offset comms).special ∧ (vs.Pairwise fun a b => Before a.1 b.1) ∧ ∃ ls : List Str, ls.length = vs.length ∧
      specialVars p (after offset comms).special = joinWith c!"\n" (List.zipWith (fun kv l => kv.1 ++ c!" = " ++ l) vs ls) ∧
      ∀ x ∈ List.zip vs ls, ∀ rest, literalAt (x.2 ++ rest) = some (x.1.2, rest) := by
  generalize (after offset comms).special = d
  refine ⟨d.foldr insert [], ?_, ?_, (d.foldr insert []).map fun kv => pyRepr p kv.2, by simp, ?_, ?_⟩
  · induction d with
    | nil => exact List.Perm.refl _
    | cons x d ih => exact (insert_perm x _).trans (List.Perm.cons x ih)
  · induction d with
    | nil => exact List.Pairwise.nil
    | cons x d ih => exact insert_sorted x _ ih
  · unfold specialVars
    congr 1
    generalize d.foldr insert [] = vs
    induction vs with
    | nil => rfl
    | cons v vs ih => rw [List.map_cons, List.map_cons, List.zipWith_cons_cons, ih]
  · generalize d.foldr insert [] = vs
    intro x hx rest
    have : x.2 = pyRepr p x.1.2 := by
      induction vs with
      | nil => simp at hx
      | cons v vs ih =>
        simp at hx
        rcases hx with rfl | hx
        · rfl
        · exact ih hx
    rw [this]
    exact repr_reads p hp _ rest

/-- The variable a comment `name@ value` sets. -/
theorem C76_special_variable_value (offset : Nat) (name value : Str) (d : Docs) (hne : name ≠ [])
    (hn : ∀ c ∈ name, c.isAlpha = true ∨ c = '_') :
    (addComment offset (name ++ '@' :: value) d).special.get (c!"__" ++ name ++ c!"__") = some (strip value) := by
  have hv : ∀ c ∈ name, isVarChar c = true := by
    intro c hc
    rcases hn c hc with h | rfl
    · simp only [Char.isAlpha, Char.isUpper, Char.isLower, Bool.or_eq_true, Bool.and_eq_true, decide_eq_true_eq] at h
      simp only [isVarChar, Bool.or_eq_true, Bool.and_eq_true, decide_eq_true_eq, beq_iff_eq, Char.le_def]
      have e1 : 'A'.val.toNat = 65 := rfl
      have e2 : 'Z'.val.toNat = 90 := rfl
      have e3 : 'a'.val.toNat = 97 := rfl
      have e4 : 'z'.val.toNat = 122 := rfl
      rcases h with ⟨h1, h2⟩ | ⟨h1, h2⟩
      · left; right
        simp only [UInt32.le_iff_toNat_le] at *
        constructor
        · simpa using h1
        · have : c.val.toNat ≤ 90 := by simpa using h2
          omega
      · left; left
        simp only [UInt32.le_iff_toNat_le] at *
        exact ⟨by simpa using h1, by simpa using h2⟩
    · decide
  obtain ⟨a, as, rfl⟩ : ∃ a as, name = a :: as := by
    cases name with
    | nil => exact absurd rfl hne
    | cons a as => exact ⟨a, as, rfl⟩
  have hbar : isBar ((a :: as) ++ '@' :: value) = false := by
    have ha : (a == '#') = false := by
      have := hv a (by simp)
      cases h : a == '#' with
      | false => rfl
      | true => rw [eq_of_beq h] at this; exact absurd this (by decide)
    simp [isBar, ha]
  have hspan : specialVar ((a :: as) ++ '@' :: value) = some (a :: as, value) := by
    have h1 : ((a :: as) ++ '@' :: value).takeWhile isVarChar = a :: as := by
      rw [List.takeWhile_append_of_pos hv]; simp [show isVarChar '@' = false by decide]
    have h2 : ((a :: as) ++ '@' :: value).dropWhile isVarChar = '@' :: value := by
      rw [List.dropWhile_append_of_pos hv]; simp [show isVarChar '@' = false by decide]
    simp only [specialVar, h1, h2]
  unfold addComment
  rw [hbar, hspan]
  exact Dict.get_set_self _ _ _

/-- **C76, notes on definitions.** The comment the compiler writes on a `#def` or `#block` is one line,
whatever the text of the directive is. -/
theorem C76_def_note_is_a_comment (signature place : Str) (hp : '\n' ∉ place ∧ '\r' ∉ place) :
    Remark (defNote signature place) := by
  have hf := splitlines_no_eol signature
  have hstrip : ∀ (s : Str), ('\n' ∉ s ∧ '\r' ∉ s) → ('\n' ∉ strip s ∧ '\r' ∉ strip s) := by
    have hr : ∀ (s : Str) (c : Char), c ∈ rstrip s → c ∈ s := by
      intro s c
      fun_induction rstrip s with
      | case1 => exact id
      | case2 => simp
      | case3 d cs h h2 => simp_all
      | case4 d cs e es h ih => 
        intro hc
        rw [List.mem_cons] at hc ⊢
        rcases hc with hc | hc
        · exact Or.inl hc
        · exact Or.inr (ih (by rw [h]; exact hc))
    intro s h
    have : ∀ c, c ∈ strip s → c ∈ s := fun c hc => (List.dropWhile_sublist _).subset (hr _ _ hc)
    exact ⟨fun hc => h.1 (this _ hc), fun hc => h.2 (this _ hc)⟩
  have hj : ∀ ls : List Str, Flat ls → '\n' ∉ joinWith [' '] ls ∧ '\r' ∉ joinWith [' '] ls := by
    intro ls
    induction ls with
    | nil => intro _; simp [joinWith]
    | cons l ls ih =>
      intro h
      cases ls with
      | nil => exact h l (by simp)
      | cons m ls =>
        have := ih fun x hx => h x (by simp [hx])
        have hl := h l (by simp)
        simp [joinWith, hl, this]
  have := hj ((Indent.splitlines signature).map strip) (by
    intro l hl
    simp only [List.mem_map] at hl
    obtain ⟨x, hx, rfl⟩ := hl
    exact hstrip x (hf x hx))
  refine ⟨rfl, ?_, ?_⟩
  · simp [defNote, this, hp]
  · simp [defNote, this, hp]

/-! ### Documentation is what was written -/

theorem isBar_false {c : Char} (s : Str) (h : c ≠ '#') : isBar (c :: s) = false := by
  simp [isBar, h]

theorem specialVar_none {a : Char} {w : Str} (hw : w ≠ [] ∧ ∀ c ∈ w, isVarChar c = true) (ha : isVarChar a = false) (hat : a ≠ '@')
    (s : Str) : specialVar (w ++ a :: s) = none := by
  have h2 : (w ++ a :: s).dropWhile isVarChar = a :: s := by
    rw [List.dropWhile_append_of_pos hw.2]; simp [ha]
  unfold specialVar
  rw [h2]
  split
  next heq => simp at heq; exact absurd heq.1 hat
  · rfl

theorem documented_comment (offset : Nat) (comm : Str) (d : Docs) :
    let e := addComment offset comm d
    e.methDoc = d.methDoc ++ (written [c!"doc:", c!"doc-method:"] [comm]).map twice ∧
    e.classDoc = d.classDoc ++ (written [c!"doc-class:"] [comm]).map twice ∧
    e.moduleDoc = d.moduleDoc ++ written [c!"doc-module:"] [comm] ∧
    e.header = d.header ++ written [c!"header:"] [comm] := by
  have t : twice = doublePercent := rfl
  have key : ∀ w, w ∈ [c!"doc:", c!"doc-method:", c!"doc-module:", c!"doc-class:", c!"header:"] → ∀ r,
      stripPrefix? w comm = some r → isBar comm = false ∧ specialVar comm = none := by
    intro w hw r hr
    rw [stripPrefix?_some] at hr
    subst hr
    simp only [List.mem_cons, List.not_mem_nil, or_false] at hw
    rcases hw with rfl | rfl | rfl | rfl | rfl
    · exact ⟨isBar_false _ (by decide), specialVar_none (w := c!"doc") (by decide) (a := ':') (by decide) (by decide) r⟩
    · exact ⟨isBar_false _ (by decide), specialVar_none (w := c!"doc") (by decide) (a := '-') (by decide) (by decide) (c!"method:" ++ r)⟩
    · exact ⟨isBar_false _ (by decide), specialVar_none (w := c!"doc") (by decide) (a := '-') (by decide) (by decide) (c!"module:" ++ r)⟩
    · exact ⟨isBar_false _ (by decide), specialVar_none (w := c!"doc") (by decide) (a := '-') (by decide) (by decide) (c!"class:" ++ r)⟩
    · exact ⟨isBar_false _ (by decide), specialVar_none (w := c!"header") (by decide) (a := ':') (by decide) (by decide) r⟩
  have excl : ∀ (w v : Str) (r : Str), stripPrefix? w comm = some r → ¬ w <+: v → ¬ v <+: w → stripPrefix? v comm = none := by
    intro w v r hr h1 h2
    cases hv : stripPrefix? v comm with
    | none => rfl
    | some q =>
      exfalso
      have a : w <+: comm := ⟨r, (stripPrefix?_some.1 hr).symm⟩
      have b : v <+: comm := ⟨q, (stripPrefix?_some.1 hv).symm⟩
      rcases Nat.le_total w.length v.length with h | h
      · exact h1 (List.prefix_of_prefix_length_le a b h)
      · exact h2 (List.prefix_of_prefix_length_le b a h)
  dsimp only
  rw [t]
  unfold addComment
  cases h1 : stripPrefix? c!"doc:" comm with
  | some r =>
    obtain ⟨hb, hv⟩ := key _ (by simp) r h1
    rw [hb, hv]
    have e2 := excl _ c!"doc-method:" r h1 (by decide) (by decide)
    have e3 := excl _ c!"doc-module:" r h1 (by decide) (by decide)
    have e4 := excl _ c!"doc-class:" r h1 (by decide) (by decide)
    have e5 := excl _ c!"header:" r h1 (by decide) (by decide)
    simp [written, h1, e2, e3, e4, e5]
  | none =>
  cases h2 : stripPrefix? c!"doc-method:" comm with
  | some r =>
    obtain ⟨hb, hv⟩ := key _ (by simp) r h2
    rw [hb, hv]
    have e3 := excl _ c!"doc-module:" r h2 (by decide) (by decide)
    have e4 := excl _ c!"doc-class:" r h2 (by decide) (by decide)
    have e5 := excl _ c!"header:" r h2 (by decide) (by decide)
    simp [written, h1, h2, e3, e4, e5]
  | none =>
  cases h3 : stripPrefix? c!"doc-module:" comm with
  | some r =>
    obtain ⟨hb, hv⟩ := key _ (by simp) r h3
    rw [hb, hv]
    have e4 := excl _ c!"doc-class:" r h3 (by decide) (by decide)
    have e5 := excl _ c!"header:" r h3 (by decide) (by decide)
    simp [written, h1, h2, h3, e4, e5]
  | none =>
  cases h4 : stripPrefix? c!"doc-class:" comm with
  | some r =>
    obtain ⟨hb, hv⟩ := key _ (by simp) r h4
    rw [hb, hv]
    have e5 := excl _ c!"header:" r h4 (by decide) (by decide)
    simp [written, h1, h2, h3, h4, e5]
  | none =>
  cases h5 : stripPrefix? c!"header:" comm with
  | some r =>
    obtain ⟨hb, hv⟩ := key _ (by simp) r h5
    rw [hb, hv]
    simp [written, h1, h2, h3, h4, h5]
  | none =>
    simp only [written, List.flatMap_cons, List.flatMap_nil, List.append_nil, List.findSome?, h1, h2, h3, h4, h5, List.map_nil]
    split
    · exact ⟨rfl, rfl, rfl, rfl⟩
    · split <;> exact ⟨rfl, rfl, rfl, rfl⟩

/-- **C76, documentation is what was written.** In every sequence of comments, the documentation of the
method, the class and the module and the header are the lines of the comments that say so, in order. -/
theorem C76_documentation_is_what_was_written (offset : Nat) (comms : List Str) :
    (after offset comms).methDoc = (written [c!"doc:", c!"doc-method:"] comms).map twice ∧
    (after offset comms).classDoc = (written [c!"doc-class:"] comms).map twice ∧
    (after offset comms).moduleDoc = written [c!"doc-module:"] comms ∧
    (after offset comms).header = written [c!"header:"] comms := by
  have app : ∀ (w : List Str) (c : Str) (cs : List Str), written w (c :: cs) = written w [c] ++ written w cs := by
    intro w c cs; simp [written]
  have key : ∀ (comms : List Str) (d : Docs), let e := comms.foldl (fun d c => addComment offset c d) d
      e.methDoc = d.methDoc ++ (written [c!"doc:", c!"doc-method:"] comms).map twice ∧
      e.classDoc = d.classDoc ++ (written [c!"doc-class:"] comms).map twice ∧
      e.moduleDoc = d.moduleDoc ++ written [c!"doc-module:"] comms ∧
      e.header = d.header ++ written [c!"header:"] comms := by
    intro comms
    induction comms with
    | nil => intro d; simp [written]
    | cons c cs ih =>
      intro d
      obtain ⟨a1, a2, a3, a4⟩ := documented_comment offset c d
      obtain ⟨b1, b2, b3, b4⟩ := ih (addComment offset c d)
      dsimp only
      rw [List.foldl_cons, b1, b2, b3, b4, a1, a2, a3, a4, app _ c cs, app _ c cs, app _ c cs, app _ c cs]
      simp
  simpa [after] using key comms {}

theorem lexBody_plain (rest : Str) : ∀ (t : Str) (n : Nat), t.length < n → ¬ Quotes t →
    (∀ c ∈ t, c ≠ '\\' ∧ c ≠ '\r' ∧ c.toNat ≠ 0) → t.getLast? ≠ some '"' →
    lexBody '"' n (t ++ '"' :: '"' :: '"' :: rest) = some (t, rest)
  | [], n + 1, _, _, _, _ => by simp [lexBody, lexStep, startsWith, stripPrefix?]
  | c :: s, n + 1, h, hq, hc, hl => by
    have hs : ¬ Quotes s := fun ⟨a, b, h⟩ => hq ⟨c :: a, b, by simp [← h]⟩
    have hls : s.getLast? ≠ some '"' := by
      cases s with
      | nil => simp
      | cons d s => rw [List.getLast?_cons_cons] at hl; exact hl
    have ih := lexBody_plain rest s n (by simpa using h) hs (fun x hx => hc x (by simp [hx])) hls
    obtain ⟨c1, c2, c3⟩ := hc c (by simp)
    have hst : ¬ (c = '"' ∧ startsWith (s ++ '"' :: '"' :: '"' :: rest) ['"', '"'] = true) := by
      rintro ⟨rfl, h2⟩
      cases s with
      | nil => simp at hl
      | cons a s =>
        cases s with
        | nil =>
          simp [startsWith, stripPrefix?] at h2
          subst h2; simp at hl
        | cons b s =>
          by_cases ha : '"' = a
          · by_cases hb : '"' = b
            · subst ha hb
              exact hq ⟨[], s, rfl⟩
            · simp [startsWith, stripPrefix?, hb] at h2
          · simp [startsWith, stripPrefix?, ha] at h2
    rw [List.cons_append, lexBody]
    simp only [lexStep]
    rw [if_neg hst, if_neg c1, if_neg c2, if_neg c3]
    simp only [ih]; rfl

/-- Text that means itself in a docstring. -/
def Tame (l : Str) : Prop := ¬ Quotes l ∧ ∀ c ∈ l, c ≠ '\\' ∧ c.toNat ≠ 0

theorem replace_none (s : Str) (h : ¬ Quotes s) : replaceStr c!"\"\"\"" c!"'''" s = s := by
  have key : ∀ (n : Nat) (s : Str), ¬ Quotes s → replaceStrAux c!"\"\"\"" c!"'''" n s = s := by
    intro n
    induction n with
    | zero => intro s _; rw [replaceStrAux]
    | succ n ih =>
      intro s hs
      cases s with
      | nil => rw [replaceStrAux]
      | cons c s =>
        rw [replaceStrAux]
        cases hp : stripPrefix? c!"\"\"\"" (c :: s) with
        | some r => exact absurd ⟨[], r, by rw [stripPrefix?_some.1 hp]; rfl⟩ hs
        | none =>
          simp only
          rw [ih s fun ⟨a, b, h⟩ => hs ⟨c :: a, b, by simp [← h]⟩]
  exact key _ s h

theorem twice_none (s : Str) (h : '%' ∉ s) : twice s = s := by
  induction s with
  | nil => rfl
  | cons c s ih =>
    simp only [List.mem_cons, not_or] at h
    have : twice (c :: s) = (if c = '%' then c!"%%" else [c]) ++ twice s := by simp [twice]
    rw [this, if_neg (Ne.symm h.1), ih h.2]; rfl

theorem mem_join (sep : Str) (ls : List Str) (c : Char) (h : c ∈ joinWith sep ls) : c ∈ sep ∨ ∃ l ∈ ls, c ∈ l := by
  induction ls with
  | nil => simp [joinWith] at h
  | cons l ls ih =>
    cases ls with
    | nil => exact Or.inr ⟨l, by simp, h⟩
    | cons m ls =>
      rw [joinWith] at h
      simp only [List.mem_append] at h
      rcases h with (h | h) | h
      · exact Or.inr ⟨l, by simp, h⟩
      · exact Or.inl h
      · rcases ih h with h | ⟨x, hx, h⟩
        · exact Or.inl h
        · exact Or.inr ⟨x, by simp [hx], h⟩

theorem value_of_lines (ind pre : Str) (hi : Blank ind) (hp : pre = [] ∨ pre = '\n' :: ind) (ls : List Str)
    (hf : Flat ls) (h : ∀ l ∈ ls, Tame l) :
    lexTriple (c!"\"\"\"" ++ (pre ++ joinWith ('\n' :: ind) ls ++ '\n' :: ind ++ c!"\"\"\"\n")) =
      some (pre ++ joinWith ('\n' :: ind) ls ++ '\n' :: ind, c!"\n") := by
  have hj := quotes_join ind hi ls fun l hl => (h l hl).1
  have hq : ¬ Quotes (pre ++ joinWith ('\n' :: ind) ls) := by
    rcases hp with rfl | rfl
    · exact hj
    · exact quotes_append (a := []) (by rintro ⟨x, y, h⟩; simp at h) (quotes_blank_append hi hj) _ (by decide)
  have hind : ∀ c ∈ ('\n' :: ind), c ≠ '\\' ∧ c ≠ '\r' ∧ c.toNat ≠ 0 := by
    intro c hc
    rcases List.mem_cons.1 hc with rfl | hc
    · decide
    · rcases hi c hc with rfl | rfl <;> decide
  have hpre : ∀ c ∈ pre, c ∈ '\n' :: ind := by rcases hp with rfl | rfl <;> simp
  have hc : ∀ c ∈ pre ++ joinWith ('\n' :: ind) ls ++ '\n' :: ind, c ≠ '\\' ∧ c ≠ '\r' ∧ c.toNat ≠ 0 := by
    intro c hc
    simp only [List.mem_append] at hc
    rcases hc with (hc | hc) | hc
    · exact hind c (hpre c hc)
    · rcases mem_join _ _ _ hc with hc | ⟨l, hl, hc⟩
      · exact hind c hc
      · exact ⟨((h l hl).2 c hc).1, fun e => (hf l hl).2 (e ▸ hc), ((h l hl).2 c hc).2⟩
    · exact hind c hc
  have hl : (pre ++ joinWith ('\n' :: ind) ls ++ '\n' :: ind).getLast? ≠ some '"' := by
    intro e
    rw [List.getLast?_append] at e
    have hsome : ∃ x, ('\n' :: ind).getLast? = some x := ⟨_, List.getLast?_eq_some_getLast (by simp)⟩
    obtain ⟨x, hx⟩ := hsome
    rw [hx] at e
    simp at e
    subst e
    have := List.mem_of_getLast? hx
    rcases List.mem_cons.1 this with h | h
    · exact absurd h (by decide)
    · rcases hi _ h with h | h <;> exact absurd h (by decide)
  have := lexBody_plain ['\n'] (pre ++ joinWith ('\n' :: ind) ls ++ '\n' :: ind)
    ((pre ++ joinWith ('\n' :: ind) ls ++ '\n' :: ind ++ c!"\"\"\"\n").length + 1)
    (by simp only [List.length_append]; omega) (quotes_append hq (quotes_blank hi) _ (by decide)) hc hl
  show lexTriple ('"' :: '"' :: '"' :: (pre ++ joinWith ('\n' :: ind) ls ++ '\n' :: ind ++ c!"\"\"\"\n")) = _
  rw [lexTriple, if_pos (by simp)]
  exact this

theorem written_flat (w comms : List Str) : Flat (written w comms) := by
  intro l hl
  simp only [written, List.mem_flatMap] at hl
  obtain ⟨c, _, hl⟩ := hl
  split at hl
  · exact splitlines_no_eol _ l hl
  · simp at hl

/-- Lines, each after a line end and an indentation, with a last line end and indentation. -/
def indented (ind : Str) (ls : List Str) : Str := ls.flatMap (fun l => '\n' :: ind ++ l) ++ '\n' :: ind

theorem indented_eq (ind : Str) (ls : List Str) (h : ls ≠ []) :
    '\n' :: ind ++ joinWith ('\n' :: ind) ls ++ '\n' :: ind = indented ind ls := by
  unfold indented
  congr 1
  induction ls with
  | nil => exact absurd rfl h
  | cons l ls ih =>
    cases ls with
    | nil => simp [joinWith]
    | cons m ls =>
      rw [joinWith, List.flatMap_cons, ← ih (by simp)]
      simp

/-- **C76, the docstring of a method says what was written, part.** What Python reads as the method's
docstring is the lines of the `doc:` comments, if they have no backslash, no null character, no three
quotes, and no percent sign. -/
theorem C76_method_doc_value_partial (offset : Nat) (comms : List Str) (step : Str) (hi : Blank step)
    (hne : written [c!"doc:", c!"doc-method:"] comms ≠ [])
    (ht : ∀ l ∈ written [c!"doc:", c!"doc-method:"] comms, Tame l ∧ '%' ∉ l) :
    ∃ t, docString step (after offset comms).methDoc = step ++ step ++ t ∧
      lexTriple t = some (indented (step ++ step) (written [c!"doc:", c!"doc-method:"] comms), c!"\n") := by
  have hi' : Blank (step ++ step) := by
    intro c hc; rcases List.mem_append.1 hc with hc | hc <;> exact hi c hc
  rw [(C76_documentation_is_what_was_written offset comms).1]
  have hf := written_flat [c!"doc:", c!"doc-method:"] comms
  generalize written [c!"doc:", c!"doc-method:"] comms = ls at *
  have e : (ls.map twice).map (replaceStr c!"\"\"\"" c!"'''") = ls := by
    rw [List.map_map]
    conv => rhs; rw [← List.map_id ls]
    apply List.map_congr_left
    intro l hl
    show replaceStr _ _ (twice l) = l
    rw [twice_none l (ht l hl).2, replace_none l (ht l hl).1.1]
  have hv := value_of_lines (step ++ step) ('\n' :: (step ++ step)) hi' (Or.inr rfl) ls hf fun l hl => (ht l hl).1
  rw [indented_eq _ _ hne] at hv
  unfold docString
  rw [if_neg (by simpa using hne), e]
  refine ⟨c!"\"\"\"" ++ (indented (step ++ step) ls ++ c!"\"\"\"\n"), ?_, hv⟩
  rw [← indented_eq _ _ hne]
  simp

/-- **C76, the docstring of the class says what was written, part.** Likewise for the `doc-class:` comments;
percent signs are as they were. -/
theorem C76_class_doc_value_partial (offset : Nat) (comms : List Str) (step : Str) (hi : Blank step)
    (hne : written [c!"doc-class:"] comms ≠ []) (ht : ∀ l ∈ written [c!"doc-class:"] comms, Tame l) :
    ∃ t, classDocstring step (after offset comms).classDoc = some (step ++ t) ∧
      lexTriple t = some (indented step (written [c!"doc-class:"] comms), c!"\n") := by
  rw [(C76_documentation_is_what_was_written offset comms).2.1]
  have hf := written_flat [c!"doc-class:"] comms
  generalize written [c!"doc-class:"] comms = ls at *
  have hv := value_of_lines step ('\n' :: step) hi (Or.inr rfl) ls hf ht
  rw [indented_eq _ _ hne] at hv
  refine ⟨c!"\"\"\"" ++ (indented step ls ++ c!"\"\"\"\n"), ?_, hv⟩
  rw [show twice = doublePercent from rfl, classDocstring_eq step ls hne, ← indented_eq _ _ hne]
  simp

/-- **C76, the docstring of the module says what was written, part.** -/
theorem C76_module_doc_value_partial (offset : Nat) (comms : List Str)
    (hne : written [c!"doc-module:"] comms ≠ []) (ht : ∀ l ∈ written [c!"doc-module:"] comms, Tame l) :
    lexTriple (moduleDocstring (after offset comms).moduleDoc) =
      some ((written [c!"doc-module:"] comms).flatMap (· ++ c!"\n"), c!"\n") := by
  rw [(C76_documentation_is_what_was_written offset comms).2.2.1]
  have hf := written_flat [c!"doc-module:"] comms
  generalize written [c!"doc-module:"] comms = ls at *
  have hv := value_of_lines [] [] (by simp [Blank]) (Or.inl rfl) ls hf ht
  have hj : joinWith c!"\n" ls ++ c!"\n" = ls.flatMap (· ++ c!"\n") := by
    clear hv hf ht
    induction ls with
    | nil => exact absurd rfl hne
    | cons l ls ih =>
      cases ls with
      | nil => simp [joinWith]
      | cons m ls =>
        rw [joinWith, List.flatMap_cons, ← ih (by simp)]
        simp
  unfold moduleDocstring
  rw [if_neg hne, ← hj]
  simpa using hv

/-! ### Examples and counterexamples -/

example : ∃ ls, written [c!"doc-class:"] [c!"doc-class: A \"fine\" class\n with 5% more"] = ls ∧ ls ≠ [] ∧ ∀ l ∈ ls, Tame l :=
  ⟨[c!"A \"fine\" class", c!" with 5% more"], by decide +kernel, by simp, by
    intro l hl
    simp only [List.mem_cons, List.not_mem_nil, or_false] at hl
    unfold Tame Quotes
    rcases hl with rfl | rfl <;> decide +kernel⟩


/-- Comments of all kinds. -/
def someComments : List Str :=
  [c!" a plain\n  comment\n", c!"doc: Says \"\"\"hello\"\"\"\nand 100% more\\\n", c!"doc-class: A class with 5%", c!"doc-module: A module",
   c!"header: made by\r\nhand", c!"author@ O'Neill\n", c!"#######\n"]

example : (after 1 someComments).lines = [c!"#  a plain", c!"#   comment"] := by decide +kernel
example : docString c!"    " (after 1 someComments).methDoc =
    c!"        \"\"\"\n        Says '''hello'''\n        and 100%% more\\\n        \"\"\"\n" := by decide +kernel
example : classDocstring c!"    " (after 1 someComments).classDoc =
    some c!"    \"\"\"\n    A class with 5%\n    \"\"\"\n" := by decide +kernel
example : moduleHeader 1 c!"#!/usr/bin/env python" [] (after 1 someComments).header =
    c!"#!/usr/bin/env python\n\n# made by\n# hand\n" := by decide +kernel
example : specialVars asciiPrintable (after 1 someComments).special = c!"__author__ = \"O'Neill\"" := by decide +kernel
example : Blank c!"    " := by unfold Blank; decide

/-- Three quotes in the documentation of the module end its docstring: what follows is code. -/
theorem C76_module_doc_counterexample :
    moduleDocstring (after 1 [c!"doc-module: \"\"\"; import os; \"\"\""]).moduleDoc =
      c!"\"\"\"\"\"\"; import os; \"\"\"\n\"\"\"\n" ∧
    closes c!"\"\"\"; import os; \"\"\"\n\"\"\"\n" = some c!"; import os; \"\"\"\n\"\"\"\n" := by
  decide +kernel

/-- Likewise in the documentation of the class. -/
theorem C76_class_doc_counterexample :
    classDocstring c!"    " (after 1 [c!"doc-class: \"\"\"; x = 1; \"\"\""]).classDoc =
      some c!"    \"\"\"\n    \"\"\"; x = 1; \"\"\"\n    \"\"\"\n" := by
  decide +kernel

/-- A percent sign in the documentation of a method is doubled, and a backslash changes what follows it. -/
theorem C76_method_doc_changed_counterexample :
    docString [] (after 1 [c!"doc: 5% of C:\\new"]).methDoc = c!"\"\"\"\n5%% of C:\\new\n\"\"\"\n" ∧
    lexTriple c!"\"\"\"\n5%% of C:\\new\n\"\"\"\n" = some (c!"\n5%% of C:\new\n", c!"\n") := by
  decide +kernel

/-- A backslash in documentation can make the module one that Python refuses. -/
theorem C76_method_doc_refused_counterexample :
    lexTriple (docString [] (after 1 [c!"doc: see C:\\users"]).methDoc) = none := by
  decide +kernel

/-- A special variable may have a name that is none. -/
theorem C76_special_name_counterexample :
    specialVars asciiPrintable (after 1 [c!"a^b@ x"]).special = c!"__a^b__ = 'x'" := by
  decide +kernel

/-- The note on a one-line `#def` whose arguments go over two lines is more than a comment. -/
theorem C76_one_line_def_counterexample :
    oneLineDefNote c!"#def f(a,\nb=g()): x" c!"line 1, col 1" =
      c!"## Generated from #def f(a,\nb=g()): x at line 1, col 1." := by
  decide +kernel

end Cheetah.Doc
