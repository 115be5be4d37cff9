import Verif.Props.SourceTree
/-
What the parser makes of one directive of the language of SourceTree.
-/
namespace Cheetah.Parser
open Reader (EndsLine)

/-! ### Expressions on one line -/

theorem Ex.no_eol {tok : Str → Option Nat} : ∀ (e : Ex) (top : Mode) (c : Char), e.Ok tok top c → ∀ d ∈ e.src, d ≠ '\r' ∧ d ≠ '\n' := by
  have dot : ∀ {w : Str}, Dotted w → ∀ d ∈ w, d ≠ '\r' ∧ d ≠ '\n' := by
    intro w hw
    induction hw with
    | one w hw => exact hw.no_eol
    | more u w hu _ ih =>
      intro d hd
      simp only [List.mem_append, List.mem_cons] at hd
      rcases hd with hd | rfl | hd
      · exact hu.no_eol d hd
      · decide
      · exact ih d hd
  have brk : ∀ {o : Char}, o ∈ c!"([{" → (o ≠ '\r' ∧ o ≠ '\n') ∧ closing o ≠ '\r' ∧ closing o ≠ '\n' := by
    intro o ho
    simp at ho
    rcases ho with rfl | rfl | rfl <;> decide
  intro e
  induction e with
  | nil => intro _ _ _ d hd; simp [Ex.src] at hd
  | sp e ih =>
    intro top c h d hd
    simp only [Ex.src, List.mem_cons] at hd
    rcases hd with rfl | hd
    · decide
    · exact ih top c h d hd
  | tok t e ih =>
    intro top c h d hd
    simp only [Ex.src, List.mem_append] at hd
    rcases hd with hd | hd
    · exact h.1.line.1 d hd
    · exact ih top c h.2 d hd
  | var w e ih =>
    intro top c h d hd
    simp only [Ex.src, List.mem_cons, List.mem_append] at hd
    rcases hd with rfl | hd | hd
    · decide
    · exact dot h.1 d hd
    · exact ih top c h.2.2.2.2 d hd
  | post u m o i gs e ih1 ih3 ih2 =>
    intro top c h d hd
    obtain ⟨h1, h2, h3, h4, h5, h6, h7, h8⟩ := h
    have h3' : o ∈ c!"([{" := by simp at h3 ⊢; tauto
    simp only [Ex.src, List.mem_cons, List.mem_append] at hd
    rcases hd with rfl | hd | rfl | hd | rfl | hd | hd
    · decide
    · exact dot (dottedPath_ok h1 h2) d hd
    · exact (brk h3').1
    · exact ih1 _ _ h4.1 d hd
    · exact (brk h3').2
    · exact ih3 false _ h4.2.1 d hd
    · exact ih2 top c h8 d hd
  | link u m o i gs e ih1 ih3 ih2 =>
    intro top c h d hd
    obtain ⟨h1, h2, h3, h4, h5, h6⟩ := h
    have h3' : o ∈ c!"([{" := by simp at h3 ⊢; tauto
    simp only [Ex.src, List.mem_cons, List.mem_append] at hd
    rcases hd with rfl | hd | rfl | hd | rfl | hd | rfl | hd
    · decide
    · exact dot (dottedPath_ok h1 h2) d hd
    · exact (brk h3').1
    · exact ih1 _ _ h4.1 d hd
    · exact (brk h3').2
    · exact ih3 false _ h4.2.1 d hd
    · decide
    · exact ih2 top c h6 d (List.mem_of_mem_tail hd)
  | grp o i e ih1 ih2 =>
    intro top c h d hd
    simp only [Ex.src, List.mem_cons, List.mem_append] at hd
    rcases hd with rfl | hd | rfl | hd
    · exact (brk h.1).1
    · exact ih1 _ _ h.2.1 d hd
    · exact (brk h.1).2
    · exact ih2 top c h.2.2 d hd
  | kw w k e ih =>
    intro top c h d hd
    simp only [Ex.src, List.mem_cons, List.mem_append] at hd
    rcases hd with rfl | hd | hd | rfl | hd
    · decide
    · exact h.2.1.no_eol d hd
    · rw [List.eq_of_mem_replicate hd]; decide
    · decide
    · exact ih top c h.2.2.2 d hd
  | comp ns e ih =>
    have tg : ∀ ns : List Str, (∀ w ∈ ns, Word w) → ∀ d ∈ targets c!"$" ns, d ≠ '\r' ∧ d ≠ '\n' := by
      intro ns
      induction ns with
      | nil => intro _ d hd; simp [targets] at hd
      | cons w ns ih =>
        intro hw d hd
        cases ns with
        | nil =>
          simp only [targets, List.cons_append, List.nil_append, List.mem_cons] at hd
          rcases hd with rfl | hd
          · decide
          · exact (hw w (by simp)).no_eol d hd
        | cons v ns =>
          simp only [targets, List.cons_append, List.nil_append, List.append_assoc, List.mem_cons, List.mem_append] at hd
          rcases hd with rfl | hd | rfl | rfl | hd
          · decide
          · exact (hw w (by simp)).no_eol d hd
          · decide
          · decide
          · exact ih (fun u hu => hw u (List.mem_cons_of_mem _ hu)) d hd
    intro top c h d hd
    simp only [Ex.src, List.cons_append, List.nil_append, List.mem_cons, List.mem_append] at hd
    rcases hd with rfl | rfl | rfl | rfl | hd | rfl | hd
    · decide
    · decide
    · decide
    · decide
    · exact tg ns h.2.1.2 d hd
    · decide
    · exact ih top c h.2.2.2.2.2 d hd

theorem Ex.pyIn_ne {tok : Str → Option Nat} {top : Mode} {c : Char} {e : Ex} (h : e.Named) (he : e.Ok tok top c) (v : Str) : e.pyIn v ≠ [] := by
  induction e generalizing v with
  | var w e => simp [Ex.pyIn, lookIn]
  | post u m o i gs e => simp [Ex.pyIn]
  | link u m o i gs e _ _ ih => exact ih he.2.2.2.2.1 he.2.2.2.2.2 _
  | _ => exact h.elim

theorem Ex.py_nil {tok : Str → Option Nat} {top : Mode} {c : Char} (e : Ex) (he : e.Ok tok top c) : e.py = [] ↔ e.src = [] := by
  cases e with
  | nil => simp [Ex.src, Ex.py]
  | sp e => simp [Ex.src, Ex.py]
  | tok t e =>
    obtain ⟨d, r, rfl, _⟩ := he.1.start
    simp [Ex.src, Ex.py]
  | var w e => simp [Ex.src, Ex.py]
  | post u m o i gs e => simp [Ex.src, Ex.py]
  | link u m o i gs e => simp [Ex.src, Ex.py, Ex.pyIn_ne he.2.2.2.2.1 he.2.2.2.2.2]
  | grp o i e => simp [Ex.src, Ex.py]
  | kw w k e => simp [Ex.src, Ex.py]
  | comp ns e => simp [Ex.src, Ex.py]

theorem getLast?_app {s t : Str} (h : t ≠ []) : (s ++ t).getLast? = t.getLast? := by
  rw [List.getLast?_append]
  cases ht : t.getLast? with
  | none => exact absurd (List.getLast?_eq_none_iff.1 ht) h
  | some d => rfl

theorem Ex.py_last' {tok : Str → Option Nat} : ∀ (e : Ex) (top : Mode) (c : Char), e.Ok tok top c → (e.py.getLast? = e.src.getLast? ∨ e.py.getLast? = some ')') ∧
    (e.Named → ∀ v, (e.pyIn v).getLast? = e.src.getLast? ∨ (e.pyIn v).getLast? = some ')') := by
  have step : ∀ (e : Ex) (top : Mode) (c : Char) (p q : Str), e.Ok tok top c → (e.py.getLast? = e.src.getLast? ∨ e.py.getLast? = some ')') →
      (p.getLast? = q.getLast? ∨ p.getLast? = some ')') → (p ++ e.py).getLast? = (q ++ e.src).getLast? ∨ (p ++ e.py).getLast? = some ')' := by
    intro e top c p q he h1 h2
    by_cases hn : e.src = []
    · rw [(e.py_nil he).2 hn, hn, List.append_nil, List.append_nil]
      exact h2
    · rw [getLast?_app hn, getLast?_app (fun h => hn ((e.py_nil he).1 h))]
      exact h1
  intro e
  induction e with
  | nil => exact fun _ _ _ => ⟨.inl rfl, fun h => h.elim⟩
  | sp e ih => intro top c h; exact ⟨step e top c c!" " c!" " h (ih top c h).1 (.inl rfl), fun h => h.elim⟩
  | tok t e ih => intro top c h; exact ⟨step e top c t t h.2 (ih top c h.2).1 (.inl rfl), fun h => h.elim⟩
  | var w e ih =>
    intro top c h
    refine ⟨?_, fun _ v => ?_⟩
    · have := step e top c (c!"VFFSL(SL,\"" ++ w ++ c!"\",True)") ('$' :: w) h.2.2.2.2 (ih top c h.2.2.2.2).1 (.inr (by rw [getLast?_app (by simp)]; rfl))
      simpa only [Ex.py, Ex.src, List.append_assoc, List.cons_append] using this
    · have := step e top c (lookIn v w false) ('$' :: w) h.2.2.2.2 (ih top c h.2.2.2.2).1 (.inr (by unfold lookIn; rw [getLast?_app (by simp)]; rfl))
      simpa only [Ex.pyIn, Ex.src, List.append_assoc, List.cons_append] using this
  | post u m o i gs e _ ihg ih =>
    intro top c h
    have h8 := h.2.2.2.2.2.2.2
    have hg := h.2.2.2.1.2.1
    have key : ∀ l : Str, (l ++ o :: (i.py ++ closing o :: gs.py)).getLast? = ('$' :: (dottedPath u m ++ o :: (i.src ++ closing o :: gs.src))).getLast? ∨
        (l ++ o :: (i.py ++ closing o :: gs.py)).getLast? = some ')' := by
      intro l
      have := step gs false (closing o) (l ++ o :: (i.py ++ [closing o])) ('$' :: (dottedPath u m ++ o :: (i.src ++ [closing o]))) hg (ihg _ _ hg).1 (.inl (by
        rw [show l ++ o :: (i.py ++ [closing o]) = (l ++ o :: i.py) ++ [closing o] by simp,
          show '$' :: (dottedPath u m ++ o :: (i.src ++ [closing o])) = ('$' :: (dottedPath u m ++ o :: i.src)) ++ [closing o] by simp,
          getLast?_app (by simp), getLast?_app (by simp)]))
      simpa only [List.append_assoc, List.cons_append, List.nil_append] using this
    refine ⟨?_, fun _ v => ?_⟩
    · have := step e top c (lookupPy u m o ++ o :: (i.py ++ closing o :: gs.py)) ('$' :: (dottedPath u m ++ o :: (i.src ++ closing o :: gs.src))) h8 (ih top c h8).1 (key _)
      simpa only [Ex.py, Ex.src, List.append_assoc, List.cons_append, List.nil_append] using this
    · have := step e top c (linkPy (some v) u m o ++ o :: (i.py ++ closing o :: gs.py)) ('$' :: (dottedPath u m ++ o :: (i.src ++ closing o :: gs.src))) h8 (ih top c h8).1 (key _)
      simpa only [Ex.pyIn, Ex.src, List.append_assoc, List.cons_append, List.nil_append] using this
  | link u m o i gs e _ _ ih =>
    intro top c h
    have hn := h.2.2.2.2.1
    have hoe := h.2.2.2.2.2
    have hsrc : (Ex.link u m o i gs e).src.getLast? = e.src.getLast? := by
      have : ∃ d s, e.src = '$' :: d :: s := by
        cases e with
        | var w e => obtain ⟨d, s, hw, _⟩ := Dotted.head hoe.1; exact ⟨d, _, by rw [Ex.src, hw]; rfl⟩
        | post u m o i gs e => obtain ⟨d, s, hw, _⟩ := (dottedPath_ok hoe.1 hoe.2.1).head; exact ⟨d, _, by rw [Ex.src, hw]; rfl⟩
        | link u m o i gs e => obtain ⟨d, s, hw, _⟩ := (dottedPath_ok hoe.1 hoe.2.1).head; exact ⟨d, _, by rw [Ex.src, hw]; rfl⟩
        | _ => exact hn.elim
      obtain ⟨d, s, hs⟩ := this
      rw [Ex.src, hs, show '$' :: (dottedPath u m ++ o :: (i.src ++ closing o :: (gs.src ++ '.' :: List.tail ('$' :: d :: s)))) = ('$' :: (dottedPath u m ++ o :: (i.src ++ closing o :: (gs.src ++ ['.'])))) ++ (d :: s) by simp,
        getLast?_app (by simp), show '$' :: d :: s = c!"$" ++ (d :: s) from rfl, getLast?_app (by simp)]
    rw [hsrc]
    exact ⟨(ih top c hoe).2 hn _, fun _ v => (ih top c hoe).2 hn _⟩
  | grp o i e _ ih =>
    intro top c h
    refine ⟨?_, fun h => h.elim⟩
    have := step e top c (o :: (i.py ++ [closing o])) (o :: (i.src ++ [closing o])) h.2.2 (ih top c h.2.2).1 (.inl (by
      rw [show o :: (i.py ++ [closing o]) = (o :: i.py) ++ [closing o] by simp,
        show o :: (i.src ++ [closing o]) = (o :: i.src) ++ [closing o] by simp,
        getLast?_app (by simp), getLast?_app (by simp)]))
    simpa only [Ex.py, Ex.src, List.append_assoc, List.cons_append, List.nil_append] using this
  | kw w k e ih =>
    intro top c h
    refine ⟨?_, fun h => h.elim⟩
    have := step e top c (w ++ List.replicate k ' ' ++ c!"=") ('$' :: (w ++ List.replicate k ' ') ++ c!"=") h.2.2.2 (ih top c h.2.2.2).1 (.inl (by
      rw [getLast?_app (by simp), getLast?_app (by simp)]))
    simpa only [Ex.py, Ex.src, List.append_assoc, List.cons_append, List.nil_append] using this
  | comp ns e ih =>
    intro top c h
    refine ⟨?_, fun h => h.elim⟩
    have := step e top c (c!"for " ++ targets [] ns ++ c!" ") (c!"for " ++ targets c!"$" ns ++ c!" ") h.2.2.2.2.2 (ih top c h.2.2.2.2.2).1 (.inl (by
      rw [getLast?_app (by simp), getLast?_app (by simp)]))
    simpa only [Ex.py, Ex.src, List.append_assoc, List.cons_append, List.nil_append] using this

theorem Ex.py_last {tok : Str → Option Nat} (e : Ex) (top : Mode) (c : Char) (h : e.Ok tok top c) : e.py.getLast? = e.src.getLast? ∨ e.py.getLast? = some ')' :=
  (Ex.py_last' e top c h).1

section
variable {tok : Str → Option Nat} {z : Char} {e : Ex}

theorem Tidy.py_last (he : Tidy tok z e) : ∀ c, e.py.getLast? = some c → isSpace c = false ∧ c ≠ ':' := by
  intro c hc
  rcases Ex.py_last e _ _ he.ok with h | h
  · exact he.last c (h ▸ hc)
  · rw [h] at hc
    injection hc with hc
    subst hc
    exact ⟨by decide +kernel, by decide⟩

theorem Tidy.py_head (he : Tidy tok z e) : ∃ c r, e.py = c :: r ∧ isSpace c = false := by
  obtain ⟨c, r, h1, h2⟩ := he.head
  have hV : isSpace 'V' = false := by decide +kernel
  have hok := he.ok
  cases e with
  | nil => simp [Ex.src] at h1
  | sp e =>
    simp only [Ex.src, List.cons.injEq] at h1
    rw [← h1.1] at h2
    exact absurd h2 (by decide +kernel)
  | tok t e =>
    obtain ⟨d, r', rfl, _⟩ := hok.1.start
    simp only [Ex.src, List.cons_append, List.cons.injEq] at h1
    exact ⟨d, r' ++ e.py, rfl, h1.1 ▸ h2⟩
  | var w e => exact ⟨'V', _, rfl, hV⟩
  | post u m o i gs e => cases u <;> exact ⟨'V', _, rfl, hV⟩
  | link u m o i gs e =>
    have hp : ∀ (e : Ex) (top : Mode) (c : Char) (s : Str), e.Named → e.Ok tok top c → ∃ s', e.pyIn ('V' :: s) = 'V' :: s' := by
      intro e
      induction e with
      | var w e => intro _ _ s _ _; exact ⟨_, rfl⟩
      | post u m o i gs e => intro _ _ s _ _; cases u <;> exact ⟨_, rfl⟩
      | link u m o i gs e _ _ ih => intro top c s _ h; cases u <;> exact ih top c _ h.2.2.2.2.1 h.2.2.2.2.2
      | _ => intro _ _ _ h; exact h.elim
    obtain ⟨s', hs⟩ : ∃ s', (Ex.link u m o i gs e).py = 'V' :: s' := by
      rw [Ex.py]
      cases u <;> exact hp e _ _ _ hok.2.2.2.2.1 hok.2.2.2.2.2
    exact ⟨'V', s', hs, hV⟩
  | grp o i e =>
    simp only [Ex.src, List.cons.injEq] at h1
    exact ⟨o, _, rfl, h1.1 ▸ h2⟩
  | kw w k e => exact absurd hok.1 (by simp)
  | comp ns e => exact ⟨'f', _, rfl, by decide +kernel⟩

theorem Tidy.head_ws (he : Tidy tok z e) (r : Str) : ∀ c, (e.src ++ r).head? = some c → c ∉ c!" \t\x0c" := by
  obtain ⟨d, r', h1, h2⟩ := he.head
  intro c hc
  rw [h1] at hc
  injection hc with hc
  subst hc
  intro hm
  simp only [List.mem_cons, List.not_mem_nil, or_false] at hm
  rcases hm with rfl | rfl | rfl <;> exact absurd h2 (by decide +kernel)

end

theorem strip_self {s : Str} (h1 : ∀ c, s.head? = some c → isSpace c = false) (h2 : ∀ c, s.getLast? = some c → isSpace c = false) : strip s = s := by
  rw [strip, lstrip_eq_self h1, rstrip_eq_self h2]

theorem strip_blank {s : Str} : strip (' ' :: s) = strip s := by
  rw [strip, strip, lstrip, List.dropWhile_cons, if_pos (by decide +kernel), ← lstrip]

theorem Tidy.strip {tok : Str → Option Nat} {z : Char} {e : Ex} (he : Tidy tok z e) : strip e.py = e.py := by
  obtain ⟨d, r', h1, h2⟩ := he.py_head
  refine strip_self ?_ fun c hc => (he.py_last c hc).1
  intro c hc
  rw [h1] at hc
  injection hc with hc
  exact hc ▸ h2

theorem isTok_word' {tok : Str → Option Nat} (hT : TokWords tok) {n : Str} {top : Bool} {c : Char} (hn : Word n) (hf : n ≠ c!"for")
    (hc : identChar c = false) (hq : c ≠ '\'' ∧ c ≠ '"') : IsTok tok n top c := by
  refine ⟨fun r => hT n c r hn hc hq.1 hq.2, ?_, ⟨hf, ?_⟩, ⟨hn.no_eol, (Dotted.one n hn).noBs⟩, ?_⟩
  · obtain ⟨d, r, rfl, hd, _⟩ := hn
    exact ⟨d, r, rfl, identChar_special (identStart_char hd)⟩
  · rintro - rfl
    exact hn.not_colon (by simp)
  · rintro ⟨-, h | h⟩
    · exact hq.1 h
    · exact hq.2 h

/-- A word as a token. -/
theorem isTok_word {tok : Str → Option Nat} (hT : TokWords tok) {n : Str} {top : Bool} {c : Char} (hn : Word n) (hf : n ≠ c!"for" ∧ n ≠ c!"then")
    (hc : identChar c = false) (hq : c ≠ '\'' ∧ c ≠ '"') : IsTok tok n top c := isTok_word' hT hn hf.1 hc hq

theorem stop_facts {z : Char} (hz : Stop z) : identChar z = false ∧ (z ≠ '\'' ∧ z ≠ '"') := by rcases hz with rfl | rfl <;> decide

/-- `n e`: a word, a blank and an expression. -/
theorem ok_named {tok : Str → Option Nat} (hT : TokWords tok) {z : Char} {n : Str} {e : Ex} (hn : Word n) (hf : n ≠ c!"for" ∧ n ≠ c!"then") (he : e.Ok tok true z) :
    (Ex.tok n (.sp e)).Ok tok true z :=
  ⟨isTok_word hT hn hf space_facts.1 space_facts.2, he⟩

theorem ok_bare {tok : Str → Option Nat} (hT : TokWords tok) {z : Char} (hz : Stop z) {n : Str} (hn : Word n) (hf : n ≠ c!"for" ∧ n ≠ c!"then") : (Ex.tok n .nil).Ok tok true z :=
  ⟨isTok_word hT hn hf (stop_facts hz).1 (stop_facts hz).2, trivial⟩

/-! ### Lines -/

variable {x : Px}

theorem OneLine.append {s t : Str} (hs : OneLine s) (ht : OneLine t) : OneLine (s ++ t) := by
  intro d hd
  rcases List.mem_append.1 hd with hd | hd
  · exact hs d hd
  · exact ht d hd

/-- There is something on the current line. -/
def BusyLine (a : Str) : Prop := ∃ u c v, a = u ++ c :: v ∧ isSpace c = false ∧ OneLine v

theorem BusyLine.append {a t : Str} (ha : BusyLine a) (ht : OneLine t) : BusyLine (a ++ t) := by
  obtain ⟨u, c, v, rfl, hc, hv⟩ := ha
  exact ⟨u, c, v ++ t, by simp, hc, hv.append ht⟩

theorem Busy.line {bol : Bool} {a t : Str} (ht : Busy bol t) (ha : bol = false → BusyLine a) : BusyLine (a ++ t) := by
  rcases ht with ⟨h1, h2⟩ | ⟨u, c, v, rfl, hc, hv⟩
  · exact (ha h1).append h2
  · exact ⟨a ++ u, c, v, by simp, hc, hv⟩

theorem last_line (u : Str) : ∃ l i, u = l ++ i ∧ EndsLine l ∧ OneLine i := by
  induction hn : u.length generalizing u with
  | zero => exact ⟨[], [], by simpa using hn, .inl rfl, by intro d hd; simp at hd⟩
  | succ n ih =>
    rcases u.eq_nil_or_concat with rfl | ⟨u', c, rfl⟩
    · simp at hn
    · by_cases hc : c = '\r' ∨ c = '\n'
      · exact ⟨u' ++ [c], [], by simp, .inr ⟨u', c, rfl, by rcases hc with rfl | rfl <;> rfl⟩, by intro d hd; simp at hd⟩
      · obtain ⟨l, i, rfl, h1, h2⟩ := ih u' (by simpa using hn)
        refine ⟨l, i ++ [c], by simp, h1, OneLine.append h2 ?_⟩
        intro d hd
        simp at hd
        subst hd
        tauto

theorem lineClear_busy {x : Cx} {a b : Str} (h : x.src = a ++ b) (ha : BusyLine a) : x.lineClear a.length = false := by
  obtain ⟨u, c, v, rfl, hc, hv⟩ := ha
  obtain ⟨l, i, rfl, hl, hi⟩ := last_line u
  have hcn : c ≠ '\r' ∧ c ≠ '\n' := by
    constructor <;> (rintro rfl; exact absurd hc (by decide +kernel))
  have hall : ∀ d ∈ i ++ c :: v, Reader.isEolChar d = false := by
    intro d hd
    have : d ≠ '\r' ∧ d ≠ '\n' := by
      simp only [List.mem_append, List.mem_cons] at hd
      rcases hd with hd | rfl | hd
      · exact hi d hd
      · exact hcn
      · exact hv d hd
    simp [Reader.isEolChar, this]
  have hb := Reader.findBOL_eq l (i ++ c :: v) b hl hall
  have e : l ++ i ++ c :: v = l ++ (i ++ c :: v) := by simp
  unfold Cx.lineClear Cx.slice
  rw [h, e]
  rw [show (l ++ (i ++ c :: v)).length = l.length + (i ++ c :: v).length by simp]
  rw [hb]
  simp only [Bool.or_eq_false_iff, beq_eq_false_iff_ne]
  refine ⟨by simp, ?_⟩
  rw [← List.length_append, List.take_left, List.drop_left]
  simp [List.all_append, hc]

/-- A directive starts here. -/
def IsDir (b : Str) : Prop := ∃ c r name, b = '#' :: c :: r ∧ identStart c = true ∧ directiveOf stdNames (c :: r) = some name

/-! ### A directive and its end -/

/-- How a directive after `a` ends: what follows its text is `z :: b`, of which `post` belongs to it, and `ws` are the commands
for the white space before it. -/
def Close (a : Str) (z : Char) (b post : Str) (ws : List Cmd) : Prop :=
  (z = '\n' ∧ post = c!"\n" ∧ ws = [.handleWS] ∧ Clear a) ∨ (z = '#' ∧ post = c!"#" ∧ ws = [] ∧ b ≠ [] ∧ ∀ q, b = '#' :: q → IsDir b) ∨
  (z = '\n' ∧ post = [] ∧ ws = [] ∧ BusyLine a)

/-- The cursor stands before the directive `#L`. -/
structure DLine (x : Px) (a L : Str) (z : Char) (b post : Str) (ws : List Cmd) : Prop where
  std : Std x.toCx
  names : x.cfg.names = stdNames
  toks : TokWords x.tok
  brackets : TokBrackets x.tok
  src : x.src = a ++ '#' :: (L ++ z :: b)
  before : NoBs a
  line : OneLine L
  last : z = '#' → NoBs L
  close : Close a z b post ws

variable {z : Char} {post : Str} {ws : List Cmd}

theorem eolScan_ge {t s : Str} (ht : OneLine t) : t.length ≤ (Reader.eolScan (t ++ s)).1 := by
  induction t with
  | nil => simp
  | cons c t ih =>
    have hc := ht c (by simp)
    have := ih fun d hd => ht d (by simp [hd])
    rw [List.cons_append, Reader.eolScan.eq_def]
    split
    · simp_all
    · simp_all
    · next h =>
      injection h with h1 h2
      subst h1 h2
      simp [hc, this]

/-- The end of the line is behind a text without line ends. -/
theorem eol_ge {x : Cx} {a t b : Str} (h : x.src = a ++ t ++ b) (ht : OneLine t) : (a ++ t).length ≤ x.eol a.length := by
  unfold Cx.eol Reader.eolSearch
  have h1 : min a.length x.src.length = a.length := by rw [h]; simp
  have h2 : x.src.drop a.length = t ++ b := by rw [h, List.append_assoc, List.drop_left]
  simp only [h1, h2, List.length_append]
  have := eolScan_ge (s := b) ht
  omega

theorem tagEnd_open (hx : Std x.toCx) {a r : Str} (h : x.src = a ++ '\n' :: r) (e : Nat) : x.restTag false e a.length = .ok ([], a.length) := by
  obtain ⟨ns, hcfg⟩ := hx.cfg
  have hco : x.matchTok x.cfg.com a.length = none := matchTok_none h (by rw [hcfg]; simp [Cfg.std]) (by rw [hcfg]; simp [Cfg.std])
  have hde : x.matchTok x.cfg.dirEnd a.length = none := matchTok_none h (by rw [hcfg]; simp [Cfg.std]) (by rw [hcfg]; simp [Cfg.std])
  unfold Px.restTag Px.tagComment
  rw [hco]
  simp [bind, Except.bind, Px.tagEnd, hde]

theorem restTag_hash (hx : Std x.toCx) (hns : x.cfg.names = stdNames) {a r : Str} (h : x.src = a ++ '#' :: r) (ha : NoBs a) (hr : r ≠ []) (hd : ∀ q, r = '#' :: q → IsDir r) (clear : Bool)
    {e : Nat} (he : (a ++ c!"#").length ≤ e) : x.restTag clear e a.length = .ok ([], (a ++ c!"#").length) := by
  obtain ⟨ns, hcfg⟩ := id hx.cfg
  have hc1 : x.cfg.com = c!"##" := by rw [hcfg]; rfl
  have hc2 : x.cfg.dirEnd = c!"#" := by rw [hcfg]; rfl
  have hde : x.matchTok x.cfg.dirEnd a.length = some (a ++ c!"#").length := by
    rw [hc2, List.length_append]
    exact matchTok_at x.toCx c!"#" a r (by rw [h]; simp) ha
  have hcom : x.tagComment a.length = .ok ([], false, a.length) := by
    unfold Px.tagComment
    rw [hc1]
    by_cases hq : ∃ q, r = '#' :: q
    · obtain ⟨q, rfl⟩ := hq
      rw [matchTok_at x.toCx c!"##" a q (by rw [h]; simp) ha]
      obtain ⟨c, w, name, h1, h2, h3⟩ := hd q rfl
      injection h1 with _ h1
      have h' : x.src = (a ++ c!"#") ++ '#' :: q := by rw [h]; simp
      have := (matchDirective_at hx h' (NoBs.snoc a (by decide)) (n := name) ⟨c, by rw [h1]; rfl, .inl ((identStart_iff c).1 h2)⟩ (by rw [hns, h1]; exact h3)).1
      have e1 : a.length + 1 = (a ++ c!"#").length := by simp
      simp only [bind, Except.bind, e1, goto_le hx (p := (a ++ c!"#").length) (by rw [h']; simp), this, Option.isSome_some, if_true]
    · have : x.matchTok c!"##" a.length = none := matchTok_miss x.toCx c!"##" a _ h fun q e => by
        injection e with _ e
        exact hq ⟨q, e⟩
      rw [this]
  unfold Px.restTag
  rw [hcom]
  have hl : ¬ (x.bp ≤ (a ++ c!"#").length ∨ e < (a ++ c!"#").length) := by
    have := List.length_pos_iff.2 hr
    rintro (hh | hh)
    · rw [hx.bp, h] at hh
      simp only [List.length_append, List.length_cons, List.length_nil] at hh
      omega
    · omega
  simp only [bind, Except.bind, Px.tagEnd, hde, Bool.false_eq_true, if_false, goto_le hx (p := (a ++ c!"#").length) (by rw [h]; simp), List.nil_append]
  rw [if_neg (fun h => hl h.2)]

namespace DLine
variable {a L b : Str} (o : DLine x a L z b post ws)
include o

theorem stop : Stop z := by
  rcases o.close with h | h | h
  · exact .inl h.1
  · exact .inr h.1
  · exact .inl h.1

theorem src_end : x.src = (a ++ c!"#" ++ L) ++ z :: b := by rw [o.src]; simp

theorem all (hz : z = '#') : NoBs (a ++ c!"#" ++ L) := NoBs.append (NoBs.snoc a (by decide)) (o.last hz)

/-- The end of the directive, when the end of the line was looked for at any place in it. -/
theorem rest_from {u v : Str} (h : c!"#" ++ L = u ++ v) :
    x.restTag (x.lineClear a.length) (x.eol (a ++ u).length) (a ++ c!"#" ++ L).length = .ok (ws, (a ++ c!"#" ++ L ++ post).length) := by
  have hl : OneLine (c!"#" ++ L) := OneLine.append (by unfold OneLine; decide) o.line
  have hv : OneLine v := fun d hd => hl d (by rw [h]; simp [hd])
  have e : a ++ c!"#" ++ L = a ++ u ++ v := by rw [List.append_assoc, h, List.append_assoc]
  have hs := o.src_end
  rcases o.close with ⟨rfl, rfl, rfl, hc⟩ | ⟨rfl, rfl, rfl, h1, h2⟩ | ⟨rfl, rfl, rfl, hc⟩
  · rw [lineClear_at o.src hc]
    refine restTag_eol o.std hs ?_
    rw [(eol_at (x := x.toCx) (a := a ++ u) (t := v) (b := b) (by rw [← e]; exact hs) hv).1, e]
  · refine restTag_hash o.std o.names hs (o.all rfl) h1 h2 _ ?_
    have := eol_ge (x := x.toCx) (a := a ++ u) (t := v ++ c!"#") (b := b) (by rw [← List.append_assoc, ← e, hs]; simp) (hv.append (by unfold OneLine; decide))
    rwa [← List.append_assoc, ← e] at this
  · rw [lineClear_busy o.src hc, List.append_nil]
    exact tagEnd_open o.std hs _

theorem rest : x.restTag (x.lineClear a.length) (x.eol a.length) (a ++ c!"#" ++ L).length = .ok (ws, (a ++ c!"#" ++ L ++ post).length) := by
  have := o.rest_from (u := []) (v := c!"#" ++ L) rfl
  rwa [List.append_nil] at this

theorem colon : x.colon (a ++ c!"#" ++ L).length = .ok false := by
  unfold Px.colon
  rw [peek_head o.std o.src_end]
  rcases o.stop with rfl | rfl <;> simp

theorem skipColon : x.skipColon (a ++ c!"#" ++ L).length = .ok (a ++ c!"#" ++ L).length := by
  unfold Px.skipColon
  rw [peek!_head o.std o.src_end]
  have h1 : z ≠ ':' := by rcases o.stop with rfl | rfl <;> decide
  simp only [bind, Except.bind, h1, if_false]
  rw [goto_le o.std (by rw [o.src_end]; simp)]
  simp only
  rw [skip_none o.std o.src_end (by rcases o.stop with rfl | rfl <;> simp)]

theorem dirStart {n r : Str} (hn : Word n) (hL : L = n ++ r) : x.dirStart a.length = .ok (a ++ c!"#").length := by
  obtain ⟨d, n', hn', hd, _⟩ := id hn
  exact dirStart_at o.std (r := n' ++ r ++ z :: b) (c := d) (by rw [o.src, hL, hn']; simp) o.before hd

theorem skip_hash {n r : Str} (hn : Word n) (hL : L = n ++ r) : x.skip (a ++ c!"#").length = (a ++ c!"#").length :=
  skip_none o.std (b := n ++ (r ++ z :: b)) (by rw [o.src, hL]; simp) fun c hc => identStart_ws (hn.head _ c hc)

theorem afterName {n : Str} {c : Char} {r : Str} (hn : Word n) (hL : L = n ++ c :: r) : x.afterName n a.length = .ok (a ++ c!"#" ++ n).length :=
  afterName_at o.std (c := c) (r := r ++ z :: b) (by rw [o.src, hL]; simp) o.before hn

theorem noBs : NoBs (a ++ c!"#") := NoBs.snoc a (by decide)

/-- The blank after the name is skipped. -/
theorem skip_name {n r : Str} (hL : L = n ++ ' ' :: r) (hr : ∀ c, (r ++ z :: b).head? = some c → c ∉ c!" \t\x0c") :
    x.skip (a ++ c!"#" ++ n).length = (a ++ c!"#" ++ n ++ c!" ").length := by
  unfold Cx.skip
  rw [ws_at (w := c!" ") (r := r ++ z :: b) (by rw [o.src, hL]; simp) o.std.bp (by simp) hr]
  simp only [List.length_append]

end DLine

theorem DLine.start {a L b post : Str} (o : DLine x a L z b post [.handleWS]) : Clear a := by
  rcases o.close with h | h | h
  · exact h.2.2.2
  · simp at h
  · simp at h

theorem DLine.clear {a L b post : Str} (o : DLine x a L z b post [.handleWS]) : x.lineClear a.length = true := lineClear_at o.src o.start

/-- The whole line is read as an expression. -/
theorem DLine.expression {a L b : Str} (o : DLine x a L z b post ws) {f : Ex} (hf : f.Ok x.tok true z) (hL : L = f.src) (brk : List Str) (hb : ∀ b ∈ brk, b = c!":") :
    x.expression fullSt false brk [] (a ++ c!"#").length = .ok (f.py, (a ++ c!"#" ++ L).length) := by
  rw [hL]
  exact expression_ex o.std o.brackets o.stop hf (r := b) (by rw [o.src, hL]; simp) o.noBs brk hb

/-- The line after its name is read as an expression. -/
theorem DLine.expression2 {a L b n : Str} (o : DLine x a L z b post ws) {f : Ex} (hf : f.Ok x.tok true z) (hn : NoBs n) (hL : L = n ++ f.src) (brk : List Str) (hb : ∀ b ∈ brk, b = c!":") :
    x.expression fullSt false brk [] (a ++ c!"#" ++ n).length = .ok (f.py, (a ++ c!"#" ++ L).length) := by
  rw [hL, ← List.append_assoc]
  exact expression_ex o.std o.brackets o.stop hf (r := b) (by rw [o.src, hL]; simp) (o.noBs.append hn) brk hb

/-! ### Statements -/

theorem word_of_ascii (n : Str) (c : Char) (r : Str) (h : n = c :: r) (h1 : identStart c = true) (h2 : r.all identChar = true) : Word n :=
  ⟨c, r, h, h1, List.all_eq_true.1 h2⟩

/-- `#n e` with the name as a part of the expression. -/
theorem simple_named {h : Env} {a b n : Str} {e : Ex} (o : DLine x a (n ++ c!" " ++ e.src) z b post ws) (he : Tidy x.tok z e) (hn : n ∈ [c!"del", c!"assert", c!"raise"]) :
    x.directive h fullSt n a.length = .ok (.go (ws ++ [.simple n (n ++ c!" " ++ e.py)]) (a ++ c!"#" ++ (n ++ c!" " ++ e.src) ++ post).length) := by
  have hw : Word n ∧ n ∉ indentingNames ∧ n ∈ exprNames ∧ n ≠ c!"silent" ∧ n ≠ c!"echo" ∧ n ∉ closeable ∧ n ≠ c!"for" ∧ n ≠ c!"then" ∧
      (∀ r, (n ++ ' ' :: r).takeWhile (fun c => !isSpace c) = n) ∧ (∀ c, n.head? = some c → isSpace c = false) ∧ n ≠ [] := by
    simp only [List.mem_cons, List.not_mem_nil, or_false] at hn
    rcases hn with rfl | rfl | rfl <;>
      exact ⟨word_of_ascii _ _ _ rfl (by decide) (by decide), by decide, by decide, by decide, by decide, by decide, by decide, by decide,
        fun r => (takeWhile_stop (t := ' ' :: r) (by decide +kernel) (by rintro _ ⟨⟩; decide +kernel)).1, by decide +kernel, by decide⟩
  obtain ⟨w1, w2, w3, w4, w5, w6, w7, w8, w9, w10, w11⟩ := hw
  have hL : n ++ c!" " ++ e.src = (Ex.tok n (.sp e)).src := by simp [Ex.src]
  have hexpr := o.expression (ok_named o.toks w1 ⟨w7, w8⟩ he.ok) hL [] (by simp)
  obtain ⟨d, r', p1, p2⟩ := he.py_head
  have hstrip : strip (n ++ ' ' :: e.py) = n ++ ' ' :: e.py := by
    refine strip_self ?_ ?_
    · intro c hc
      rw [List.head?_append] at hc
      cases hh : n.head? with
      | none => exact absurd (List.head?_eq_none_iff.1 hh) w11
      | some q => rw [hh] at hc; exact w10 c (hh.trans hc)
    · intro c hc
      rw [show n ++ ' ' :: e.py = (n ++ c!" ") ++ e.py by simp, getLast?_app (by rw [p1]; simp)] at hc
      exact (he.py_last c hc).1
  unfold Px.directive
  rw [if_neg w2, if_pos w3]
  unfold Px.simpleExpr Px.nameStart
  rw [if_neg (by simp [w4, w5]), o.dirStart (n := n) (r := c!" " ++ e.src) w1 (by simp)]
  simp only [bind, Except.bind, hexpr, Ex.py, hstrip, w9, if_neg w11, o.rest, if_neg w6]
  simp

theorem simple_bare {h : Env} {a b n : Str} (o : DLine x a n z b post ws) (hn : n ∈ [c!"pass", c!"break", c!"continue", c!"stop"]) :
    x.directive h fullSt n a.length = .ok (.go (ws ++ [.simple n n]) (a ++ c!"#" ++ n ++ post).length) := by
  have hw : Word n ∧ n ∉ indentingNames ∧ n ∈ exprNames ∧ n ≠ c!"silent" ∧ n ≠ c!"echo" ∧ n ∉ closeable ∧ n ≠ c!"for" ∧ n ≠ c!"then" ∧
      (n.takeWhile (fun c => !isSpace c) = n) ∧ strip n = n ∧ n ≠ [] := by
    simp only [List.mem_cons, List.not_mem_nil, or_false] at hn
    rcases hn with rfl | rfl | rfl | rfl <;>
      exact ⟨word_of_ascii _ _ _ rfl (by decide) (by decide), by decide, by decide, by decide, by decide, by decide, by decide, by decide,
        by decide +kernel, by decide +kernel, by decide⟩
  obtain ⟨w1, w2, w3, w4, w5, w6, w7, w8, w9, w10, w11⟩ := hw
  have hexpr := o.expression (ok_bare o.toks o.stop w1 ⟨w7, w8⟩) (by simp [Ex.src]) [] (by simp)
  unfold Px.directive
  rw [if_neg w2, if_pos w3]
  unfold Px.simpleExpr Px.nameStart
  rw [if_neg (by simp [w4, w5]), o.dirStart (n := n) (r := []) w1 (by simp)]
  simp only [bind, Except.bind, hexpr, Ex.py, List.append_nil, w10, w9, if_neg w11, o.rest, if_neg w6]

/-- `#silent e`, `#echo e`. -/
theorem simple_skipped {h : Env} {a b n : Str} {e : Ex} (o : DLine x a (n ++ c!" " ++ e.src) z b post ws) (he : Tidy x.tok z e) (hn : n = c!"silent" ∨ n = c!"echo")
    (hc : e.py.takeWhile (fun c => !isSpace c) ∉ closeable) :
    x.directive h fullSt n a.length = .ok (.go (ws ++ [.simple n e.py]) (a ++ c!"#" ++ (n ++ c!" " ++ e.src) ++ post).length) := by
  have hw : Word n ∧ n ∉ indentingNames ∧ n ∈ exprNames := by
    rcases hn with rfl | rfl <;> exact ⟨word_of_ascii _ _ _ rfl (by decide) (by decide), by decide, by decide⟩
  obtain ⟨w1, w2, w3⟩ := hw
  have hexpr := o.expression2 (f := .sp e) he.ok (Dotted.one n w1).noBs (by simp [Ex.src]) [] (by simp)
  obtain ⟨d, r', p1, p2⟩ := he.py_head
  have hne : e.py.takeWhile (fun c => !isSpace c) ≠ [] := by rw [p1, List.takeWhile_cons, p2]; simp
  unfold Px.directive
  rw [if_neg w2, if_pos w3]
  unfold Px.simpleExpr Px.nameStart
  rw [if_pos (by simpa using hn), o.afterName (n := n) (c := ' ') (r := e.src) w1 (by simp)]
  simp only [bind, Except.bind, hexpr, Ex.py, strip_blank, he.strip, if_neg hne, o.rest, if_neg hc]

/-! ### Blocks -/

/-- `#end n` -/
theorem end_ex {h : Env} {a b n : Str} (o : DLine x a (c!"end " ++ n) z b post ws) (hn : n ∈ blockNames) :
    x.directive h fullSt c!"end" a.length = .ok (.closed n ws (a ++ c!"#" ++ (c!"end " ++ n) ++ post).length) := by
  have hend : Word c!"end" := word_of_ascii _ _ _ rfl (by decide) (by decide)
  have hw : Word n ∧ n ≠ c!"then" ∧ n ∈ closeable := by
    simp only [blockNames, List.mem_cons, List.not_mem_nil, or_false] at hn
    rcases hn with rfl | rfl | rfl | rfl | rfl | rfl | rfl | rfl | rfl | rfl | rfl | rfl | rfl <;>
      exact ⟨word_of_ascii _ _ _ rfl (by decide) (by decide), by decide, by decide⟩
  obtain ⟨hw, ht, hcl⟩ := hw
  have hs : x.src = (a ++ c!"#" ++ c!"end" ++ c!" ") ++ n ++ z :: b := by rw [o.src]; simp
  have hs3 : x.src = (a ++ c!"#" ++ c!"end" ++ c!" ") ++ (n ++ z :: b) := by rw [o.src]; simp
  have he : a ++ c!"#" ++ c!"end" ++ c!" " ++ n = a ++ c!"#" ++ (c!"end " ++ n) := by simp
  have hexpr : ∃ e, x.expression fullSt false [] [] (a ++ c!"#" ++ c!"end" ++ c!" ").length = .ok (e, (a ++ c!"#" ++ (c!"end " ++ n)).length) := by
    by_cases hf : n = c!"for"
    · subst hf
      unfold Px.expression Px.fuel
      have hall : NoBs (a ++ c!"#" ++ c!"end" ++ c!" " ++ c!"for") := by unfold NoBs; rw [getLast?_app (by simp)]; decide
      rw [show ∀ k, 4 * k + 4 = (4 * k + 2) + 1 + 1 by omega, exprParts_for o.std o.toks fullSt _ hs (stop_facts o.stop).1 (stop_facts o.stop).2 (by simp), exprParts_last o.std _ o.stop _ hs hall]
      simp only [bind, Except.bind]
      rw [exprParts_last o.std _ o.stop _ hs hall, he]
      exact ⟨_, rfl⟩
    · have := expression_ex o.std o.brackets o.stop (ok_bare o.toks o.stop hw ⟨hf, ht⟩) (a := a ++ c!"#" ++ c!"end" ++ c!" ") (r := b) (by rw [hs]; simp [Ex.src]) (NoBs.snoc _ (by decide)) [] (by simp)
      have e3 : a ++ c!"#" ++ c!"end" ++ c!" " ++ (Ex.tok n .nil).src = a ++ c!"#" ++ (c!"end " ++ n) := by simp [Ex.src]
      rw [e3] at this
      exact ⟨_, this⟩
  obtain ⟨e, hexpr⟩ := hexpr
  have hfind : (endNames.find? fun k => startsWith (n ++ z :: b) k) = some n := by
    simp only [blockNames, List.mem_cons, List.not_mem_nil, or_false] at hn
    rcases o.stop with rfl | rfl <;>
      rcases hn with rfl | rfl | rfl | rfl | rfl | rfl | rfl | rfl | rfl | rfl | rfl | rfl | rfl <;> rfl
  have hrest := o.rest_from (u := c!"#end ") (v := n) (by simp)
  have e2 : (a ++ c!"#end ").length = (a ++ c!"#" ++ c!"end" ++ c!" ").length := by simp
  rw [e2] at hrest
  have hskip := o.skip_name (n := c!"end") (r := n) (by simp) (by intro c hc; exact identStart_ws (hw.head _ c hc))
  have hdir : x.directive h fullSt c!"end" a.length = x.endDirective fullSt a.length := rfl
  rw [hdir]
  unfold Px.endDirective
  rw [o.afterName (n := c!"end") (c := ' ') (r := n) hend (by simp)]
  simp only [bind, Except.bind, hskip, rest_after hs3, hfind, hexpr, hrest, hcl, if_true]

theorem opens_named_ex {h : Env} {a b r : Str} {f : Ex} {n : Str} (hn : n = c!"while" ∨ n = c!"try") (hL : f.src = n ++ r) (o : DLine x a f.src z b post ws) (he : f.Ok x.tok true z) :
    x.directive h fullSt n a.length = .ok (.opened n (ws ++ [.indenting n f.py]) (a ++ c!"#" ++ f.src ++ post).length) := by
  have hw : Word n := by rcases hn with rfl | rfl <;> exact word_of_ascii _ _ _ rfl (by decide) (by decide)
  have hexpr := o.expression he rfl [c!":"] (by simp)
  unfold Px.directive
  rw [if_pos (by rcases hn with rfl | rfl <;> decide)]
  unfold Px.simpleIndenting Px.nameStart
  rw [if_neg (by rcases hn with rfl | rfl <;> decide), o.dirStart hw hL]
  simp only [bind, Except.bind, o.skip_hash hw hL, hexpr, o.colon, Bool.false_eq_true, if_false, o.skipColon, o.rest]
  rw [if_pos (by rcases hn with rfl | rfl <;> decide)]

theorem opens_skipped_ex {h : Env} {a b n : Str} {e : Ex} (o : DLine x a (n ++ c!" " ++ e.src) z b post ws) (he : Tidy x.tok z e) (hn : n = c!"repeat" ∨ n = c!"unless") :
    x.directive h fullSt n a.length = .ok (.opened n (ws ++ [.indenting n e.py]) (a ++ c!"#" ++ (n ++ c!" " ++ e.src) ++ post).length) := by
  have hw : Word n := by rcases hn with rfl | rfl <;> exact word_of_ascii _ _ _ rfl (by decide) (by decide)
  have hexpr := o.expression2 (f := e) (n := n ++ c!" ") he.ok ((Dotted.one n hw).noBs.append (by unfold NoBs; decide)) rfl [c!":"] (by simp)
  rw [← List.append_assoc] at hexpr
  unfold Px.directive
  rw [if_pos (by rcases hn with rfl | rfl <;> decide)]
  unfold Px.simpleIndenting Px.nameStart
  rw [if_pos (by simpa using hn), o.afterName (n := n) (c := ' ') (r := e.src) hw (by simp)]
  simp only [bind, Except.bind, o.skip_name (n := n) (r := e.src) (by simp) (he.head_ws _), hexpr, o.colon, Bool.false_eq_true, if_false, o.skipColon, o.rest]
  rw [if_pos (by rcases hn with rfl | rfl <;> decide)]

theorem opens_if_ex {h : Env} {a b : Str} {e : Ex} (o : DLine x a (c!"if " ++ e.src) z b post ws) (he : Tidy x.tok z e) :
    x.directive h fullSt c!"if" a.length = .ok (.opened c!"if" (ws ++ [.indenting c!"if" (c!"if " ++ e.py)]) (a ++ c!"#" ++ (c!"if " ++ e.src) ++ post).length) := by
  have hw : Word c!"if" := word_of_ascii _ _ _ rfl (by decide) (by decide)
  obtain ⟨ps, h1, h2, h3, _⟩ := exprParts_ex o.std o.brackets o.stop (ok_named o.toks hw (by decide) he.ok) (a := a ++ c!"#") (r := b) (by rw [o.src]; simp [Ex.src]) o.noBs [c!":"] (by simp)
    (x.fuel (a ++ c!"#").length) (by unfold Px.fuel; rw [o.std.bp, o.src]; simp [Ex.src]; omega)
  have hL : (Ex.tok c!"if" (.sp e)).src = c!"if " ++ e.src := rfl
  replace h3 : c!"then" ∉ ps := by
    intro hm
    have := h3.subset (List.mem_filter.2 ⟨hm, by decide +kernel⟩)
    rw [Ex.keys, if_neg (by decide +kernel)] at this
    exact he.noThen this
  have hP : (Ex.tok c!"if" (.sp e)).py = c!"if " ++ e.py := rfl
  rw [hL] at h1
  rw [hP] at h2
  have hstrip : strip (c!"if " ++ e.py) = c!"if " ++ e.py := by
    obtain ⟨d, r', p1, p2⟩ := he.py_head
    refine strip_self ?_ ?_
    · intro c hc
      injection hc with hc
      subst hc
      decide +kernel
    · intro c hc
      rw [getLast?_app (by rw [p1]; simp)] at hc
      exact (he.py_last c hc).1
  unfold Px.directive
  rw [if_neg (by decide), if_neg (by decide), if_pos rfl]
  unfold Px.ifDirective
  rw [o.dirStart (n := c!"if") (r := c!" " ++ e.src) hw rfl]
  simp only [bind, Except.bind, h1, h2, hstrip, h3, false_and, if_false, o.colon, Bool.false_eq_true, o.skipColon, o.rest]

/-! ### `#if` on one line -/

theorem ternaryParts_free {ps : List Str} (h : ps.filter isKey = []) (ws : List Str) :
    ternaryParts 0 (ps ++ ws) = (ps.flatten ++ (ternaryParts 0 ws).1, (ternaryParts 0 ws).2) ∧
    ternaryParts 1 (ps ++ ws) = ((ternaryParts 1 ws).1, ps.flatten ++ (ternaryParts 1 ws).2.1, (ternaryParts 1 ws).2.2) ∧
    ternaryParts 2 (ps ++ ws) = ((ternaryParts 2 ws).1, (ternaryParts 2 ws).2.1, ps.flatten ++ (ternaryParts 2 ws).2.2) := by
  induction ps with
  | nil => simp
  | cons p ps ih =>
    have hp : isKey p = false := by
      cases hk : isKey p with
      | false => rfl
      | true => rw [List.filter_cons, if_pos hk] at h; cases h
    rw [keys_skip hp] at h
    obtain ⟨i1, i2, i3⟩ := ih h
    unfold isKey at hp
    simp only [Bool.or_eq_false_iff, decide_eq_false_iff_not] at hp
    refine ⟨?_, ?_, ?_⟩ <;> rw [List.cons_append, ternaryParts, if_neg hp.1, if_neg hp.2]
    · simp [i1]
    · simp [i2]
    · simp [i3]

theorem ternary_three {p1 p2 p3 : List Str} (h1 : p1.filter isKey = []) (h2 : p2.filter isKey = []) (h3 : p3.filter isKey = []) :
    ternaryParts 0 (p1 ++ (c!"then" :: p2 ++ c!"else" :: p3)) = (p1.flatten, p2.flatten, p3.flatten) := by
  have e3 := (ternaryParts_free h3 []).2.2
  rw [List.append_nil] at e3
  have t1 : strip c!"then" = c!"then" := by decide +kernel
  have t2 : strip c!"else" = c!"else" := by decide +kernel
  rw [(ternaryParts_free h1 _).1, List.cons_append, ternaryParts, if_pos t1, (ternaryParts_free h2 _).2.1, ternaryParts, if_neg (by rw [t2]; decide), if_pos t2, e3]
  simp [ternaryParts]

theorem filter_key_tail {t : Str} {ps : List Str} {e : Ex} (ht : isKey t = true) (h1 : (ps.filter isKey).Sublist (Ex.tok t e).keys) (h2 : ps.head? = some t) (h3 : e.keys = [])
    (h4 : ps.flatten = (Ex.tok t e).py) : ∃ qs, ps = t :: qs ∧ qs.filter isKey = [] ∧ qs.flatten = e.py := by
  cases ps with
  | nil => cases h2
  | cons p qs =>
    injection h2 with h2
    subst h2
    rw [List.filter_cons, if_pos ht, Ex.keys, if_pos ht, h3] at h1
    rw [List.flatten_cons, Ex.py] at h4
    exact ⟨qs, rfl, by simpa using h1, List.append_cancel_left h4⟩

theorem ternary_ex {h : Env} {a b : Str} {e1 e2 e3 : Ex} (o : DLine x a (c!"if " ++ e1.src ++ c!"then " ++ e2.src ++ c!"else " ++ e3.src) z b post ws)
    (h1 : e1.Ok x.tok true 't' ∧ e1.keys = []) (h2 : e2.Ok x.tok true 'e' ∧ e2.keys = []) (h3 : e3.Ok x.tok true z ∧ e3.keys = []) :
    x.directive h fullSt c!"if" a.length = .ok (.go (ws ++ [.ternary (c!"if " ++ e1.py) (' ' :: e2.py) (' ' :: e3.py)])
      (a ++ c!"#" ++ (c!"if " ++ e1.src ++ c!"then " ++ e2.src ++ c!"else " ++ e3.src) ++ post).length) := by
  have w1 : Word c!"if" := word_of_ascii _ _ _ rfl (by decide) (by decide)
  have w2 : Word c!"then" := word_of_ascii _ _ _ rfl (by decide) (by decide)
  have w3 : Word c!"else" := word_of_ascii _ _ _ rfl (by decide) (by decide)
  have k1 : (Ex.tok c!"if" (.sp e1)).Ok x.tok true 't' := ⟨isTok_word o.toks w1 (by decide) space_facts.1 space_facts.2, h1.1⟩
  have k2 : (Ex.tok c!"then" (.sp e2)).Ok x.tok true 'e' := ⟨isTok_word' o.toks w2 (by decide) space_facts.1 space_facts.2, h2.1⟩
  have k3 : (Ex.tok c!"else" (.sp e3)).Ok x.tok true z := ⟨isTok_word o.toks w3 (by decide) space_facts.1 space_facts.2, h3.1⟩
  have n1 := Ex.size_le _ _ _ _ k1
  have n2 := Ex.size_le _ _ _ _ k2
  have n3 := Ex.size_le _ _ _ _ k3
  have s1 : x.src = (a ++ c!"#") ++ (Ex.tok c!"if" (.sp e1)).src ++ 't' :: (c!"hen " ++ e2.src ++ c!"else " ++ e3.src ++ z :: b) := by rw [o.src]; simp [Ex.src]
  have s2 : x.src = (a ++ c!"#" ++ (Ex.tok c!"if" (.sp e1)).src) ++ (Ex.tok c!"then" (.sp e2)).src ++ 'e' :: (c!"lse " ++ e3.src ++ z :: b) := by rw [o.src]; simp [Ex.src]
  have s3 : x.src = (a ++ c!"#" ++ (Ex.tok c!"if" (.sp e1)).src ++ (Ex.tok c!"then" (.sp e2)).src) ++ (Ex.tok c!"else" (.sp e3)).src ++ z :: b := by rw [o.src]; simp [Ex.src]
  have b1 := o.noBs
  have b2 := b1.append (Ex.noBs _ _ _ k1)
  have b3 := b2.append (Ex.noBs _ _ _ k2)
  have b4 := b3.append (Ex.noBs _ _ _ k3)
  have hz := o.stop
  have hf : (Ex.tok c!"if" (.sp e1)).size + (Ex.tok c!"then" (.sp e2)).size + (Ex.tok c!"else" (.sp e3)).size + 4 ≤ x.fuel (a ++ c!"#").length := by
    unfold Px.fuel; rw [o.std.bp, s3]; simp only [List.length_append, List.length_cons, List.length_nil]; omega
  generalize hk : x.fuel (a ++ c!"#").length = k at hf
  obtain ⟨j1, p1, q1, f1, g1, r1⟩ := (expr_main o.std o.brackets _ _ (Nat.le_refl _)).1 true 't' _ _ false [c!":"] [] k k1 (by simp) s1 b1 (by simp) (by simp) (by omega)
  obtain ⟨j2, p2, q2, f2, g2, r2⟩ := (expr_main o.std o.brackets _ _ (Nat.le_refl _)).1 true 'e' _ _ false [c!":"] [] j1 k2 (by simp) s2 b2 (by simp) (by simp) (by omega)
  obtain ⟨j3, p3, q3, f3, g3, r3⟩ := (expr_main o.std o.brackets _ _ (Nat.le_refl _)).1 true z _ _ false [c!":"] [] j2 k3 (by rcases hz with rfl | rfl <;> simp) s3 b3 (by simp) (by simp) (by omega)
  obtain ⟨j3, rfl⟩ : ∃ j, j3 = j + 1 := ⟨j3 - 1, by omega⟩
  rw [exprParts_last o.std fullSt hz j3 s3 b4] at r3
  rw [r3] at r2
  rw [r2] at r1
  obtain ⟨u2, rfl, v2, y2⟩ := filter_key_tail (by decide +kernel) g2.1 (g2.2 _ _ rfl) (show (Ex.sp e2).keys = [] from h2.2) f2
  obtain ⟨u3, rfl, v3, y3⟩ := filter_key_tail (by decide +kernel) g3.1 (g3.2 _ _ rfl) (show (Ex.sp e3).keys = [] from h3.2) f3
  have v1 : p1.filter isKey = [] := by
    have := g1.1
    rw [Ex.keys, if_neg (by decide +kernel), Ex.keys, h1.2] at this
    simpa using this
  have hparts : x.exprParts k fullSt false [c!":"] [] (a ++ c!"#").length =
      .ok (p1 ++ (c!"then" :: u2 ++ c!"else" :: u3), (a ++ c!"#" ++ (c!"if " ++ e1.src ++ c!"then " ++ e2.src ++ c!"else " ++ e3.src)).length) := by
    rw [r1]
    simp [pre, bind, Except.bind, Ex.src]
  unfold Px.directive
  rw [if_neg (by decide), if_neg (by decide), if_pos rfl]
  unfold Px.ifDirective
  rw [o.dirStart (n := c!"if") (r := c!" " ++ e1.src ++ c!"then " ++ e2.src ++ c!"else " ++ e3.src) w1 (by simp)]
  simp only [bind, Except.bind]
  rw [hk]
  simp only [hparts]
  rw [if_pos ⟨by simp, by simp⟩]
  simp only [o.rest, ternary_three v1 v2 v3, f1, y2, y3, Ex.py]
  rfl

theorem reopens_ex {h : Env} {a b : Str} {f : Ex} {n : Str} (hn : n = c!"elif" ∨ n = c!"else" ∨ n = c!"except" ∨ n = c!"finally") (r : Str) (hL : f.src = n ++ r) (o : DLine x a f.src z b post ws) (he : f.Ok x.tok true z) :
    x.directive h fullSt n a.length = .ok (.go (ws ++ [.reindenting n f.py true]) (a ++ c!"#" ++ f.src ++ post).length) := by
  have hw : Word n := by rcases hn with rfl | rfl | rfl | rfl <;> exact word_of_ascii _ _ _ rfl (by decide) (by decide)
  have hexpr := o.expression he rfl [c!":"] (by simp)
  unfold Px.directive
  rw [if_pos (by rcases hn with rfl | rfl | rfl | rfl <;> decide)]
  unfold Px.simpleIndenting Px.nameStart
  rw [if_neg (by rcases hn with rfl | rfl | rfl | rfl <;> decide), o.dirStart hw hL]
  simp only [bind, Except.bind, o.skip_hash hw hL, hexpr, o.colon, Bool.false_eq_true, if_false, o.skipColon, o.rest]
  rw [if_neg (by rcases hn with rfl | rfl | rfl | rfl <;> decide)]

/-! ### `#for` and `#set` -/

/-- A token at which the reader stops. -/
theorem exprParts_break (hx : Std x.toCx) (st : GenVar.Settings) {brk : List Str} {a t r : Str} (n : Nat) (h : x.src = a ++ t ++ r)
    (ht : x.tok (t ++ r) = some t.length) (hs : ∃ d r, t = d :: r ∧ d ∉ c!"()[]{} \t\x0c\r\n\\$#") (hb : t ∈ brk) :
    x.exprParts (n + 1) st false brk [] a.length = .ok ([], a.length) := by
  have htk := pyTok_at h hx.bp ht
  rw [← List.length_append] at htk
  obtain ⟨d, t', ht', hd⟩ := hs
  have h' : x.src = a ++ d :: (t' ++ r) := by rw [h, ht']; simp
  obtain ⟨h1, h2, h3, h4, h5, h6⟩ := not_special (c := d) (by simp at hd ⊢; tauto)
  obtain ⟨ns, hcfg⟩ := hx.cfg
  obtain ⟨v1, v2⟩ := novar_at (x := x.toCx) h' (by rw [hcfg]; rfl) h6
  have hde : x.matchTok x.cfg.dirEnd a.length = none := matchTok_none h' (by rw [hcfg]; simp [Cfg.std] at hd ⊢; tauto) (by rw [hcfg]; simp [Cfg.std])
  conv_lhs => unfold Px.exprParts
  rw [peek_head hx h']
  simp only [List.head?_cons, h1, h2, h3, h4, h5, hde, v1, v2, htk, hb, bind, Except.bind, Bool.false_eq_true, if_false,
    Option.isSome_none, false_and, true_and, if_true]

/-- Variables without look-up. -/
def plainSt : GenVar.Settings := { fullSt with useNameMapper := false }

theorem genVar_plain (w : Str) : genVar plainSt false [⟨w, true, []⟩] = .ok w := by
  simp [genVar, GenVar.genCheetahVar, GenVar.genPlainVar, fullSt, plainSt]

/-- `$w`, a blank and a token at which the reader stops. -/
theorem exprParts_target (hx : Std x.toCx) {brk : List Str} {a w t r : Str} (n : Nat) (h : x.src = a ++ '$' :: (w ++ ' ' :: (t ++ r))) (ha : NoBs a) (hw : Dotted w)
    (ht : x.tok (t ++ r) = some t.length) (hs : ∃ d r, t = d :: r ∧ d ∉ c!"()[]{} \t\x0c\r\n\\$#") (hb : t ∈ brk) :
    x.exprParts (n + 4) plainSt false brk [] a.length = .ok ([w, c!" "], (a ++ '$' :: (w ++ c!" ")).length) := by
  obtain ⟨d, w', hw', hd⟩ := hw.head
  obtain ⟨d2, t', ht', hd2⟩ := id hs
  have h1 : x.src = a ++ '$' :: d :: (w' ++ ' ' :: (t ++ r)) := by rw [h, hw']; rfl
  have h2 : x.src = (a ++ '$' :: w) ++ ' ' :: [] ++ (t ++ r) := by rw [h]; simp
  have h3 : x.src = (a ++ '$' :: (w ++ c!" ")) ++ t ++ r := by rw [h]; simp
  have e1 : (a ++ '$' :: w) ++ ' ' :: [] = a ++ '$' :: (w ++ c!" ") := by simp
  rw [exprParts_var hx plainSt (n + 3) h1 hd (by simp), cheetahVar_at hx hw (by decide) (by decide) h ha plainSt false n, genVar_plain]
  simp only [bind, Except.bind]
  rw [exprParts_blanks hx plainSt (n + 2) h2 (by simp) (by
    intro c hc
    rw [ht'] at hc
    injection hc with hc
    subst hc
    simp at hd2 ⊢
    tauto) (by simp), e1, exprParts_break hx plainSt (n + 1) h3 ht hs hb]
  rfl

theorem opens_for_ex {h : Env} {a b v : Str} {e : Ex} (o : DLine x a (c!"for $" ++ v ++ c!" in " ++ e.src) z b post ws) (he : Tidy x.tok z e) (hv : Word v) :
    x.directive h fullSt c!"for" a.length = .ok (.opened c!"for" (ws ++ [.indenting c!"for" (c!"for " ++ v ++ c!" in " ++ e.py)])
      (a ++ c!"#" ++ (c!"for $" ++ v ++ c!" in " ++ e.src) ++ post).length) := by
  have hw : Word c!"for" := word_of_ascii _ _ _ rfl (by decide) (by decide)
  have hin : Word c!"in" := word_of_ascii _ _ _ rfl (by decide) (by decide)
  have hL : c!"for $" ++ v ++ c!" in " ++ e.src = c!"for" ++ (c!" $" ++ v ++ c!" in " ++ e.src) := by simp
  have s1 : x.src = (a ++ c!"#") ++ c!"for" ++ ' ' :: ('$' :: (v ++ ' ' :: (c!"in" ++ (' ' :: (e.src ++ z :: b))))) := by rw [o.src]; simp
  have s2 : x.src = (a ++ c!"#" ++ c!"for") ++ ' ' :: [] ++ ('$' :: (v ++ ' ' :: (c!"in" ++ (' ' :: (e.src ++ z :: b))))) := by rw [o.src]; simp
  have s3 : x.src = (a ++ c!"#" ++ c!"for" ++ c!" ") ++ ('$' :: (v ++ ' ' :: (c!"in" ++ (' ' :: (e.src ++ z :: b))))) := by rw [o.src]; simp
  have s4 : x.src = (a ++ c!"#" ++ c!"for" ++ c!" " ++ '$' :: (v ++ c!" ")) ++ (Ex.tok c!"in" (.sp e)).src ++ z :: b := by rw [o.src]; simp [Ex.src]
  have hk : ∃ k, x.fuel (a ++ c!"#").length = k + 6 ∧ 4 * (Ex.tok c!"in" (.sp e)).src.length + 4 ≤ k + 5 := by
    have hlen := congrArg List.length s1
    refine ⟨x.fuel (a ++ c!"#").length - 6, ?_, ?_⟩
    · unfold Px.fuel; rw [o.std.bp, s1]; simp; omega
    · unfold Px.fuel; rw [o.std.bp, s1]; simp [Ex.src]; omega
  obtain ⟨k, hk1, hk2⟩ := hk
  obtain ⟨ps, p1, p2, _⟩ := exprParts_ex o.std o.brackets o.stop (ok_named o.toks hin (by decide) he.ok) s4 ((o.before.append (by unfold NoBs; decide)).append
    (by unfold NoBs; decide) |>.append (by unfold NoBs; decide) |>.append (by
      have : ('$' :: (v ++ c!" ")) = ('$' :: v) ++ c!" " := by simp
      rw [this]; exact NoBs.snoc _ (by decide))) [c!":"] (by simp) (k + 5) hk2
  have htar := exprParts_target o.std (brk := [c!"in"]) (k + 0) s3 (NoBs.snoc _ (by decide)) (.one v hv)
    (o.toks c!"in" ' ' _ hin (by decide) (by decide) (by decide)) ⟨'i', c!"n", rfl, by decide⟩ (by simp)
  have hexpr : x.expression fullSt false [c!":"] [] (a ++ c!"#").length = .ok (c!"for " ++ v ++ c!" in " ++ e.py, (a ++ c!"#" ++ (c!"for $" ++ v ++ c!" in " ++ e.src)).length) := by
    unfold Px.expression
    rw [hk1, exprParts_for o.std o.toks fullSt _ s1 (by decide) (by decide) (by decide)]
    have hst : ({ fullSt with useNameMapper := false } : GenVar.Settings) = plainSt := rfl
    rw [hst, exprParts_blanks o.std plainSt (k + 4) s2 (by simp) (by intro c hc; injection hc with hc; subst hc; decide) (by simp), htar]
    simp only [bind, Except.bind]
    rw [p1]
    simp only [List.flatten_cons, p2]
    simp [Ex.py, Ex.src]
  unfold Px.directive
  rw [if_pos (by decide)]
  unfold Px.simpleIndenting Px.nameStart
  rw [if_neg (by decide), o.dirStart hw hL]
  simp only [bind, Except.bind, o.skip_hash hw hL, hexpr, o.colon, Bool.false_eq_true, if_false, o.skipColon, o.rest]
  rw [if_pos (by decide)]

theorem strip_trail {s : Str} (h1 : ∀ c, s.head? = some c → isSpace c = false) (h2 : ∀ c, s.getLast? = some c → isSpace c = false) : strip (s ++ c!" ") = s := by
  obtain ⟨a, b, e1, e2, e3, e4, e5⟩ := strip_spec (s ++ c!" ")
  cases s with
  | nil => decide +kernel
  | cons c s =>
    have hl : lstrip (c :: s ++ c!" ") = c :: s ++ c!" " := lstrip_eq_self (by simpa using h1 c rfl)
    have key : ∀ t : Str, (∀ c, t.getLast? = some c → isSpace c = false) → rstrip (t ++ c!" ") = t := by
      intro t
      induction t with
      | nil => intro _; decide +kernel
      | cons d t ih =>
        intro ht
        rw [List.cons_append, rstrip]
        have hh : rstrip (t ++ c!" ") = t := by
          by_cases hn : t = []
          · subst hn; decide +kernel
          · exact ih fun c hc => ht c (by rw [show d :: t = [d] ++ t from rfl, getLast?_app hn]; exact hc)
        rw [hh]
        cases t with
        | nil => simp [ht d rfl]
        | cons => rfl
    rw [strip, hl, key _ h2]

theorem identChar_space {c : Char} (h : identChar c = true) : isSpace c = false := by
  have hn : 48 ≤ c.toNat ∧ c.toNat ≤ 122 := by
    unfold identChar Char.isAlphanum Char.isAlpha Char.isUpper Char.isLower Char.isDigit at h
    simp only [Bool.or_eq_true, Bool.and_eq_true, decide_eq_true_eq, beq_iff_eq, ge_iff_le, UInt32.le_iff_toNat_le] at h
    rcases h with ((h | h) | h) | rfl
    · exact ⟨Nat.le_trans (by decide) h.1, Nat.le_trans h.2 (by decide)⟩
    · exact ⟨Nat.le_trans (by decide) h.1, Nat.le_trans h.2 (by decide)⟩
    · exact ⟨Nat.le_trans (by decide) h.1, Nat.le_trans h.2 (by decide)⟩
    · decide
  unfold isSpace
  simp only [Bool.or_eq_false_iff, Bool.and_eq_false_iff, decide_eq_false_iff_not, beq_eq_false_iff_ne, ne_eq]
  omega

theorem Dotted.no_space {v : Str} (hv : Dotted v) : (∀ c, v.head? = some c → isSpace c = false) ∧ ∀ c, v.getLast? = some c → isSpace c = false := by
  have hid : ∀ {w : Str}, Word w → (∀ c, w.head? = some c → isSpace c = false) ∧ ∀ c, w.getLast? = some c → isSpace c = false := by
    intro w hw
    exact ⟨fun c hc => identChar_space (hw.all c (List.mem_of_head? hc)), fun c hc => identChar_space (hw.all c (List.mem_of_getLast? hc))⟩
  induction hv with
  | one w hw => exact hid hw
  | more u w hu hw ih =>
    obtain ⟨d, w', rfl, _⟩ := hw.head
    obtain ⟨d', u', rfl, hd', hu'⟩ := id hu
    refine ⟨fun c hc => (hid hu).1 c hc, fun c hc => ih.2 c ?_⟩
    rwa [show (d' :: u' ++ '.' :: d :: w') = (d' :: u' ++ c!".") ++ d :: w' by simp, getLast?_app (by simp)] at hc

theorem setOps_head {op : Str} (h : op ∈ setOps) : ∃ d r, op = d :: r ∧ d ∉ c!"()[]{} \t\x0c\r\n\\$#" := by
  simp only [setOps, List.mem_cons, List.not_mem_nil, or_false] at h
  rcases h with rfl | rfl | rfl | rfl | rfl | rfl | rfl | rfl | rfl | rfl | rfl | rfl <;> exact ⟨_, _, rfl, by decide⟩

theorem setOps_assign {op : Str} (h : op ∈ setOps) : op ∈ assignOps := by
  simp only [setOps, List.mem_cons, List.not_mem_nil, or_false] at h
  rcases h with rfl | rfl | rfl | rfl | rfl | rfl | rfl | rfl | rfl | rfl | rfl | rfl <;> decide

theorem setOps_oneLine {op : Str} (h : op ∈ setOps) : OneLine op := by
  simp only [setOps, List.mem_cons, List.not_mem_nil, or_false] at h
  rcases h with rfl | rfl | rfl | rfl | rfl | rfl | rfl | rfl | rfl | rfl | rfl | rfl <;> (unfold OneLine; decide)

theorem setOps_noBs {op : Str} (h : op ∈ setOps) (a : Str) : NoBs (a ++ op) := by
  unfold NoBs
  simp only [setOps, List.mem_cons, List.not_mem_nil, or_false] at h
  rcases h with rfl | rfl | rfl | rfl | rfl | rfl | rfl | rfl | rfl | rfl | rfl | rfl <;> (rw [getLast?_app (by simp)]; decide)

theorem set_ex {h : Env} {a b v op : Str} {e : Ex} (o : DLine x a (c!"set $" ++ v ++ c!" " ++ op ++ c!" " ++ e.src) z b post ws) (hop : op ∈ setOps) (heq : ∀ r, x.tok (op ++ ' ' :: r) = some op.length) (he : Tidy x.tok z e) (hv : Dotted v) :
    x.directive h fullSt c!"set" a.length = .ok (.go (ws ++ [.set v op (' ' :: e.py) 0]) (a ++ c!"#" ++ (c!"set $" ++ v ++ c!" " ++ op ++ c!" " ++ e.src) ++ post).length) := by
  have hw : Word c!"set" := word_of_ascii _ _ _ rfl (by decide) (by decide)
  have s3 : x.src = (a ++ c!"#" ++ c!"set" ++ c!" ") ++ ('$' :: (v ++ ' ' :: (op ++ (' ' :: (e.src ++ z :: b))))) := by rw [o.src]; simp
  have s4 : x.src = (a ++ c!"#" ++ c!"set" ++ c!" " ++ '$' :: (v ++ c!" ")) ++ op ++ (' ' :: (e.src ++ z :: b)) := by rw [o.src]; simp
  have s5 : x.src = (a ++ c!"#" ++ c!"set" ++ c!" " ++ '$' :: (v ++ c!" ") ++ op) ++ (Ex.sp e).src ++ z :: b := by rw [o.src]; simp [Ex.src]
  have hk : ∃ k, x.fuel (a ++ c!"#" ++ c!"set" ++ c!" ").length = k + 4 := ⟨4 * (x.bp - (a ++ c!"#" ++ c!"set" ++ c!" ").length), rfl⟩
  obtain ⟨k, hk⟩ := hk
  have htar := exprParts_target o.std (brk := assignOps) k s3 (NoBs.snoc _ (by decide)) hv (heq _) (setOps_head hop) (setOps_assign hop)
  have hl : x.expression plainSt false assignOps [] (a ++ c!"#" ++ c!"set" ++ c!" ").length = .ok (v ++ c!" ", (a ++ c!"#" ++ c!"set" ++ c!" " ++ '$' :: (v ++ c!" ")).length) := by
    unfold Px.expression
    rw [hk, htar]
    simp [bind, Except.bind]
  have hass : x.assignOp (a ++ c!"#" ++ c!"set" ++ c!" " ++ '$' :: (v ++ c!" ")).length = .ok (op, (a ++ c!"#" ++ c!"set" ++ c!" " ++ '$' :: (v ++ c!" ") ++ op).length) := by
    unfold Px.assignOp
    have htk := pyTok_at s4 o.std.bp (heq _)
    rw [← List.length_append] at htk
    rw [htk]
    simp [bind, Except.bind, setOps_assign hop]
  have hr := expression_ex o.std o.brackets o.stop (e := .sp e) he.ok s5 (setOps_noBs hop _) [] (by simp)
  have e1 : (a ++ c!"#" ++ c!"set" ++ c!" " ++ '$' :: (v ++ c!" ") ++ op) ++ (Ex.sp e).src = a ++ c!"#" ++ (c!"set $" ++ v ++ c!" " ++ op ++ c!" " ++ e.src) := by simp [Ex.src]
  rw [e1] at hr
  have hstyle : x.setStyle (a ++ c!"#" ++ c!"set" ++ c!" ").length = .ok (0, (a ++ c!"#" ++ c!"set" ++ c!" ").length) := by
    unfold Px.setStyle
    rw [rest_after s3]
    simp [startsWith, stripPrefix?]
  have hstrip : strip (v ++ c!" ") = v := by
    exact strip_trail hv.no_space.1 hv.no_space.2
  have hst : ({ fullSt with useNameMapper := false } : GenVar.Settings) = plainSt := rfl
  have hdir : x.directive h fullSt c!"set" a.length = x.setDirective fullSt a.length := rfl
  rw [hdir]
  unfold Px.setDirective
  rw [o.afterName (n := c!"set") (c := ' ') (r := '$' :: v ++ c!" " ++ op ++ c!" " ++ e.src) hw (by simp)]
  simp only [bind, Except.bind, o.skip_name (n := c!"set") (r := '$' :: v ++ c!" " ++ op ++ c!" " ++ e.src) (by simp) (by intro c hc; injection hc with hc; subst hc; decide), hstyle, hst, hl, hass, hr, o.rest, hstrip, Ex.py]

end Cheetah.Parser
