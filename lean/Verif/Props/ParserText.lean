import Verif.Props.ParserHigh
import Verif.Props.Interval
/-
C34: text outside tags passes through the parser unchanged.
-/
namespace Cheetah.Parser

/-! ### Specification: where a tag starts, with the default tokens -/

/-- A placeholder's cache mark: nothing, `*`, or an interval between stars, like `*2.5h*`. -/
inductive CacheMark : Str → Prop
  | none : CacheMark []
  | static : CacheMark c!"*"
  | refresh (num unit : Str) : num ≠ [] → (∀ c ∈ num, c ∈ c!"0123456789.") → unit ∈ [[], c!"s", c!"m", c!"h", c!"d", c!"w"] →
      CacheMark ('*' :: num ++ unit ++ c!"*")

/-- A placeholder's opening bracket, with white space after it, or nothing. -/
inductive Opening : Str → Prop
  | none : Opening []
  | bracket (o : Char) (w : Str) : o ∈ c!"{([" → (∀ c ∈ w, c = ' ' ∨ c = '\t' ∨ c = '\x0c') → Opening (o :: w)

/-- A letter or an underscore. -/
def Letter (c : Char) : Prop := c.isAlpha = true ∨ c = '_'

/-- A tag starts between the two texts. -/
inductive TagStart (names : List Str) : Str → Str → Prop
  | comment (a r : Str) : a.getLast? ≠ some '\\' → TagStart names a (c!"##" ++ r)
  | mlComment (a r : Str) : a.getLast? ≠ some '\\' → TagStart names a (c!"#*" ++ r)
  | psp (a r : Str) : a.getLast? ≠ some '\\' → TagStart names a (c!"<%" ++ r)
  | placeholder (a sil mark opening : Str) (c : Char) (r : Str) : a.getLast? ≠ some '\\' → sil = [] ∨ sil = c!"!" → CacheMark mark →
      Opening opening → Letter c → TagStart names a ('$' :: sil ++ mark ++ opening ++ c :: r)
  | expression (a mark : Str) (o c : Char) (r : Str) : a.getLast? ≠ some '\\' → CacheMark mark → o ∈ c!"{([" → c ∉ c!"})]" →
      TagStart names a ('$' :: mark ++ o :: c :: r)
  | directive (a r name : Str) : a.getLast? ≠ some '\\' → (∃ c, r.head? = some c ∧ (Letter c ∨ c = '@')) → directiveOf names r = some name →
      TagStart names a ('#' :: r)
  | slurp (a w e r : Str) : (∀ c ∈ w, c = ' ' ∨ c = '\t' ∨ c = '\x0c') → e = c!"\n" ∨ e = c!"\r" → TagStart names a ('#' :: w ++ e ++ r)

/-! ### The matchers agree with it -/

theorem unescaped_iff {x : Cx} {a b : Str} (h : x.src = a ++ b) : x.unescaped a.length = true ↔ a.getLast? ≠ some '\\' := by
  unfold Cx.unescaped
  rcases a.eq_nil_or_concat with rfl | ⟨a', c, rfl⟩
  · simp
  · simp [h]

theorem rest_after {x : Cx} {a b : Str} (h : x.src = a ++ b) : x.rest a.length = b := by
  rw [Cx.rest, h, drop_length_append _ _ _ rfl]

theorem identStart_iff (c : Char) : identStart c = true ↔ Letter c := by simp [identStart, Letter]

theorem isWs_iff (c : Char) : isWs c = true ↔ c = ' ' ∨ c = '\t' ∨ c = '\x0c' := by simp [isWs, or_assoc]

theorem isOpen_iff (c : Char) : isOpen c = true ↔ c ∈ c!"{([" := by simp [isOpen, or_assoc]

theorem isClose_iff (c : Char) : isClose c = true ↔ c ∈ c!"})]" := by simp [isClose, or_assoc]

theorem headIs_iff {f : Char → Bool} {s : Str} : headIs f s = true ↔ ∃ c r, s = c :: r ∧ f c = true := by
  cases s with
  | nil => simp [headIs]
  | cons c r => simp [headIs]

theorem digit_iff (c : Char) : isDigit c = true ↔ c ∈ c!"0123456789" := by
  constructor
  · intro h
    simp only [isDigit, Bool.and_eq_true, decide_eq_true_eq] at h
    have : c = Char.ofNat c.toNat := (Char.ofNat_toNat c).symm
    rw [this]
    obtain ⟨h1, h2⟩ := h
    generalize c.toNat = n at h1 h2
    have : n = 48 ∨ n = 49 ∨ n = 50 ∨ n = 51 ∨ n = 52 ∨ n = 53 ∨ n = 54 ∨ n = 55 ∨ n = 56 ∨ n = 57 := by omega
    rcases this with rfl | rfl | rfl | rfl | rfl | rfl | rfl | rfl | rfl | rfl <;> decide
  · exact Interval.isDigit_of_mem

theorem num_iff (c : Char) : (isDigit c || c == '.') = true ↔ c ∈ c!"0123456789." := by
  rw [Bool.or_eq_true, digit_iff]
  simp only [List.mem_cons, List.not_mem_nil, or_false, beq_iff_eq, or_assoc]

theorem unitLetter_spec (s : Str) : ∃ u r, Interval.unitLetter s = (u, r) ∧ s = u ++ r ∧ u ∈ [[], c!"s", c!"m", c!"h", c!"d", c!"w"] := by
  cases s with
  | nil => exact ⟨[], [], rfl, rfl, by simp⟩
  | cons c r =>
    unfold Interval.unitLetter
    split
    · rename_i c' r' he
      injection he with h1 h2
      subst h1 h2
      by_cases h : c = 's' ∨ c = 'm' ∨ c = 'h' ∨ c = 'd' ∨ c = 'w'
      · rw [if_pos h]
        exact ⟨[c], r, rfl, rfl, by simpa using h⟩
      · rw [if_neg h]
        exact ⟨[], c :: r, rfl, rfl, by simp⟩
    · rename_i he
      cases he

/-- What is read as a cache token is a cache mark. -/
theorem readToken_spec (s : Str) : ∃ mark, CacheMark mark ∧ s = mark ++ (Interval.readToken s).2 := by
  unfold Interval.readToken
  split
  · rename_i i r h
    unfold Interval.matchRefresh at h
    split at h
    · rename_i r'
      obtain ⟨u, t, hu, ht, hm⟩ := unitLetter_spec (r'.dropWhile fun c => isDigit c || c == '.')
      simp only [hu] at h
      split at h
      · rename_i t'
        split at h
        · cases h
        · rename_i hne
          cases h
          refine ⟨_, .refresh _ u hne (fun c hc => (num_iff c).1 (List.all_eq_true.1 List.all_takeWhile c hc)) hm, ?_⟩
          have h2 := List.takeWhile_append_dropWhile (p := fun c => isDigit c || c == '.') (l := r')
          rw [ht] at h2
          conv => lhs; rw [← h2]
          simp
      · cases h
    · cases h
  · split
    · exact ⟨_, .static, rfl⟩
    · exact ⟨_, .none, rfl⟩

theorem takeWhile_stop {p : Char → Bool} {a t : Str} (ha : ∀ c ∈ a, p c = true) (ht : ∀ c, t.head? = some c → p c = false) :
    (a ++ t).takeWhile p = a ∧ (a ++ t).dropWhile p = t := Interval.takeWhile_stop ha ht

/-- A cache mark is read as a whole, if a letter or an opening bracket follows. -/
theorem readToken_mark {mark r : Str} {c : Char} (hm : CacheMark mark) (hc : Letter c ∨ c ∈ c!"{([") : (Interval.readToken (mark ++ c :: r)).2 = c :: r := by
  have hne : c ≠ '*' ∧ (isDigit c || c == '.') = false := by
    rcases hc with (h | h) | h
    · constructor
      · rintro rfl; exact absurd h (by decide)
      · simp only [Char.isAlpha, Char.isUpper, Char.isLower, Bool.or_eq_true, Bool.and_eq_true, decide_eq_true_eq] at h
        have h1 : isDigit c = false := by
          simp only [isDigit, Bool.and_eq_false_iff, decide_eq_false_iff_not]
          have e : c.toNat = c.val.toNat := rfl
          rcases h with ⟨h, _⟩ | ⟨h, _⟩
          · right; have := UInt32.le_iff_toNat_le.1 h; simp at this; omega
          · right; have := UInt32.le_iff_toNat_le.1 h; simp at this; omega
        rw [h1]
        simp only [Bool.false_or, beq_eq_false_iff_ne]
        rintro rfl
        exact absurd h (by decide)
    · subst h; decide
    · simp only [List.mem_cons, List.not_mem_nil, or_false] at h
      rcases h with rfl | rfl | rfl <;> decide
  cases hm with
  | none =>
    unfold Interval.readToken Interval.matchRefresh
    simp only [List.nil_append]
    split
    · rename_i h
      split at h
      · rename_i h1; injection h1 with h1; exact absurd h1 hne.1
      · cases h
    · split
      · rename_i h1; injection h1 with h1; exact absurd h1 hne.1
      · rfl
  | static =>
    unfold Interval.readToken Interval.matchRefresh
    obtain ⟨e1, e2⟩ := takeWhile_stop (p := fun c => isDigit c || c == '.') (a := []) (t := c :: r) (by simp) (by simpa using hne.2)
    rw [List.nil_append] at e1 e2
    simp only [List.cons_append, List.nil_append, e1, e2]
    split
    · rename_i h
      split at h <;> simp at h
    · rfl
  | refresh num unit h1 h2 h3 =>
    have hstop : ∀ c', (unit ++ '*' :: c :: r).head? = some c' → (isDigit c' || c' == '.') = false := by
      intro c' hc'
      simp only [List.mem_cons, List.not_mem_nil, or_false] at h3
      rcases h3 with rfl | rfl | rfl | rfl | rfl | rfl <;> (simp at hc'; subst hc'; decide)
    obtain ⟨e1, e2⟩ := takeWhile_stop (p := fun c => isDigit c || c == '.') (a := num) (t := unit ++ '*' :: c :: r)
      (fun c hc => (num_iff c).2 (h2 c hc)) hstop
    have e3 : Interval.unitLetter (unit ++ '*' :: c :: r) = (unit, '*' :: c :: r) := by
      simp only [List.mem_cons, List.not_mem_nil, or_false] at h3
      rcases h3 with rfl | rfl | rfl | rfl | rfl | rfl <;> simp [Interval.unitLetter]
    unfold Interval.readToken Interval.matchRefresh
    have e4 : '*' :: num ++ unit ++ c!"*" ++ c :: r = '*' :: (num ++ (unit ++ '*' :: c :: r)) := by simp
    rw [e4]
    simp only [e1, e2, e3, h1, if_false]

theorem letter_no_silence {c : Char} (h : Letter c ∨ c ∈ c!"{([") : c ≠ '!' := by
  rintro rfl
  rcases h with (h | h) | h
  · exact absurd h (by decide)
  · exact absurd h (by decide)
  · exact absurd h (by decide)

theorem enclosureThenName_iff (s : Str) : enclosureThenName s = true ↔ ∃ opening c r, s = opening ++ c :: r ∧ Opening opening ∧ Letter c := by
  unfold enclosureThenName
  rw [Bool.or_eq_true]
  constructor
  · rintro (h | h)
    · obtain ⟨c, r, rfl, hc⟩ := headIs_iff.1 h
      exact ⟨[], c, r, rfl, .none, (identStart_iff c).1 hc⟩
    · cases s with
      | nil => simp at h
      | cons o t =>
        rw [Bool.and_eq_true] at h
        obtain ⟨c, r, hr, hc⟩ := headIs_iff.1 h.2
        refine ⟨o :: t.takeWhile isWs, c, r, ?_, .bracket o _ ((isOpen_iff o).1 h.1) fun d hd => ?_, (identStart_iff c).1 hc⟩
        · rw [List.cons_append, ← hr, List.takeWhile_append_dropWhile]
        · exact (isWs_iff d).1 (List.all_eq_true.1 List.all_takeWhile d hd)
  · rintro ⟨opening, c, r, rfl, ho, hc⟩
    cases ho with
    | none => exact .inl (headIs_iff.2 ⟨c, r, rfl, (identStart_iff c).2 hc⟩)
    | bracket o w h1 h2 =>
      right
      have h3 : isWs c = false := by
        cases hw : isWs c with
        | false => rfl
        | true =>
          rcases (isWs_iff c).1 hw with rfl | rfl | rfl <;> exact absurd hc (by unfold Letter; decide)
      have := (takeWhile_stop (p := isWs) (a := w) (t := c :: r) (fun d hd => (isWs_iff d).2 (h2 d hd)) (by simpa using h3)).2
      simp only [List.cons_append, Bool.and_eq_true]
      exact ⟨(isOpen_iff o).2 h1, by rw [this]; exact (identStart_iff c).2 hc⟩

theorem opening_head {opening r : Str} {c : Char} (ho : Opening opening) (hc : Letter c) :
    ∃ d t, opening ++ c :: r = d :: t ∧ (Letter d ∨ d ∈ c!"{([") := by
  cases ho with
  | none => exact ⟨c, r, rfl, .inl hc⟩
  | bracket o w h1 h2 => exact ⟨o, w ++ c :: r, rfl, .inr h1⟩

theorem matchVarStart_iff {x : Cx} {a b : Str} (hv : x.cfg.var = c!"$") (h : x.src = a ++ b) : x.matchVarStart a.length = true ↔
    a.getLast? ≠ some '\\' ∧ ∃ sil mark opening c r, (sil = [] ∨ sil = c!"!") ∧ CacheMark mark ∧ Opening opening ∧ Letter c ∧
      b = '$' :: sil ++ mark ++ opening ++ c :: r := by
  unfold Cx.matchVarStart
  rw [Bool.and_eq_true, unescaped_iff h, rest_after h, hv]
  refine and_congr_right fun _ => ?_
  constructor
  · intro h1
    split at h1
    · rename_i r hr
      rw [stripPrefix?_some] at hr
      obtain ⟨opening, c, r', h2, ho, hc⟩ := (enclosureThenName_iff _).1 h1
      obtain ⟨mark, hm, h3⟩ := readToken_spec (afterSilent r)
      rw [h2] at h3
      by_cases hs : ∃ r'', r = '!' :: r''
      · obtain ⟨r'', rfl⟩ := hs
        refine ⟨c!"!", mark, opening, c, r', .inr rfl, hm, ho, hc, ?_⟩
        rw [hr]
        simp only [afterSilent] at h3
        rw [h3]
        simp
      · refine ⟨[], mark, opening, c, r', .inl rfl, hm, ho, hc, ?_⟩
        have : afterSilent r = r := by
          unfold afterSilent
          split
          · exact absurd ⟨_, rfl⟩ hs
          · rfl
        rw [this] at h3
        rw [hr, h3]
        simp
    · cases h1
  · rintro ⟨sil, mark, opening, c, r, hs, hm, ho, hc, rfl⟩
    have e1 : stripPrefix? c!"$" ('$' :: sil ++ mark ++ opening ++ c :: r) = some (sil ++ mark ++ opening ++ c :: r) := by simp [stripPrefix?]
    rw [e1]
    show enclosureThenName _ = true
    obtain ⟨d, t, hd, hd'⟩ := opening_head (r := r) ho hc
    have e2 : afterSilent (sil ++ mark ++ opening ++ c :: r) = mark ++ (opening ++ c :: r) := by
      rcases hs with rfl | rfl
      · rw [List.nil_append, List.append_assoc]
        unfold afterSilent
        split
        · rename_i h4
          exfalso
          cases hm with
          | none => rw [List.nil_append, hd] at h4; injection h4 with h4; exact letter_no_silence hd' h4
          | static => injection h4 with h4; exact absurd h4 (by decide)
          | refresh => injection h4 with h4; exact absurd h4 (by decide)
        · rfl
      · simp [afterSilent]
    rw [e2, hd, readToken_mark hm hd', ← hd]
    exact (enclosureThenName_iff _).2 ⟨opening, c, r, rfl, ho, hc⟩

theorem matchExprStart_iff {x : Cx} {a b : Str} (hv : x.cfg.var = c!"$") (h : x.src = a ++ b) : x.matchExprStart a.length = true ↔
    a.getLast? ≠ some '\\' ∧ ∃ mark o c r, CacheMark mark ∧ o ∈ c!"{([" ∧ c ∉ c!"})]" ∧ b = '$' :: mark ++ o :: c :: r := by
  have key : ∀ s, openThenExpr s = true ↔ ∃ o c r, s = o :: c :: r ∧ o ∈ c!"{([" ∧ c ∉ c!"})]" := by
    intro s
    unfold openThenExpr
    split
    · rename_i o c r
      rw [Bool.and_eq_true, isOpen_iff, Bool.not_eq_true', ← Bool.not_eq_true, isClose_iff]
      constructor
      · exact fun h => ⟨o, c, r, rfl, h⟩
      · rintro ⟨_, _, _, he, h⟩; cases he; exact h
    · rename_i hn
      constructor
      · intro h; cases h
      · rintro ⟨o, c, r, rfl, _⟩; exact absurd rfl (hn o c r)
  unfold Cx.matchExprStart
  rw [Bool.and_eq_true, unescaped_iff h, rest_after h, hv]
  refine and_congr_right fun _ => ?_
  constructor
  · intro h1
    split at h1
    · rename_i r hr
      rw [stripPrefix?_some] at hr
      obtain ⟨o, c, r', h2, ho, hc⟩ := (key _).1 h1
      obtain ⟨mark, hm, h3⟩ := readToken_spec r
      rw [h2] at h3
      exact ⟨mark, o, c, r', hm, ho, hc, by rw [hr, h3]; rfl⟩
    · cases h1
  · rintro ⟨mark, o, c, r, hm, ho, hc, rfl⟩
    have e1 : stripPrefix? c!"$" ('$' :: mark ++ o :: c :: r) = some (mark ++ o :: c :: r) := by simp [stripPrefix?]
    rw [e1]
    show openThenExpr _ = true
    rw [readToken_mark hm (.inr ho)]
    exact (key _).2 ⟨o, c, r, rfl, ho, hc⟩

theorem matchTok_iff {x : Cx} {a b : Str} (t : Str) (h : x.src = a ++ b) : (x.matchTok t a.length).isSome = true ↔
    a.getLast? ≠ some '\\' ∧ ∃ r, b = t ++ r := by
  unfold Cx.matchTok
  rw [rest_after h, ← startsWith_iff, ← unescaped_iff h, ← Bool.and_eq_true]
  split <;> simp_all

theorem matchSlurp_iff {x : Cx} {a b : Str} (ht : x.cfg.slurp = c!"#") (h : x.src = a ++ b) : x.matchSlurp a.length = true ↔
    ∃ w e r, (∀ c ∈ w, c = ' ' ∨ c = '\t' ∨ c = '\x0c') ∧ (e = c!"\n" ∨ e = c!"\r") ∧ b = '#' :: w ++ e ++ r := by
  have heol : ∀ s, eolLen s ≠ 0 ↔ ∃ e r, (e = c!"\n" ∨ e = c!"\r") ∧ s = e ++ r := by
    intro s
    unfold eolLen
    split
    · simp
    · simp
    · simp
    · rename_i h1 h2 h3
      constructor
      · intro h; exact absurd rfl h
      · rintro ⟨e, r, rfl | rfl, rfl⟩
        · exact absurd rfl (h3 r)
        · exact absurd rfl (h2 r)
  unfold Cx.matchSlurp
  rw [rest_after h, ht]
  simp only [bne_iff_ne, ne_eq, Bool.and_eq_true]
  constructor
  · rintro ⟨_, h1⟩
    split at h1
    · rename_i r hr
      rw [stripPrefix?_some] at hr
      obtain ⟨e, r', he, h2⟩ := (heol _).1 (by simpa using h1)
      refine ⟨r.takeWhile isWs, e, r', fun d hd => (isWs_iff d).1 (List.all_eq_true.1 List.all_takeWhile d hd), he, ?_⟩
      rw [hr, List.append_assoc, ← h2]
      simp [List.takeWhile_append_dropWhile]
    · cases h1
  · rintro ⟨w, e, r, hw, he, rfl⟩
    refine ⟨by simp, ?_⟩
    have e1 : stripPrefix? c!"#" ('#' :: w ++ e ++ r) = some (w ++ (e ++ r)) := by simp [stripPrefix?]
    rw [e1]
    have hd := (takeWhile_stop (p := isWs) (a := w) (t := e ++ r) (fun d hd => (isWs_iff d).2 (hw d hd)) (by rcases he with rfl | rfl <;> simp [isWs])).2
    simp only [hd, bne_iff_ne, ne_eq]
    exact (heol _).2 ⟨e, r, he, rfl⟩

/-- A directive is recognised exactly where one starts. -/
theorem matchDirective_spec {x : Cx} {a b : Str} (hd : x.cfg.dir = c!"#") (hw : x.cfg.wsAfterDir = false) (hb : x.bp = x.src.length) (h : x.src = a ++ b) :
    ∃ o, x.matchDirective a.length = .ok o ∧
      (∀ name, o = some name ↔ a.getLast? ≠ some '\\' ∧ ∃ r, b = '#' :: r ∧ (∃ c, r.head? = some c ∧ (Letter c ∨ c = '@')) ∧ directiveOf x.cfg.names r = some name) := by
  unfold Cx.matchDirective Cx.matchDirStart
  rw [rest_after h, hd, hw]
  by_cases hu : a.getLast? ≠ some '\\'
  · rw [if_pos ((unescaped_iff h).2 hu)]
    cases b with
    | nil => exact ⟨none, rfl, by simp⟩
    | cons c r =>
      by_cases hc : c = '#'
      · subst hc
        simp only [stripPrefix?, if_true, Bool.false_eq_true, if_false, List.length_nil, List.drop_zero, List.length_cons, Nat.zero_add, Nat.add_zero]
        by_cases hh : headIs (fun c => identStart c || c == '@') r = true
        · rw [if_pos hh]
          obtain ⟨c, r', rfl, hc⟩ := headIs_iff.1 hh
          have hl : a.length + 1 ≤ x.bp := by rw [hb, h]; simp
          simp only [Cx.goto, hl, if_true, Except.map]
          refine ⟨_, rfl, fun name => ?_⟩
          rw [C36_directive_is_whole_word, hb, List.take_length, h]
          have : (a ++ '#' :: c :: r').drop (a.length + 1) = c :: r' := by
            rw [show a ++ '#' :: c :: r' = (a ++ ['#']) ++ c :: r' by simp]
            exact drop_length_append _ _ _ (by simp)
          rw [this]
          constructor
          · intro h1
            refine ⟨hu, _, rfl, ⟨c, rfl, ?_⟩, h1⟩
            rw [Bool.or_eq_true, identStart_iff] at hc
            simpa using hc
          · rintro ⟨_, r2, he, _, h1⟩
            cases he
            exact h1
        · rw [if_neg hh]
          refine ⟨none, rfl, fun name => ⟨fun h => (by cases h), ?_⟩⟩
          rintro ⟨_, r2, he, ⟨c, hc, hc'⟩, _⟩
          cases he
          exfalso
          apply hh
          cases r with
          | nil => cases hc
          | cons d r =>
            cases hc
            rw [headIs, Bool.or_eq_true, identStart_iff]
            simpa using hc'
      · rw [stripPrefix?_head (Ne.symm hc)]
        refine ⟨none, rfl, fun name => ⟨fun h => (by cases h), ?_⟩⟩
        rintro ⟨_, r2, he, _⟩
        injection he with he
        exact absurd he hc
  · rw [if_neg (by rw [unescaped_iff h]; exact hu)]
    exact ⟨none, rfl, fun name => ⟨fun h => by (cases h), fun h => absurd h.1 hu⟩⟩

/-- The default tokens. -/
structure Std (x : Cx) : Prop where
  cfg : ∃ names, x.cfg = { Cfg.std with names := names }
  bp : x.bp = x.src.length

/-- The parser sees a tag exactly where one starts, and never fails there. -/
theorem tagAt_spec {x : Cx} {a b : Str} (hx : Std x) (h : x.src = a ++ b) :
    ∃ o, x.tagAt a.length = .ok o ∧ (o ≠ none ↔ TagStart x.cfg.names a b) := by
  obtain ⟨ns, hcfg⟩ := hx.cfg
  have hv : x.cfg.var = c!"$" := by rw [hcfg]; rfl
  have hcom : x.cfg.com = c!"##" := by rw [hcfg]; rfl
  have hml : x.cfg.mlStart = c!"#*" := by rw [hcfg]; rfl
  have hpsp : x.cfg.psp = c!"<%" := by rw [hcfg]; rfl
  have hsl : x.cfg.slurp = c!"#" := by rw [hcfg]; rfl
  unfold Cx.tagAt
  by_cases h1 : (x.matchTok x.cfg.com a.length).isSome = true
  · rw [if_pos h1]
    obtain ⟨hu, r, rfl⟩ := (matchTok_iff _ h).1 h1
    exact ⟨_, rfl, by rw [hcom]; simpa using TagStart.comment a r hu⟩
  rw [if_neg h1]
  by_cases h2 : (x.matchTok x.cfg.mlStart a.length).isSome = true
  · rw [if_pos h2]
    obtain ⟨hu, r, rfl⟩ := (matchTok_iff _ h).1 h2
    exact ⟨_, rfl, by rw [hml]; simpa using TagStart.mlComment a r hu⟩
  rw [if_neg h2]
  by_cases h3 : x.matchVarStart a.length = true
  · rw [if_pos h3]
    obtain ⟨hu, sil, mark, opening, c, r, e1, e2, e3, e4, rfl⟩ := (matchVarStart_iff hv h).1 h3
    exact ⟨_, rfl, by simpa using TagStart.placeholder a sil mark opening c r hu e1 e2 e3 e4⟩
  rw [if_neg h3]
  by_cases h4 : x.matchExprStart a.length = true
  · rw [if_pos h4]
    obtain ⟨hu, mark, o, c, r, e1, e2, e3, rfl⟩ := (matchExprStart_iff hv h).1 h4
    exact ⟨_, rfl, by simpa using TagStart.expression a mark o c r hu e1 e2 e3⟩
  rw [if_neg h4]
  obtain ⟨o, h5, h6⟩ := matchDirective_spec (by rw [hcfg]; rfl) (by rw [hcfg]; rfl) hx.bp h
  rw [h5]
  simp only [bind, Except.bind]
  cases o with
  | some name =>
    obtain ⟨hu, r, rfl, e1, e2⟩ := (h6 name).1 rfl
    exact ⟨_, rfl, by simpa using TagStart.directive a r name hu e1 e2⟩
  | none =>
    simp only [Option.isSome_none, Bool.false_eq_true, if_false]
    by_cases h7 : (x.matchTok x.cfg.psp a.length).isSome = true
    · rw [if_pos h7]
      obtain ⟨hu, r, rfl⟩ := (matchTok_iff _ h).1 h7
      exact ⟨_, rfl, by rw [hpsp]; simpa using TagStart.psp a r hu⟩
    rw [if_neg h7]
    by_cases h8 : x.matchSlurp a.length = true
    · rw [if_pos h8]
      obtain ⟨w, e, r, e1, e2, rfl⟩ := (matchSlurp_iff hsl h).1 h8
      exact ⟨_, rfl, by simpa using TagStart.slurp a w e r e1 e2⟩
    rw [if_neg h8]
    refine ⟨none, rfl, by simp, fun ht => ?_⟩
    rw [matchTok_iff _ h, hcom] at h1
    rw [matchTok_iff _ h, hml] at h2
    rw [matchVarStart_iff hv h] at h3
    rw [matchExprStart_iff hv h] at h4
    rw [matchTok_iff _ h, hpsp] at h7
    rw [matchSlurp_iff hsl h] at h8
    exfalso
    generalize hz : x.cfg.names = ns' at ht
    cases ht with
    | comment r hu => exact h1 ⟨hu, r, rfl⟩
    | mlComment r hu => exact h2 ⟨hu, r, rfl⟩
    | psp r hu => exact h7 ⟨hu, r, rfl⟩
    | placeholder sil mark opening c r hu e1 e2 e3 e4 => exact h3 ⟨hu, sil, mark, opening, c, r, e1, e2, e3, e4, rfl⟩
    | expression mark o c r hu e1 e2 e3 => exact h4 ⟨hu, mark, o, c, r, e1, e2, e3, rfl⟩
    | directive r name hu e1 e2 =>
      subst hz
      exact absurd ((h6 name).2 ⟨hu, r, rfl, e1, e2⟩) (by simp)
    | slurp w e r e1 e2 => exact h8 ⟨w, e, r, e1, e2, rfl⟩

theorem TagStart.head {names : List Str} {a b : Str} (h : TagStart names a b) : ∃ c r, b = c :: r ∧ (c = '#' ∨ c = '$' ∨ c = '<') := by
  cases h with
  | comment r => exact ⟨_, _, rfl, by simp⟩
  | mlComment r => exact ⟨_, _, rfl, by simp⟩
  | psp r => exact ⟨_, _, rfl, by simp⟩
  | placeholder => exact ⟨_, _, rfl, by simp⟩
  | expression => exact ⟨_, _, rfl, by simp⟩
  | directive => exact ⟨_, _, rfl, by simp⟩
  | slurp => exact ⟨_, _, rfl, by simp⟩

theorem topLevel_spec {x : Cx} {a b : Str} (hx : Std x) (h : x.src = a ++ b) :
    ∃ o, x.topLevel a.length = .ok o ∧ (o ≠ none ↔ TagStart x.cfg.names a b) := by
  unfold Cx.topLevel
  have h1 : x.src[a.length]? = b.head? := by rw [h, List.head?_eq_getElem?, List.getElem?_append_right (Nat.le_refl _), Nat.sub_self]
  rw [h1]
  cases b with
  | nil =>
    refine ⟨none, rfl, by simp, fun ht => ?_⟩
    obtain ⟨c, r, hr, _⟩ := ht.head
    cases hr
  | cons c r =>
    simp only [List.head?_cons]
    split
    · exact tagAt_spec hx h
    · rename_i hm
      refine ⟨none, rfl, by simp, fun ht => ?_⟩
      obtain ⟨c', r', hr, hc⟩ := ht.head
      cases hr
      exfalso
      apply hm
      obtain ⟨ns, hcfg⟩ := hx.cfg
      rw [hcfg]
      rcases hc with rfl | rfl | rfl <;> rfl

/-- Plain text ends where the next tag starts, or at the end. -/
theorem plainEnd_spec {x : Cx} (hx : Std x) : ∀ (t a b : Str) (n : Nat), x.src = a ++ t ++ b → (∀ u v, t = u ++ v → v ≠ [] → ¬ TagStart x.cfg.names (a ++ u) (v ++ b)) →
    (b = [] ∨ TagStart x.cfg.names (a ++ t) b) → n = t.length + b.length → x.plainEnd n a.length = .ok (a.length + t.length) := by
  intro t
  induction t with
  | nil =>
    intro a b n h _ hb hn
    rw [List.append_nil] at h hb
    rcases hb with rfl | hb
    · cases hn; rfl
    · obtain ⟨c, r, hr, _⟩ := hb.head
      have : n = r.length + 1 := by rw [hn, hr]; simp
      rw [this, Cx.plainEnd]
      obtain ⟨o, ho, h1⟩ := topLevel_spec hx h
      rw [ho]
      cases o with
      | none => exact absurd rfl (h1.2 hb)
      | some _ => rfl
  | cons c t ih =>
    intro a b n h ht hb hn
    have : n = (t.length + b.length) + 1 := by rw [hn]; simp; omega
    rw [this, Cx.plainEnd]
    obtain ⟨o, ho, h1⟩ := topLevel_spec hx (a := a) (b := c :: t ++ b) (by rw [h]; simp)
    rw [ho]
    have hn' : o = none := by
      cases o with
      | none => rfl
      | some v =>
        have := ht [] (c :: t) rfl (by simp)
        rw [List.append_nil] at this
        exact absurd (h1.1 (by simp)) this
    subst hn'
    have h2 := ih (a ++ [c]) b (t.length + b.length) (by rw [h]; simp)
      (fun u v hu hv => by
        have := ht (c :: u) v (by rw [hu]; rfl) hv
        rw [List.append_assoc]
        exact this) (by simpa using hb) rfl
    simp only [List.length_append, List.length_cons, List.length_nil, Nat.zero_add] at h2
    simp only [bind, Except.bind, List.length_cons]
    rw [h2]
    congr 1
    omega

/-- **C34 (between tags).** With the default tokens, and any table of directives: if no tag starts inside a piece `t` of the source, and
`t` ends where a tag starts or at the end of the source, then the parser's plain text from the start of `t` on is exactly `t`, without the
backslashes that escape a `$` or `#`, and parsing goes on right after it. -/
theorem C34_text_between_tags (x : Cx) (hx : Std x) (a t b : Str) (h : x.src = a ++ t ++ b)
    (ht : ∀ u v, t = u ++ v → v ≠ [] → ¬ TagStart x.cfg.names (a ++ u) (v ++ b)) (hb : b = [] ∨ TagStart x.cfg.names (a ++ t) b) :
    x.eatPlainText a.length = .ok (unescapeOnce '$' '#' t, (a ++ t).length) := by
  unfold Cx.eatPlainText
  rw [plainEnd_spec hx t a b _ h ht hb (by rw [hx.bp, h]; simp [Nat.add_assoc])]
  obtain ⟨ns, hcfg⟩ := hx.cfg
  simp only [bind, Except.bind]
  rw [C40_unescape_partial x.cfg '$' '#' (by rw [hcfg]; rfl) (by rw [hcfg]; rfl) (by decide) (by decide) (by decide), List.length_append]
  congr 3
  unfold Cx.slice
  rw [h, ← List.length_append, List.take_left' rfl, List.drop_left' rfl]

/-- **C34.** With the default tokens, and any table of directives: a source in which no tag starts anywhere is accepted and gives the compiler
exactly its text, without the backslashes that escape a `$` or `#`; nothing at all if it is empty. -/
theorem C34_source_without_tags (h : Env) (hc : ∃ names, h.cfg = { Cfg.std with names := names }) (st : GenVar.Settings)
    (hi : ∀ a b, h.src = a ++ b → ¬ TagStart h.cfg.names a b) :
    h.parse st = .ok (if h.src = [] then [] else [.strConst (unescapeOnce '$' '#' h.src)]) := by
  have hx : Std (h.px h.src.length).toCx := ⟨hc, rfl⟩
  unfold Env.parse
  by_cases he : h.src = []
  · rw [if_pos he, Env.loop.eq_def]
    simp [he, bind, Except.bind]
  · rw [if_neg he]
    have hl : 0 < h.src.length := List.length_pos_iff.2 he
    obtain ⟨o, ho, h1⟩ := tagAt_spec (x := (h.px h.src.length).toCx) hx (a := []) (b := h.src) rfl
    have hn : o = none := by
      cases o with
      | none => rfl
      | some v => exact absurd (h1.1 (by simp)) (hi [] h.src rfl)
    subst hn
    have h2 := C34_text_between_tags (h.px h.src.length).toCx hx [] h.src [] (by rw [List.append_nil]; rfl)
      (fun u v hu hv => by
        rw [List.append_nil, List.nil_append]
        exact hi u v hu) (.inl rfl)
    simp only [List.length_nil, List.nil_append] at ho h2
    rw [show 3 * h.src.length + 4 = (3 * h.src.length + 2 + 1) + 1 by omega, Env.loop]
    simp only [show ¬ h.src.length ≤ 0 by omega, if_false, ho, bind, Except.bind, reduceCtorEq, Px.simple, h2, Except.map]
    rw [Env.loop]
    simp [PS.emit]

/-- Near misses of tags are text: `$5`, `a # b`, `$ x`, `<b>`, `#foo`, `\$x`. They meet the hypothesis of `C34_source_without_tags`. -/
example : (∀ a b, (c!"costs $5, a # b, $ x, <b> #foo \\$x \\#if $*1.5*" : Str) = a ++ b → ¬ TagStart stdNames a b) ∧
    (demoEnv c!"costs $5, a # b, $ x, <b> #foo \\$x \\#if $*1.5*").parse demoSt =
      .ok [.strConst c!"costs $5, a # b, $ x, <b> #foo $x #if $*1.5*"] := by
  refine ⟨fun a b h ht => ?_, by decide +kernel⟩
  have hall : ((List.range 60).all fun p =>
      (⟨Cfg.std, c!"costs $5, a # b, $ x, <b> #foo \\$x \\#if $*1.5*", 46⟩ : Cx).tagAt p == .ok none) = true := by decide +kernel
  obtain ⟨o, h1, h2⟩ := tagAt_spec (x := ⟨Cfg.std, c!"costs $5, a # b, $ x, <b> #foo \\$x \\#if $*1.5*", 46⟩) ⟨⟨stdNames, rfl⟩, by decide⟩ h
  have hl : a.length < 60 := by
    have := congrArg List.length h
    rw [List.length_append] at this
    have h46 : (c!"costs $5, a # b, $ x, <b> #foo \\$x \\#if $*1.5*" : Str).length = 46 := by decide
    omega
  have h3 := List.all_eq_true.1 hall a.length (List.mem_range.2 hl)
  rw [h1] at h3
  have h4 := h2.2 ht
  cases o with
  | none => exact h4 rfl
  | some t => exact absurd h3 (by simp [BEq.beq])

end Cheetah.Parser
