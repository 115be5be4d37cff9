import Verif.RegexEsc
/-
C42: tokens configured by the user are matched literally.
-/
namespace Cheetah.RegexEsc

/-! ### Specification -/

/-- The alternatives of a pattern made of characters and bars; `none` when it has any other
token with a special meaning. Each alternative matches exactly its own characters. -/
def alternatives : List Tok → Option (List Str)
  | [] => some [[]]
  | .lit c :: ts =>
    match alternatives ts with
    | some (a :: as) => some ((c :: a) :: as)
    | _ => none
  | .special '|' :: ts => (alternatives ts).map ([] :: ·)
  | _ :: _ => none

/-- The strings matched by a pattern of that kind. -/
def Matches (pattern s : Str) : Prop :=
  ∃ ts as, tokens pattern = some ts ∧ alternatives ts = some as ∧ s ∈ as

/-! ### Lemmas -/

theorem tokens_cons {c : Char} {s : Str} (h : c ≠ '\\') :
    tokens (c :: s) = (tokens s).map ((if c ∈ specialChars then .special c else .lit c) :: ·) := by
  rw [tokens]
  · intro e; exact absurd e h
  · intro c' s' e; exact absurd e h

theorem tokens_escape (s rest : Str) :
    tokens (escapeRegexChars s ++ rest) = (tokens rest).map (s.map Tok.lit ++ ·) := by
  induction s with
  | nil => simp [escapeRegexChars]
  | cons c s ih =>
    have e : escapeRegexChars (c :: s) = (if c ∈ escaped then ['\\', c] else [c]) ++ escapeRegexChars s := by
      simp [escapeRegexChars]
    rw [e]
    by_cases hc : c ∈ escaped
    · rw [if_pos hc]
      have hn : isAlnum c = false := by
        simp only [escaped, List.mem_cons, List.not_mem_nil, or_false] at hc
        rcases hc with h | h | h | h | h | h | h | h | h | h | h | h | h | h <;> subst h <;> decide
      show tokens ('\\' :: c :: (escapeRegexChars s ++ rest)) = _
      rw [tokens, ih, hn]
      cases tokens rest <;> rfl
    · rw [if_neg hc]
      have h1 : c ≠ '\\' := by intro e; rw [e] at hc; exact hc (by decide)
      have h2 : c ∉ specialChars := by
        intro hm
        simp only [specialChars, List.mem_cons, List.not_mem_nil, or_false] at hm
        rcases hm with h | h | h | h | h | h | h | h | h | h | h | h <;> subst h <;> exact hc (by decide)
      show tokens (c :: (escapeRegexChars s ++ rest)) = _
      rw [tokens_cons h1, ih, if_neg h2]
      cases tokens rest <;> rfl

theorem tokens_append_ok : ∀ (a b : Str) (ta : List Tok), tokens a = some ta →
    tokens (a ++ b) = (tokens b).map (ta ++ ·)
  | [], b, ta, h => by
    simp [tokens] at h; subst h; simp
  | ['\\'], b, ta, h => by simp [tokens] at h
  | '\\' :: c :: s, b, ta, h => by
    rw [tokens] at h
    cases hs : tokens s with
    | none => rw [hs] at h; simp at h
    | some t =>
      rw [hs] at h; simp at h; subst h
      show tokens ('\\' :: c :: (s ++ b)) = _
      rw [tokens, tokens_append_ok s b t hs]
      cases tokens b <;> rfl
  | c :: s, b, ta, h => by
    by_cases hc : c = '\\'
    · subst hc
      cases s with
      | nil => simp [tokens] at h
      | cons d s =>
        rw [tokens] at h
        cases hs : tokens s with
        | none => rw [hs] at h; simp at h
        | some t =>
          rw [hs] at h; simp at h; subst h
          show tokens ('\\' :: d :: (s ++ b)) = _
          rw [tokens, tokens_append_ok s b t hs]
          cases tokens b <;> rfl
    · rw [tokens_cons hc] at h
      cases hs : tokens s with
      | none => rw [hs] at h; simp at h
      | some t =>
        rw [hs] at h; simp at h; subst h
        show tokens (c :: (s ++ b)) = _
        rw [tokens_cons hc, tokens_append_ok s b t hs]
        cases tokens b <;> rfl

theorem alternatives_lits (s : Str) {ts : List Tok} {a : Str} {as : List Str} (h : alternatives ts = some (a :: as)) :
    alternatives (s.map Tok.lit ++ ts) = some ((s ++ a) :: as) := by
  induction s with
  | nil => exact h
  | cons c s ih => simp only [List.map_cons, List.cons_append, alternatives, ih]

/-! ### C42 -/

/-- C42: the escaped text is a pattern in which every character stands for itself, in the
middle of any pattern. -/
theorem C42_every_character_is_literal (pre post s : Str) {tp tq : List Tok}
    (hp : tokens pre = some tp) (hq : tokens post = some tq) :
    tokens (pre ++ escapeRegexChars s ++ post) = some (tp ++ s.map Tok.lit ++ tq) := by
  rw [List.append_assoc, tokens_append_ok pre _ tp hp, tokens_escape, hq]
  simp

/-- A lookahead follows the escaped token, as in the patterns for placeholders. -/
example : tokens c!"(?:" = some [.special '(', .special '?', .lit ':'] ∧
    tokens c!")[a]" = some [.special ')', .special '[', .lit 'a', .lit ']'] := by decide

/-- C42: the escaped text matches the text itself and nothing else. -/
theorem C42_matches_exactly (s t : Str) : Matches (escapeRegexChars s) t ↔ t = s := by
  have h1 : tokens (escapeRegexChars s) = some (s.map Tok.lit) := by
    have := tokens_escape s []
    simpa [tokens] using this
  have h2 : alternatives (s.map Tok.lit) = some [s] := by
    have := alternatives_lits s (ts := []) (a := []) (as := []) rfl
    simpa using this
  unfold Matches
  constructor
  · rintro ⟨ts, as, e1, e2, hm⟩
    rw [h1] at e1; injection e1 with e1; subst e1
    rw [h2] at e2; injection e2 with e2; subst e2
    simpa using hm
  · rintro rfl; exact ⟨_, _, h1, h2, by simp⟩

example : Matches (escapeRegexChars c!"${*") c!"${*" := (C42_matches_exactly _ _).mpr rfl

/-- C42: alternatives built from escaped texts match exactly these texts. -/
theorem C42_alternatives (ss : List Str) (hne : ss ≠ []) (t : Str) :
    Matches (joinStr ['|'] (ss.map escapeRegexChars)) t ↔ t ∈ ss := by
  have key : ∀ ss : List Str, ss ≠ [] → ∃ ts, tokens (joinStr ['|'] (ss.map escapeRegexChars)) = some ts ∧
      alternatives ts = some ss := by
    intro ss
    induction ss with
    | nil => intro h; exact absurd rfl h
    | cons s ss ih =>
      intro _
      cases ss with
      | nil =>
        refine ⟨s.map Tok.lit, ?_, ?_⟩
        · have := tokens_escape s []
          simpa [tokens, joinStr] using this
        · have := alternatives_lits s (ts := []) (a := []) (as := []) rfl
          simpa using this
      | cons s' ss =>
        obtain ⟨ts, h1, h2⟩ := ih (by simp)
        refine ⟨s.map Tok.lit ++ .special '|' :: ts, ?_, ?_⟩
        · show tokens (escapeRegexChars s ++ ['|'] ++ joinStr ['|'] ((s' :: ss).map escapeRegexChars)) = _
          rw [List.append_assoc, tokens_escape]
          show (tokens ('|' :: joinStr ['|'] ((s' :: ss).map escapeRegexChars))).map _ = _
          rw [tokens_cons (by decide), h1]
          have : ('|' : Char) ∈ specialChars := by decide
          simp [this]
        · have h3 : alternatives (.special '|' :: ts) = some ([] :: s' :: ss) := by
            simp [alternatives, h2]
          simpa using alternatives_lits s h3
  obtain ⟨ts, h1, h2⟩ := key ss hne
  unfold Matches
  constructor
  · rintro ⟨ts', as, e1, e2, hm⟩
    rw [h1] at e1; injection e1 with e1; subst e1
    rw [h2] at e2; injection e2 with e2; subst e2
    exact hm
  · intro hm; exact ⟨_, _, h1, h2, hm⟩

/-- Without escaping, `a|b` would match `a`. -/
example : Matches c!"a|b" c!"a" ∧ ¬ Matches (escapeRegexChars c!"a|b") c!"a" :=
  ⟨⟨[.lit 'a', .special '|', .lit 'b'], [c!"a", c!"b"], by decide, by decide, by decide⟩,
   fun h => absurd ((C42_matches_exactly _ _).mp h) (by decide)⟩

end Cheetah.RegexEsc
