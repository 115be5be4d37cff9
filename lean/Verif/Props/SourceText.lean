import Verif.Props.ExprLang
/-
Text in which no tag starts, described character by character.  Used for C70.
-/
namespace Cheetah.Parser

/-! ### Specification -/

/-- A line break or a blank. -/
def Space (c : Char) : Prop := c ∈ c!" \t\x0c\r\n"

/-- Text in which no tag starts, whatever comes before it, and whatever comes after it as long as that is no text. -/
inductive Verbatim : Str → Prop
  | nil : Verbatim []
  /-- most characters -/
  | char (c : Char) (r : Str) : c ∉ c!"#$<\\" → Verbatim r → Verbatim (c :: r)
  /-- `$` not before a name, a bracket, `!` or `*` -/
  | dollar (d : Char) (r : Str) : ¬ Letter d → d ∉ c!"!*{([" → Verbatim (d :: r) → Verbatim ('$' :: d :: r)
  /-- `<` not before `%` -/
  | angle (d : Char) (r : Str) : d ≠ '%' → Verbatim (d :: r) → Verbatim ('<' :: d :: r)
  /-- `#` not before a name, `@`, `#`, `*` or space -/
  | hash (d : Char) (r : Str) : ¬ Letter d → d ∉ c!"@#*" → ¬ Space d → Verbatim (d :: r) → Verbatim ('#' :: d :: r)
  /-- `#` before a word that is no directive's name -/
  | word (w : Str) (d : Char) (r : Str) : Word w → w ∉ stdNames → identChar d = false → d ∉ c!"-@" → Verbatim (w ++ d :: r) → Verbatim ('#' :: (w ++ d :: r))
  /-- `$`, `#` or `<` at the end -/
  | last (c : Char) : c ∈ c!"#$<" → Verbatim [c]
  /-- `\$` and `\<` -/
  | escaped (c : Char) (r : Str) : c ∈ c!"$<" → Verbatim r → Verbatim ('\\' :: c :: r)
  /-- `\#` not before space -/
  | escapedHash (d : Char) (r : Str) : ¬ Space d → Verbatim (d :: r) → Verbatim ('\\' :: '#' :: d :: r)
  /-- a backslash before text -/
  | backslash (d : Char) (r : Str) : Verbatim (d :: r) → Verbatim ('\\' :: d :: r)

/-- What the text says: `\$` and `\#` say `$` and `#`. -/
def said (t : Str) : Str := unescapeOnce '$' '#' t

/-! ### No tag starts in it -/

theorem tag_hash {names : List Str} {a s : Str} (h : TagStart names a ('#' :: s)) : ∃ d r, s = d :: r ∧ (d = '#' ∨ d = '*' ∨ d = '@' ∨ Letter d ∨ Space d) := by
  generalize hb : ('#' :: s : Str) = b at h
  cases h with
  | comment r hh => injection hb with _ hb; subst hb; exact ⟨_, _, rfl, by simp⟩
  | mlComment r hh => injection hb with _ hb; subst hb; exact ⟨_, _, rfl, by simp⟩
  | psp r hh => injection hb with hb; exact absurd hb (by decide)
  | placeholder sil mark op c r => injection hb with hb; exact absurd hb (by decide)
  | expression mark o c r => injection hb with hb; exact absurd hb (by decide)
  | directive r name h1 h2 h3 =>
    injection hb with _ hb; subst hb
    obtain ⟨c, hc, h2⟩ := h2
    obtain ⟨r', rfl⟩ := List.head?_eq_some_iff.1 hc
    exact ⟨c, r', rfl, by tauto⟩
  | slurp w e r h1 h2 =>
    injection hb with _ hb; subst hb
    cases w with
    | nil =>
      rcases h2 with rfl | rfl
      · exact ⟨'\n', r, rfl, by simp [Space]⟩
      · exact ⟨'\r', r, rfl, by simp [Space]⟩
    | cons c w =>
      refine ⟨c, w ++ e ++ r, rfl, ?_⟩
      have := h1 c (by simp)
      right; right; right; right
      simp [Space]; tauto

theorem tag_dollar {names : List Str} {a s : Str} (h : TagStart names a ('$' :: s)) : NoBs a ∧ ∃ d r, s = d :: r ∧ (Letter d ∨ d ∈ c!"!*{([") := by
  generalize hb : ('$' :: s : Str) = b at h
  cases h with
  | comment r hh => injection hb with hb; exact absurd hb (by decide)
  | mlComment r hh => injection hb with hb; exact absurd hb (by decide)
  | psp r hh => injection hb with hb; exact absurd hb (by decide)
  | placeholder sil mark op c r h1 h2 h3 h4 h5 =>
    injection hb with _ hb; subst hb
    refine ⟨h1, ?_⟩
    rcases h2 with rfl | rfl
    · cases h3 with
      | none =>
        cases h4 with
        | none => exact ⟨c, r, rfl, .inl h5⟩
        | bracket o w ho hw => exact ⟨o, _, rfl, .inr (by simp at ho ⊢; tauto)⟩
      | static => exact ⟨'*', _, rfl, .inr (by simp)⟩
      | refresh n u => exact ⟨'*', _, rfl, .inr (by simp)⟩
    · exact ⟨'!', _, rfl, .inr (by simp)⟩
  | expression mark o c r h1 h2 h3 h4 =>
    injection hb with _ hb; subst hb
    refine ⟨h1, ?_⟩
    cases h2 with
    | none => exact ⟨o, _, rfl, .inr (by simp at h3 ⊢; tauto)⟩
    | static => exact ⟨'*', _, rfl, .inr (by simp)⟩
    | refresh n u => exact ⟨'*', _, rfl, .inr (by simp)⟩
  | directive r name h1 h2 h3 => injection hb with hb; exact absurd hb (by decide)
  | slurp w e r h1 h2 => injection hb with hb; exact absurd hb (by decide)

theorem tag_angle {names : List Str} {a s : Str} (h : TagStart names a ('<' :: s)) : NoBs a ∧ ∃ r, s = '%' :: r := by
  generalize hb : ('<' :: s : Str) = b at h
  cases h with
  | psp r hh => injection hb with _ hb; subst hb; exact ⟨hh, r, rfl⟩
  | _ => injection hb with hb; exact absurd hb (by decide)

theorem tag_char {names : List Str} {a s : Str} {c : Char} (hc : c ∉ c!"#$<") : ¬ TagStart names a (c :: s) := by
  intro h
  obtain ⟨d, r, hr, hd⟩ := h.head
  injection hr with hr
  subst hr
  simp at hc
  tauto

theorem letter_space {d : Char} (h : Letter d) : ¬ Space d ∧ d ∉ c!"#*@" := by
  constructor
  · intro hs
    simp only [Space, List.mem_cons, List.not_mem_nil, or_false] at hs
    rcases hs with rfl | rfl | rfl | rfl | rfl <;> exact absurd h (by unfold Letter; decide)
  · intro hs
    simp only [List.mem_cons, List.not_mem_nil, or_false] at hs
    rcases hs with rfl | rfl | rfl <;> exact absurd h (by unfold Letter; decide)

theorem identChar_dirName {c : Char} (h : identChar c = true) : dirNameChar c = true := by simp [dirNameChar, h]

theorem firstWord_word {w r : Str} {d : Char} (hw : ∀ c ∈ w, identChar c = true) (hd : identChar d = false) (hd2 : d ∉ c!"-@") : firstWord (w ++ d :: r) = w := by
  induction w with
  | nil =>
    simp at hd2
    rw [List.nil_append, firstWord_cons, if_neg (by simp [dirNameChar, hd, hd2])]
  | cons c w ih =>
    rw [List.cons_append, firstWord_cons, if_pos (identChar_dirName (hw c (by simp))), ih fun e he => hw e (by simp [he])]

theorem not_directive {w r : Str} {d : Char} (hw : Word w) (hn : w ∉ stdNames) (hd : identChar d = false) (hd2 : d ∉ c!"-@") : directiveOf stdNames (w ++ d :: r) = none := by
  have h1 := firstWord_word (r := r) hw.all hd hd2
  obtain ⟨c, w', rfl, hc, _⟩ := hw
  have hat : c ≠ '@' := by rintro rfl; exact absurd hc (by decide)
  rw [List.cons_append] at h1 ⊢
  unfold directiveOf
  split
  · next h => injection h with h; exact absurd h hat
  · rfl
  · rw [h1, if_neg (by simp [hn])]

/-- No tag starts in a text. -/
theorem Verbatim.no_tag {t : Str} (ht : Verbatim t) : ∀ (a b : Str), (∀ c, t.getLast? = some c → c ∈ c!"#$<" → b = [] ∨ ∃ r, b = '$' :: r) →
    ∀ u v, t = u ++ v → v ≠ [] → ¬ TagStart stdNames (a ++ u) (v ++ b) := by
  -- the first character starts no tag, and none starts in the rest
  have step : ∀ (c : Char) (r a b : Str), (∀ d, (c :: r).getLast? = some d → d ∈ c!"#$<" → b = [] ∨ ∃ r, b = '$' :: r) →
      ((∀ d, r.getLast? = some d → d ∈ c!"#$<" → b = [] ∨ ∃ r, b = '$' :: r) → ∀ u v, r = u ++ v → v ≠ [] → ¬ TagStart stdNames ((a ++ [c]) ++ u) (v ++ b)) →
      ¬ TagStart stdNames a (c :: r ++ b) → ∀ u v, c :: r = u ++ v → v ≠ [] → ¬ TagStart stdNames (a ++ u) (v ++ b) := by
    intro c r a b hl ih h0 u v hu hv
    cases u with
    | nil => rw [List.append_nil, ← show c :: r = v from hu]; exact h0
    | cons e u =>
      injection hu with h1 h2
      subst h1
      have := ih (fun d hd => hl d (by
        cases r with
        | nil => simp at hd
        | cons => simpa using hd)) u v h2 hv
      rwa [List.append_assoc, List.singleton_append] at this
  induction ht with
  | nil => intro a b _ u v hu hv; simp at hu; exact absurd hu.2 hv
  | char c r hc _ ih =>
    intro a b hl
    exact step c r a b hl (fun h => ih _ _ h) (tag_char (by simp at hc ⊢; tauto))
  | dollar d r h1 h2 _ ih =>
    intro a b hl
    refine step _ _ a b hl (fun h => ih _ _ h) fun ht => ?_
    obtain ⟨_, e, r', he, h3⟩ := tag_dollar ht
    injection he with he
    subst he
    tauto
  | angle d r h1 _ ih =>
    intro a b hl
    refine step _ _ a b hl (fun h => ih _ _ h) fun ht => ?_
    obtain ⟨_, r', he⟩ := tag_angle ht
    injection he with he
    exact h1 he
  | hash d r h1 h2 h3 _ ih =>
    intro a b hl
    refine step _ _ a b hl (fun h => ih _ _ h) fun ht => ?_
    obtain ⟨e, r', he, h4⟩ := tag_hash ht
    injection he with he
    subst he
    simp at h2
    tauto
  | word w d r h1 h2 h3 h4 _ ih =>
    intro a b hl
    refine step _ _ a b hl (fun h => ih _ _ h) fun ht => ?_
    obtain ⟨c, w', rfl, hc, hw'⟩ := id h1
    have hlet := letter_space ((identStart_iff c).1 hc)
    generalize hb : ('#' :: (c :: w' ++ d :: r) ++ b : Str) = B at ht
    cases ht with
    | comment r hh => injection hb with _ hb; injection hb with hb; subst hb; simp at hlet
    | mlComment r hh => injection hb with _ hb; injection hb with hb; subst hb; simp at hlet
    | psp r hh => injection hb with hb; exact absurd hb (by decide)
    | placeholder sil mark op c r => injection hb with hb; exact absurd hb (by decide)
    | expression mark o c r => injection hb with hb; exact absurd hb (by decide)
    | directive r' name g1 g2 g3 =>
      injection hb with _ hb
      subst hb
      have := not_directive (r := r ++ b) h1 h2 h3 h4
      have e : List.append (c :: w' ++ d :: r) b = c :: w' ++ d :: (r ++ b) := by
        show (c :: w' ++ d :: r) ++ b = _
        simp
      rw [e, this] at g3
      cases g3
    | slurp w e r h1 h2 =>
      injection hb with _ hb
      cases w with
      | nil =>
        rcases h2 with rfl | rfl
        · injection hb with hb; subst hb; exact hlet.1 (by simp [Space])
        · injection hb with hb; subst hb; exact hlet.1 (by simp [Space])
      | cons e w =>
        injection hb with hb; subst hb
        have := h1 c (by simp)
        exact hlet.1 (by simp [Space]; tauto)
  | last c hc =>
    intro a b hl
    refine step _ _ a b hl (fun _ u v hu hv => by simp at hu; exact absurd hu.2 hv) fun ht => ?_
    have hb := hl c rfl hc
    simp only [List.mem_cons, List.not_mem_nil, or_false] at hc
    rcases hc with rfl | rfl | rfl
    · obtain ⟨d, r, hd, h1⟩ := tag_hash ht
      rcases hb with rfl | ⟨r', rfl⟩
      · cases hd
      · injection hd with hd
        subst hd
        rcases h1 with h | h | h | h | h
        · exact absurd h (by decide)
        · exact absurd h (by decide)
        · exact absurd h (by decide)
        · exact absurd h (by unfold Letter; decide)
        · exact absurd h (by unfold Space; decide)
    · obtain ⟨_, d, r, hd, h1⟩ := tag_dollar ht
      rcases hb with rfl | ⟨r', rfl⟩
      · cases hd
      · injection hd with hd
        subst hd
        rcases h1 with h | h
        · exact absurd h (by unfold Letter; decide)
        · exact absurd h (by decide)
    · obtain ⟨_, r, hd⟩ := tag_angle ht
      rcases hb with rfl | ⟨r', rfl⟩
      · cases hd
      · injection hd with hd
        exact absurd hd (by decide)
  | escaped c r hc _ ih =>
    intro a b hl
    refine step _ _ a b hl (fun h => step _ _ _ b h (fun h => ih _ _ h) fun ht => ?_) (tag_char (by decide))
    have hbs : ¬ NoBs (a ++ c!"\\") := by unfold NoBs; simp
    simp only [List.mem_cons, List.not_mem_nil, or_false] at hc
    rcases hc with rfl | rfl
    · exact hbs (tag_dollar ht).1
    · exact hbs (tag_angle ht).1
  | escapedHash d r hd _ ih =>
    intro a b hl
    refine step _ _ a b hl (fun h => step _ _ _ b h (fun h => ih _ _ h) fun ht => ?_) (tag_char (by decide))
    have hbs : (a ++ c!"\\").getLast? = some '\\' := by simp
    generalize hb : ('#' :: d :: r ++ b : Str) = B at ht
    cases ht with
    | comment r hh => exact hh hbs
    | mlComment r hh => exact hh hbs
    | psp r hh => exact hh hbs
    | placeholder sil mark op c r hh => exact hh hbs
    | expression mark o c r hh => exact hh hbs
    | directive r' name hh => exact hh hbs
    | slurp w e r h1 h2 =>
      injection hb with _ hb
      cases w with
      | nil =>
        rcases h2 with rfl | rfl
        · injection hb with hb; subst hb; exact hd (by simp [Space])
        · injection hb with hb; subst hb; exact hd (by simp [Space])
      | cons e w =>
        injection hb with hb; subst hb
        have := h1 d (by simp)
        exact hd (by simp [Space]; tauto)
  | backslash d r _ ih =>
    intro a b hl
    exact step _ _ a b hl (fun h => ih _ _ h) (tag_char (by decide))

/-! ### Its ends -/

theorem Verbatim.noBs {t : Str} (ht : Verbatim t) : NoBs t := by
  have step : ∀ (c : Char) (r : Str), NoBs r → (r = [] → c ≠ '\\') → NoBs (c :: r) := by
    intro c r hr hc
    unfold NoBs at *
    cases r with
    | nil => simpa using hc rfl
    | cons => simpa using hr
  induction ht with
  | nil => unfold NoBs; decide
  | char c r hc _ ih => exact step _ _ ih fun _ => by simp at hc; tauto
  | dollar d r _ _ _ ih => exact step _ _ ih (by simp)
  | angle d r _ _ ih => exact step _ _ ih (by simp)
  | hash d r _ _ _ _ ih => exact step _ _ ih (by simp)
  | word w d r _ _ _ _ _ ih => exact step _ _ ih (by simp)
  | last c hc => exact step _ _ (by unfold NoBs; decide) fun _ => by rintro rfl; simp at hc
  | escaped c r hc _ ih => exact step _ _ (step _ _ ih fun _ => by rintro rfl; simp at hc) (by simp)
  | escapedHash d r _ _ ih => exact step _ _ (step _ _ ih (by simp)) (by simp)
  | backslash d r _ ih => exact step _ _ ih (by simp)

theorem Verbatim.chars {s : Str} (hs : ∀ c ∈ s, c ∉ c!"#$<\\") : Verbatim s := by
  induction s with
  | nil => exact .nil
  | cons c s ih => exact .char c s (hs c (by simp)) (ih fun d hd => hs d (by simp [hd]))

/-- Characters without a meaning can be added to it at the end, if it does not end with `$`, `#` or `<`. -/
theorem Verbatim.append {t : Str} (ht : Verbatim t) {s : Str} (hs : ∀ c ∈ s, c ∉ c!"#$<\\") : (∀ c, t.getLast? = some c → c ∉ c!"#$<") → Verbatim (t ++ s) := by
  have last : ∀ {c : Char} {r : Str}, (∀ d, (c :: r).getLast? = some d → d ∉ c!"#$<") → ∀ d, r.getLast? = some d → d ∉ c!"#$<" := by
    intro c r h d hd
    refine h d ?_
    cases r with
    | nil => simp at hd
    | cons => simpa using hd
  induction ht with
  | nil => intro _; exact Verbatim.chars hs
  | char c r hc _ ih => intro h; exact .char c _ hc (ih (last h))
  | dollar d r h1 h2 _ ih => intro h; exact .dollar d _ h1 h2 (ih (last h))
  | angle d r h1 _ ih => intro h; exact .angle d _ h1 (ih (last h))
  | hash d r h1 h2 h3 _ ih => intro h; exact .hash d _ h1 h2 h3 (ih (last h))
  | word w d r h1 h2 h3 h4 _ ih =>
    intro h
    have := Verbatim.word w d (r ++ s) h1 h2 h3 h4 (by simpa using ih (last h))
    simpa using this
  | last c hc => intro h; exact absurd hc (h c rfl)
  | escaped c r hc _ ih => intro h; exact .escaped c _ hc (ih (last (last h)))
  | escapedHash d r h1 _ ih => intro h; exact .escapedHash d _ h1 (ih (last (last h)))
  | backslash d r _ ih => intro h; exact .backslash d _ (ih (last h))

/-! ### What it says -/

theorem said_append {s : Str} (t : Str) (hs : ∀ c ∈ s, c ∉ c!"#$<\\") : said (t ++ s) = said t ++ s := by
  have h0 : ∀ {s : Str}, (∀ c ∈ s, c ∉ c!"#$<\\") → said s = s := by
    intro s hs
    induction s with
    | nil => rfl
    | cons c s ih =>
      have hc : c ≠ '\\' := by rintro rfl; exact hs '\\' (by simp) (by simp)
      have := ih fun d hd => hs d (by simp [hd])
      unfold said at *
      rw [unescapeOnce, if_neg (by simp [hc]), this]
  induction t with
  | nil => exact h0 hs
  | cons c t ih =>
    unfold said at *
    rw [List.cons_append, unescapeOnce, unescapeOnce, ih]
    cases t with
    | nil =>
      simp only [List.nil_append, List.head?_nil, reduceCtorEq, or_self, and_false, if_false]
      rw [if_neg, List.cons_append]
      rintro ⟨_, h⟩
      rcases h with h | h
      · obtain ⟨r, rfl⟩ := List.head?_eq_some_iff.1 h; exact hs '$' (by simp) (by simp)
      · obtain ⟨r, rfl⟩ := List.head?_eq_some_iff.1 h; exact hs '#' (by simp) (by simp)
    | cons d t =>
      have e : ∀ r : Str, (d :: r).head? = some d := fun _ => rfl
      by_cases h : c = '\\' ∧ (some d = some '$' ∨ some d = some '#')
      · rw [if_pos (by rw [List.cons_append, e]; exact h), if_pos (by rw [e]; exact h)]
      · rw [if_neg (by rw [List.cons_append, e]; exact h), if_neg (by rw [e]; exact h), List.cons_append]

theorem said_nil {t : Str} : said t = [] ↔ t = [] := by
  constructor
  · intro h
    cases t with
    | nil => rfl
    | cons c t =>
      exfalso
      induction t generalizing c with
      | nil => simp [said, unescapeOnce] at h
      | cons d t ih =>
        unfold said at h ih
        rw [unescapeOnce] at h
        split at h
        · exact ih d h
        · simp at h
  · rintro rfl; rfl

theorem said_last {t : Str} (h : t.getLast? = some '\n') : (said t).getLast? = some '\n' := by
  obtain ⟨s, rfl⟩ := List.getLast?_eq_some_iff.1 h
  rw [said_append s (by decide)]
  simp

end Cheetah.Parser
