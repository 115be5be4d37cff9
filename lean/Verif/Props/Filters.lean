import Verif.Filters
/-
Properties C18-C21: the filters and the HTML helpers.
-/
namespace Cheetah.Filters

/-! ### C19 -/

/-- **C19, None is the empty string and text passes unchanged** through the default
filter; anything else is its `str()`. -/
theorem C19_default_filter (s : Str) (r : Except Str Str) :
    filter .none = .ok [] ∧ filter (.text s) = .ok s ∧ filter (.obj r) = r :=
  ⟨rfl, rfl, rfl⟩

/-- **C19, MaxLen truncates.** For every value whose unfiltered text is `s` and every
length `n ≥ 0`: the output is a prefix of `s`, at most `n` characters long, equal to
`s` when `s` is short enough and exactly `n` long otherwise. -/
theorem C19_maxLen (v : Val) (s : Str) (hv : filter v = .ok s) (n : Nat) :
    ∃ out, maxLen (some n) v = .ok out ∧ (∃ rest, s = out ++ rest) ∧ out.length ≤ n ∧
      (s.length ≤ n → out = s) ∧ (s.length > n → out.length = n) := by
  unfold maxLen
  simp only [hv]
  by_cases h : (s.length : Int) > n
  · rw [if_pos h]
    have h1 : sliceTo s n = s.take n := by simp [sliceTo]
    refine ⟨_, rfl, ⟨s.drop n, by rw [h1]; simp⟩, ?_, ?_, ?_⟩
    · rw [h1]; simp; omega
    · intro h2; omega
    · intro _; rw [h1]; simp; omega
  · rw [if_neg h]
    exact ⟨s, rfl, ⟨[], by simp⟩, by omega, fun _ => rfl, fun h2 => by omega⟩

/-- **C19, MaxLen for negative lengths and without one**: still a prefix of the text
(a negative `maxlen` drops that many characters from the end); no `maxlen`, no
truncation. None gives the empty string in every case. -/
theorem C19_maxLen_any (v : Val) (s : Str) (hv : filter v = .ok s) (n : Int) :
    (∃ out rest, maxLen (some n) v = .ok out ∧ s = out ++ rest ∧ (n < 0 → rest.length = min n.natAbs s.length)) ∧
    maxLen none v = .ok s ∧ maxLen (some n) .none = .ok [] := by
  unfold maxLen
  simp only [hv]
  refine ⟨?_, trivial, ?_⟩
  · split
    · unfold sliceTo
      split
      · exact ⟨_, s.drop n.toNat, rfl, by simp, by omega⟩
      · refine ⟨_, s.drop (s.length - (-n).toNat), rfl, by simp, fun _ => ?_⟩
        rw [List.length_drop]
        omega
    · exact ⟨s, [], rfl, by simp, by omega⟩
  · simp only [filter, List.length_nil, sliceTo]
    split
    · split <;> simp
    · rfl

example : maxLen (some 3) (.text c!"abcdef") = .ok c!"abc" := by decide
example : maxLen (some (-2)) (.text c!"abcdef") = .ok c!"abcd" := by decide

/-! ### C18 -/

/-- The characters the entities are made of. -/
def reserved (c : Char) : Bool := isDigit c || c!"&;#amplgtnbsquo".contains c

/-- Spec: what one character of the input becomes. -/
def escapeOne (also : List Char) (c : Char) : Str :=
  if c = '&' then c!"&amp;"
  else if c = '<' then c!"&lt;"
  else if c = '>' then c!"&gt;"
  else if c ∈ also then entity c
  else [c]

theorem reserved_entity (k : Char) : ∀ c ∈ entity k, reserved c = true := by
  intro c hc
  unfold entity at hc
  split at hc
  · simp at hc; rcases hc with rfl | rfl | rfl | rfl | rfl | rfl <;> decide
  · split at hc
    · simp at hc; rcases hc with rfl | rfl | rfl | rfl | rfl | rfl <;> decide
    · simp only [List.mem_append] at hc
      rcases hc with (hc | hc) | hc
      · simp at hc; rcases hc with rfl | rfl <;> decide
      · simp [reserved, decimal_digits _ c hc]
      · simp at hc; subst hc; decide

theorem replaceCh_absent {k : Char} {v s : Str} (h : k ∉ s) : replaceCh k v s = s := by
  unfold replaceCh
  induction s with
  | nil => rfl
  | cons c cs ih =>
    simp at h
    simp [Ne.symm h.1, ih h.2]

theorem replaceCh_flatMap (k : Char) (v : Str) (f : Char → Str) (s : Str) :
    replaceCh k v (s.flatMap f) = s.flatMap (fun c => replaceCh k v (f c)) := by
  unfold replaceCh
  rw [List.flatMap_assoc]

theorem escapeBasic_eq (s : Str) : escapeBasic s = s.flatMap (escapeOne []) := by
  unfold escapeBasic
  have : replaceCh '&' c!"&amp;" s = s.flatMap (fun d => if d = '&' then c!"&amp;" else [d]) := rfl
  rw [this, replaceCh_flatMap, replaceCh_flatMap]
  congr 1
  funext c
  unfold escapeOne
  by_cases h1 : c = '&'
  · rw [if_pos h1, if_pos h1]; decide
  · rw [if_neg h1, if_neg h1]
    by_cases h2 : c = '<'
    · subst h2; decide
    · rw [if_neg h2]
      by_cases h3 : c = '>'
      · subst h3; decide
      · simp [replaceCh, h2, h3]

theorem escapeOne_step (A : List Char) (k c : Char) (hk : reserved k = false) :
    replaceCh k (entity k) (escapeOne A c) = escapeOne (A ++ [k]) c := by
  have hent : ∀ w : Str, (∀ x ∈ w, reserved x = true) → k ∉ w := by
    intro w hw hkw; rw [hw k hkw] at hk; cases hk
  unfold escapeOne
  by_cases h1 : c = '&'
  · rw [if_pos h1, if_pos h1]; exact replaceCh_absent (hent _ (by decide))
  · rw [if_neg h1, if_neg h1]
    by_cases h2 : c = '<'
    · rw [if_pos h2, if_pos h2]; exact replaceCh_absent (hent _ (by decide))
    · rw [if_neg h2, if_neg h2]
      by_cases h3 : c = '>'
      · rw [if_pos h3, if_pos h3]; exact replaceCh_absent (hent _ (by decide))
      · rw [if_neg h3, if_neg h3]
        by_cases h4 : c ∈ A
        · rw [if_pos h4, if_pos (by simp [h4])]
          exact replaceCh_absent (hent _ (reserved_entity c))
        · rw [if_neg h4]
          by_cases h5 : c = k
          · subst h5; rw [if_pos (by simp)]; simp [replaceCh]
          · rw [if_neg (by simp [h4, h5])]; simp [replaceCh, h5]

theorem escapeAlso_eq : ∀ (also A : List Char) (s : Str), (∀ k ∈ also, reserved k = false) →
    escapeAlso also (s.flatMap (escapeOne A)) = s.flatMap (escapeOne (A ++ also)) := by
  intro also
  induction also with
  | nil => intro A s _; simp [escapeAlso]
  | cons k ks ih =>
    intro A s h
    have : escapeAlso (k :: ks) (s.flatMap (escapeOne A)) =
        escapeAlso ks (replaceCh k (entity k) (s.flatMap (escapeOne A))) := rfl
    rw [this, replaceCh_flatMap]
    have : (fun c => replaceCh k (entity k) (escapeOne A c)) = escapeOne (A ++ [k]) := by
      funext c; exact escapeOne_step A k c (h k (by simp))
    rw [this, ih (A ++ [k]) s (fun x hx => h x (by simp [hx]))]
    simp

/-- **C18, what WebSafe computes**: every character is replaced by its own entity or
kept, provided `also` has no character used by the entities themselves. -/
theorem C18_characterwise (also : List Char) (s : Str) (h : ∀ k ∈ also, reserved k = false) :
    webSafe also (.text s) = .ok (s.flatMap (escapeOne also)) := by
  have := escapeAlso_eq also [] s h
  simp only [List.nil_append] at this
  simp only [webSafe, filter, escapeBasic_eq, this]

theorem escapeAlso_keeps {P : Char → Prop} (hP : ∀ c, reserved c = true → P c) : ∀ (also : List Char) (s : Str),
    (∀ c ∈ s, P c) → ∀ c ∈ escapeAlso also s, P c := by
  intro also
  induction also with
  | nil => intro s h; exact h
  | cons k ks ih =>
    intro s h
    apply ih (replaceCh k (entity k) s)
    intro c hc
    unfold replaceCh at hc
    rw [List.mem_flatMap] at hc
    obtain ⟨d, hd, hc⟩ := hc
    split at hc
    · exact hP c (reserved_entity k c hc)
    · simp at hc; subst hc; exact h _ hd

/-- **C18, no markup survives**: for every text and every `also`, the output has no
`<` and no `>`. -/
theorem C18_no_angle_brackets (also : List Char) (v : Val) (out : Str) (h : webSafe also v = .ok out) :
    '<' ∉ out ∧ '>' ∉ out := by
  unfold webSafe at h
  cases hv : filter v with
  | error e => simp [hv] at h
  | ok s =>
    simp [hv] at h
    subst h
    have key : ∀ c ∈ escapeAlso also (escapeBasic s), c ≠ '<' ∧ c ≠ '>' := by
      apply escapeAlso_keeps (P := fun c => c ≠ '<' ∧ c ≠ '>')
      · intro c hc
        constructor <;> (intro he; subst he; revert hc; decide)
      · rw [escapeBasic_eq]
        intro c hc
        rw [List.mem_flatMap] at hc
        obtain ⟨d, _, hc⟩ := hc
        unfold escapeOne at hc
        split at hc
        · simp at hc; rcases hc with rfl | rfl | rfl | rfl | rfl <;> decide
        · split at hc
          · simp at hc; rcases hc with rfl | rfl | rfl | rfl <;> decide
          · split at hc
            · simp at hc; rcases hc with rfl | rfl | rfl | rfl <;> decide
            · next h1 h2 h3 => simp at hc; subst hc; exact ⟨h2, h3⟩
    exact ⟨fun hm => (key _ hm).1 rfl, fun hm => (key _ hm).2 rfl⟩

/-- The entities WebSafe may write. -/
def entities (also : List Char) : List Str := c!"&amp;" :: c!"&lt;" :: c!"&gt;" :: also.map entity

/-- The shape shared by all entities: '&', a body without '&' and ';', ';'. -/
theorem escapeOne_shape (also : List Char) (c : Char) :
    (escapeOne also c = [c] ∧ c ≠ '&' ∧ c ≠ '<' ∧ c ≠ '>' ∧ c ∉ also) ∨
    ∃ body, escapeOne also c = '&' :: body ++ [';'] ∧ '&' ∉ body ∧ ';' ∉ body ∧
      escapeOne also c ∈ entities also := by
  unfold escapeOne entities
  by_cases h1 : c = '&'
  · rw [if_pos h1]; exact Or.inr ⟨c!"amp", rfl, by decide, by decide, by simp⟩
  · rw [if_neg h1]
    by_cases h2 : c = '<'
    · rw [if_pos h2]; exact Or.inr ⟨c!"lt", rfl, by decide, by decide, by simp⟩
    · rw [if_neg h2]
      by_cases h3 : c = '>'
      · rw [if_pos h3]; exact Or.inr ⟨c!"gt", rfl, by decide, by decide, by simp⟩
      · rw [if_neg h3]
        by_cases h4 : c ∈ also
        · rw [if_pos h4]
          right
          have hm : entity c ∈ c!"&amp;" :: c!"&lt;" :: c!"&gt;" :: also.map entity := by
            simp only [List.mem_cons, List.mem_map]
            exact Or.inr (Or.inr (Or.inr ⟨c, h4, rfl⟩))
          by_cases h : c = ' '
          · refine ⟨c!"nbsp", by simp [entity, h], by decide, by decide, hm⟩
          · by_cases h' : c = '"'
            · exact ⟨c!"quot", by simp [entity, h'], by decide, by decide, hm⟩
            · have hd := decimal_digits c.toNat
              refine ⟨'#' :: decimal c.toNat, by simp [entity, h, h'], ?_, ?_, hm⟩
              · intro hx; simp at hx; have := hd _ hx; revert this; decide
              · intro hx; simp at hx; have := hd _ hx; revert this; decide
        · rw [if_neg h4]; exact Or.inl ⟨rfl, h1, h2, h3, h4⟩

/-- **C18, every '&' begins an entity**, and characters listed in `also` do not
occur raw. -/
theorem C18_ampersands_and_also (also : List Char) (s out : Str) (h : ∀ k ∈ also, reserved k = false)
    (hout : webSafe also (.text s) = .ok out) :
    (∀ a b, out = a ++ '&' :: b → ∃ e ∈ entities also, ∃ b', '&' :: b = e ++ b') ∧
    (∀ k ∈ also, k ∉ out) := by
  rw [C18_characterwise also s h] at hout
  cases hout
  constructor
  · induction s with
    | nil => intro a b he; simp at he
    | cons c cs ih =>
      intro a b he
      rw [List.flatMap_cons] at he
      rcases escapeOne_shape also c with ⟨h1, h2, _⟩ | ⟨body, h1, h2, h3, h4⟩
      · rw [h1] at he
        cases a with
        | nil => simp at he; exact absurd he.1 h2
        | cons x a => simp at he; exact ih a b he.2
      · cases a with
        | nil =>
          simp only [List.nil_append] at he
          exact ⟨_, h4, cs.flatMap (escapeOne also), he.symm⟩
        | cons x a =>
          rw [h1] at he
          simp only [List.cons_append, List.cons.injEq] at he
          -- the '&' is not inside `body ++ ";"`
          have he2 := he.2
          rw [List.append_eq_append_iff] at he2
          rcases he2 with ⟨t, ht, ht2⟩ | ⟨t, ht, ht2⟩
          · exact ih t b ht2
          · cases t with
            | nil => simp at ht2; exact ih [] b (by simpa using ht2.symm)
            | cons y t =>
              simp at ht2
              have : '&' ∈ body ++ [';'] := by rw [ht, ← ht2.1]; simp
              simp at this
              exact absurd this h2
  · intro k hk hmem
    rw [List.mem_flatMap] at hmem
    obtain ⟨c, _, hc⟩ := hmem
    have hkr := h k hk
    rcases escapeOne_shape also c with ⟨h1, _, _, _, h5⟩ | ⟨body, _, _, _, h4⟩
    · rw [h1] at hc; simp at hc; subst hc; exact h5 hk
    · have : ∀ e ∈ entities also, ∀ x ∈ e, reserved x = true := by
        intro e he
        simp only [entities, List.mem_cons, List.mem_map] at he
        rcases he with rfl | rfl | rfl | ⟨d, _, rfl⟩
        · decide
        · decide
        · decide
        · exact reserved_entity d
      rw [this _ h4 k hc] at hkr; cases hkr

theorem cut_at {sep : Char} : ∀ {x y x' y' : Str}, sep ∉ x → sep ∉ x' →
    x ++ sep :: y = x' ++ sep :: y' → x = x' ∧ y = y' := by
  intro x
  induction x with
  | nil =>
    intro y x' y' _ hx' he
    cases x' with
    | nil => simp at he; exact ⟨rfl, he⟩
    | cons c x' => simp at he; simp [← he.1] at hx'
  | cons c x ih =>
    intro y x' y' hx hx' he
    cases x' with
    | nil => simp at he; simp [he.1] at hx
    | cons c' x' =>
      simp at he hx hx'
      obtain ⟨a, b⟩ := ih hx.2 hx'.2 he.2
      exact ⟨by rw [he.1, a], b⟩

theorem entity_inj {c d : Char} (h : entity c = entity d) : c = d := by
  unfold entity at h
  by_cases c1 : c = ' ' <;> by_cases d1 : d = ' '
  · rw [c1, d1]
  · rw [if_pos c1, if_neg d1] at h
    split at h <;> simp at h
  · rw [if_neg c1, if_pos d1] at h
    split at h <;> simp at h
  · rw [if_neg c1, if_neg d1] at h
    by_cases c2 : c = '"' <;> by_cases d2 : d = '"'
    · rw [c2, d2]
    · rw [if_pos c2, if_neg d2] at h; simp at h
    · rw [if_neg c2, if_pos d2] at h; simp at h
    · rw [if_neg c2, if_neg d2] at h
      simp at h
      exact Char.toNat_inj.1 (decimal_inj h)

theorem escapeOne_inj (also : List Char) (c d : Char) (h : escapeOne also c = escapeOne also d) : c = d := by
  have basic : ∀ e : Char, entity e ≠ c!"&amp;" ∧ entity e ≠ c!"&lt;" ∧ entity e ≠ c!"&gt;" := by
    intro e
    unfold entity
    split
    · decide
    · split
      · decide
      · simp
  have single : ∀ (e : Char) (a b : Char) (w : Str), [e] ≠ a :: b :: w := by simp
  have hent : ∀ e : Char, ∃ a b w, entity e = a :: b :: w := by
    intro e; unfold entity
    split
    · exact ⟨_, _, _, rfl⟩
    · split
      · exact ⟨_, _, _, rfl⟩
      · exact ⟨'&', '#', decimal e.toNat ++ [';'], by simp⟩
  obtain ⟨a, b, w, hc⟩ := hent c
  obtain ⟨a', b', w', hd⟩ := hent d
  have bc := basic c
  have bd := basic d
  unfold escapeOne at h
  by_cases c1 : c = '&'
  · rw [if_pos c1] at h
    by_cases d1 : d = '&'
    · rw [c1, d1]
    · rw [if_neg d1] at h
      split at h
      · simp at h
      · split at h
        · simp at h
        · split at h
          · exact absurd h.symm bd.1
          · simp at h
  · rw [if_neg c1] at h
    by_cases c2 : c = '<'
    · rw [if_pos c2] at h
      by_cases d1 : d = '&'
      · rw [if_pos d1] at h; simp at h
      · rw [if_neg d1] at h
        by_cases d2 : d = '<'
        · rw [c2, d2]
        · rw [if_neg d2] at h
          split at h
          · simp at h
          · split at h
            · exact absurd h.symm bd.2.1
            · simp at h
    · rw [if_neg c2] at h
      by_cases c3 : c = '>'
      · rw [if_pos c3] at h
        by_cases d1 : d = '&'
        · rw [if_pos d1] at h; simp at h
        · rw [if_neg d1] at h
          by_cases d2 : d = '<'
          · rw [if_pos d2] at h; simp at h
          · rw [if_neg d2] at h
            by_cases d3 : d = '>'
            · rw [c3, d3]
            · rw [if_neg d3] at h
              split at h
              · exact absurd h.symm bd.2.2
              · simp at h
      · rw [if_neg c3] at h
        by_cases c4 : c ∈ also
        · rw [if_pos c4] at h
          by_cases d1 : d = '&'
          · rw [if_pos d1] at h; exact absurd h bc.1
          · rw [if_neg d1] at h
            by_cases d2 : d = '<'
            · rw [if_pos d2] at h; exact absurd h bc.2.1
            · rw [if_neg d2] at h
              by_cases d3 : d = '>'
              · rw [if_pos d3] at h; exact absurd h bc.2.2
              · rw [if_neg d3] at h
                by_cases d4 : d ∈ also
                · rw [if_pos d4] at h; exact entity_inj h
                · rw [if_neg d4, hc] at h; simp at h
        · rw [if_neg c4] at h
          by_cases d1 : d = '&'
          · rw [if_pos d1] at h; simp at h
          · rw [if_neg d1] at h
            by_cases d2 : d = '<'
            · rw [if_pos d2] at h; simp at h
            · rw [if_neg d2] at h
              by_cases d3 : d = '>'
              · rw [if_pos d3] at h; simp at h
              · rw [if_neg d3] at h
                by_cases d4 : d ∈ also
                · rw [if_pos d4, hd] at h; simp at h
                · rw [if_neg d4] at h; simpa using h

/-- **C18, lossless**: different texts give different outputs. -/
theorem C18_injective (also : List Char) (s t : Str) (h : ∀ k ∈ also, reserved k = false)
    (he : webSafe also (.text s) = webSafe also (.text t)) : s = t := by
  rw [C18_characterwise also s h, C18_characterwise also t h] at he
  simp only [Except.ok.injEq] at he
  have nonempty : ∀ c, escapeOne also c ≠ [] := by
    intro c hc
    rcases escapeOne_shape also c with ⟨h1, _⟩ | ⟨body, h1, _⟩ <;> rw [h1] at hc <;> simp at hc
  induction s generalizing t with
  | nil =>
    cases t with
    | nil => rfl
    | cons d ds => simp at he; exact absurd he.1 (nonempty d)
  | cons c cs ih =>
    cases t with
    | nil => simp at he; exact absurd he.1 (nonempty c)
    | cons d ds =>
      rw [List.flatMap_cons, List.flatMap_cons] at he
      have key : escapeOne also c = escapeOne also d ∧
          cs.flatMap (escapeOne also) = ds.flatMap (escapeOne also) := by
        rcases escapeOne_shape also c with ⟨h1, h2, _⟩ | ⟨body, h1, h2, h3, _⟩ <;>
        rcases escapeOne_shape also d with ⟨g1, g2, _⟩ | ⟨body', g1, g2, g3, _⟩
        · rw [h1, g1] at he ⊢; simp at he ⊢; exact he
        · rw [h1, g1] at he; simp at he; exact absurd he.1 h2
        · rw [h1, g1] at he; simp at he; exact absurd he.1.symm g2
        · rw [h1, g1] at he ⊢
          simp only [List.cons_append, List.append_assoc, List.nil_append, List.cons.injEq, true_and] at he
          obtain ⟨e1, e2⟩ := cut_at h3 g3 he
          exact ⟨by rw [e1], e2⟩
      rw [escapeOne_inj also c d key.1, ih ds key.2]

/-- Finding: an `also` naming a character of the entities breaks the escaping
already done: the '&' of the text is no longer followed by a well-formed entity. -/
theorem C18_reserved_also_counterexample :
    webSafe c!";" (.text c!"&") = .ok c!"&amp&#59;" := by decide

example : ∀ k ∈ c!" \"'é", reserved k = false := by decide
example : webSafe c!" '" (.text c!"<a & 'b'>") = .ok c!"&lt;a&nbsp;&amp;&nbsp;&#39;b&#39;&gt;" := by decide

/-! ### C20 -/

/-- **C20, Strip works line by line**: the output's lines are the input's lines, each
stripped; nothing else changes. -/
theorem C20_strip_lines (s : Str) :
    stripFilter (.text s) = .ok (joinStr ['\n'] ((splitCh '\n' s).map strip)) := by
  simp only [stripFilter, filter, Except.ok.injEq]
  suffices h : ∀ (n : Nat) (s : Str), s.length ≤ n →
      stripLoop s = joinStr ['\n'] ((splitCh '\n' s).map strip) from h s.length s (Nat.le_refl _)
  intro n
  induction n with
  | zero =>
    intro s hs
    have : s = [] := List.length_eq_zero_iff.1 (by omega)
    subst this
    rw [stripLoop]; rfl
  | succ n ih =>
    intro s hs
    rw [stripLoop]
    split
    · next hf =>
      have : '\n' ∉ s := by
        clear ih hs
        induction s with
        | nil => simp
        | cons c cs ih2 =>
          simp only [findNewline] at hf
          by_cases hc : c = '\n'
          · rw [if_pos hc] at hf; cases hf
          · rw [if_neg hc] at hf
            have := ih2 (by cases hh : findNewline cs <;> simp_all)
            simp [this, Ne.symm hc]
      rw [splitCh_of_not_mem this]; rfl
    · next line rest hf =>
      obtain ⟨h1, h2⟩ := findNewline_some hf
      have hl : rest.length ≤ n := by rw [h1] at hs; simp at hs; omega
      conv => rhs; rw [h1, splitCh_append_sep, splitCh_of_not_mem h2]
      rw [ih rest hl]
      obtain ⟨p, ps, hp⟩ := List.exists_cons_of_ne_nil (splitCh_ne_nil '\n' rest)
      rw [hp]
      simp [joinStr]

theorem newline_not_mem_strip {l : Str} (h : '\n' ∉ l) : '\n' ∉ strip l := fun hm => h (strip_mem hm)

/-- **C20, Strip keeps the lines and only touches whitespace**: the number of lines is
the same; the i-th output line is the i-th input line without the whitespace at its
two ends (all of it, and nothing more); the non-whitespace characters are the same
in the same order; filtering again changes nothing. -/
theorem C20_strip (s out : Str) (hout : stripFilter (.text s) = .ok out) :
    (splitCh '\n' out).length = (splitCh '\n' s).length ∧
    (∀ (i : Nat) (l l' : Str), (splitCh '\n' s)[i]? = some l → (splitCh '\n' out)[i]? = some l' →
      ∃ a b : Str, l = a ++ l' ++ b ∧ (∀ c ∈ a, isSpace c = true) ∧ (∀ c ∈ b, isSpace c = true) ∧
        (∀ c, l'.head? = some c → isSpace c = false) ∧
        (∀ c, l'.getLast? = some c → isSpace c = false)) ∧
    out.filter (fun c => !isSpace c) = s.filter (fun c => !isSpace c) ∧
    stripFilter (.text out) = .ok out := by
  rw [C20_strip_lines] at hout
  simp only [Except.ok.injEq] at hout
  have hsplit : splitCh '\n' out = (splitCh '\n' s).map strip := by
    rw [← hout]
    apply splitCh_join
    · simp [splitCh_ne_nil]
    · intro p hp
      rw [List.mem_map] at hp
      obtain ⟨l, hl, rfl⟩ := hp
      exact newline_not_mem_strip (splitCh_not_mem '\n' s l hl)
  have hsolid : ∀ ls : List Str, solid (joinStr ['\n'] (ls.map strip)) = solid (joinStr ['\n'] ls) := by
    intro ls
    induction ls with
    | nil => rfl
    | cons l ls ih =>
      cases ls with
      | nil => simp [joinStr, solid_strip]
      | cons m ms =>
        simp only [List.map_cons, joinStr, solid_append, solid_strip] at ih ⊢
        rw [ih]
  refine ⟨by rw [hsplit]; simp, ?_, ?_, ?_⟩
  · intro i l l' hl hl'
    rw [hsplit, List.getElem?_map, hl] at hl'
    simp at hl'
    subst hl'
    exact strip_spec l
  · have := hsolid (splitCh '\n' s)
    rw [hout, join_splitCh] at this
    exact this
  · rw [C20_strip_lines, hsplit, List.map_map]
    have : strip ∘ strip = strip := by funext l; exact strip_idem l
    rw [this, hout]

/-- **C20, StripSqueeze**: the output is a sequence of non-empty whitespace-free words
joined by single blanks — so it has no other whitespace and none at the ends — with
the same non-whitespace characters in the same order, the same word boundaries, and
filtering again changes nothing. -/
theorem C20_stripSqueeze (s out : Str) (hout : stripSqueeze (.text s) = .ok out) :
    (∃ ws : List Str, out = joinStr [' '] ws ∧ ws = pyWords s ∧
      ∀ w ∈ ws, w ≠ [] ∧ ∀ c ∈ w, isSpace c = false) ∧
    out.filter (fun c => !isSpace c) = s.filter (fun c => !isSpace c) ∧
    stripSqueeze (.text out) = .ok out ∧
    strip out = out := by
  simp only [stripSqueeze, filter, Except.ok.injEq] at hout
  have hw := pyWords_words s
  have hj := pyWords_join (pyWords s) hw
  refine ⟨⟨_, hout.symm, rfl, hw⟩, ?_, ?_, ?_⟩
  · have h1 := solid_words out
    rw [← hout, hj, solid_words s] at h1
    rw [← hout]
    exact h1.symm
  · simp only [stripSqueeze, filter, Except.ok.injEq]
    rw [← hout, hj]
  · -- neither end is whitespace
    rw [← hout]
    have hends : ∀ ws : List Str, (∀ w ∈ ws, w ≠ [] ∧ ∀ c ∈ w, isSpace c = false) →
        (∀ c, (joinStr [' '] ws).head? = some c → isSpace c = false) ∧
        (∀ c, (joinStr [' '] ws).getLast? = some c → isSpace c = false) := by
      intro ws
      induction ws with
      | nil => simp [joinStr]
      | cons w ws ih =>
        intro h
        obtain ⟨hne, hsol⟩ := h w (by simp)
        cases ws with
        | nil =>
          simp only [joinStr]
          exact ⟨fun c hc => hsol c (List.mem_of_mem_head? hc), fun c hc => hsol c (List.mem_of_getLast? hc)⟩
        | cons v vs =>
          obtain ⟨_, i2⟩ := ih (fun x hx => h x (by simp at hx ⊢; exact Or.inr hx))
          simp only [joinStr]
          constructor
          · intro c hc
            cases w with
            | nil => exact absurd rfl hne
            | cons x w => simp at hc; exact hsol c (by simp [hc])
          · intro c hc
            apply i2
            have hv : joinStr [' '] (v :: vs) ≠ [] := by
              obtain ⟨hvne, _⟩ := h v (by simp)
              cases vs with
              | nil => simpa [joinStr] using hvne
              | cons u us => simp [joinStr]
            rw [List.getLast?_append] at hc
            cases hl : (joinStr [' '] (v :: vs)).getLast? with
            | none => rw [List.getLast?_eq_none_iff] at hl; exact absurd hl hv
            | some d => rw [hl] at hc; simpa using hc
    obtain ⟨h1, h2⟩ := hends (pyWords s) hw
    rw [strip, lstrip_eq_self h1, rstrip_eq_self h2]

/-- **C20, pieces**: the words of StripSqueeze are the pieces between whitespace:
splitting at a whitespace character splits the words. -/
theorem C20_words_at_space (a b : Str) (c : Char) (hc : isSpace c = true) :
    pyWords (a ++ c :: b) = pyWords a ++ pyWords b := by
  induction a with
  | nil => simpa [pyWords] using pyWords_space hc b
  | cons x a ih =>
    by_cases hx : isSpace x = true
    · rw [List.cons_append, pyWords_space hx, pyWords_space hx, ih]
    · have hx : isSpace x = false := by simpa using hx
      cases a with
      | nil =>
        rw [List.cons_append, List.nil_append, pyWords_solid_space hx hc, pyWords_solid_nil hx]; rfl
      | cons y a =>
        by_cases hy : isSpace y = true
        · rw [List.cons_append, List.cons_append, pyWords_solid_space hx hy, pyWords_solid_space hx hy]
          rw [List.cons_append, pyWords_space hy, pyWords_space hy] at ih
          rw [ih]; rfl
        · have hy : isSpace y = false := by simpa using hy
          obtain ⟨w, ws, h1, h2⟩ := pyWords_solid_solid hx hy (a ++ c :: b)
          obtain ⟨w', ws', h1', h2'⟩ := pyWords_solid_solid hx hy a
          rw [List.cons_append, List.cons_append, h2, h2']
          rw [List.cons_append, h1, h1'] at ih
          simp at ih
          simp [ih.1, ih.2]

example : stripFilter (.text c!"  a b \n\n\t c\n ") = .ok c!"a b\n\nc\n" := by decide +kernel
example : stripSqueeze (.text c!"  a b \n\n\t c\n ") = .ok c!"a b c" := by decide +kernel

/-! ### C21 -/

/-- What one character becomes under htmlEncode. -/
def encodeOne (c : Char) : Str :=
  if c = '&' then c!"&amp;"
  else if c = '<' then c!"&lt;"
  else if c = '>' then c!"&gt;"
  else if c = '"' then c!"&quot;"
  else [c]

theorem htmlEncode_eq (s : Str) : htmlEncode s = s.flatMap encodeOne := by
  have h0 : htmlEncode s = replaceCh '"' c!"&quot;" (escapeBasic s) := rfl
  rw [h0, escapeBasic_eq, replaceCh_flatMap]
  congr 1
  funext c
  unfold escapeOne encodeOne
  by_cases h1 : c = '&'
  · rw [if_pos h1, if_pos h1]; decide
  · rw [if_neg h1, if_neg h1]
    by_cases h2 : c = '<'
    · rw [if_pos h2, if_pos h2]; decide
    · rw [if_neg h2, if_neg h2]
      by_cases h3 : c = '>'
      · rw [if_pos h3, if_pos h3]; decide
      · rw [if_neg h3, if_neg h3]
        by_cases h4 : c = '"'
        · subst h4; decide
        · simp [replaceCh, h4]

/-- Replacing an entity in a text made of tokens. -/
theorem replaceStr_tokens (pat by_ : Str) (hp : pat ≠ []) (f : Char → Str) (x : Char) (hx : f x = pat)
    (hf : ∀ c, c ≠ x → ∀ a b, f c = a ++ b → b ≠ [] → ∀ rest, stripPrefix? pat (b ++ rest) = none)
    (s : Str) :
    replaceStr pat by_ (s.flatMap f) = s.flatMap (fun c => if c = x then by_ else f c) := by
  induction s with
  | nil => rfl
  | cons c cs ih =>
    rw [List.flatMap_cons, List.flatMap_cons]
    by_cases hc : c = x
    · subst hc
      rw [hx, replaceStr_hit hp, ih, if_pos rfl]
    · rw [replaceStr_skip _ _ (fun a b hab hb => hf c hc a b hab hb _), ih, if_neg hc]

theorem token_amp (pat : Str) (p : Char) (ps : Str) (hpat : pat = '&' :: p :: ps) (q : Char) (w : Str)
    (hqp : p ≠ q) (hw : '&' ∉ w) (hq : q ≠ '&') :
    ∀ a b, '&' :: q :: w = a ++ b → b ≠ [] → ∀ rest, stripPrefix? pat (b ++ rest) = none := by
  intro a b hab hb rest
  subst hpat
  cases a with
  | nil =>
    simp at hab; subst hab
    simp [stripPrefix?, hqp]
  | cons x a =>
    simp at hab
    cases b with
    | nil => exact absurd rfl hb
    | cons y b =>
      apply stripPrefix?_head
      intro hy
      subst hy
      have hm : '&' ∈ q :: w := by rw [hab.2]; simp
      simp at hm
      rcases hm with hm | hm
      · exact hq hm.symm
      · exact hw hm

theorem token_single (pat ps : Str) (hpat : pat = '&' :: ps) (c : Char) (hc : c ≠ '&') :
    ∀ a b, [c] = a ++ b → b ≠ [] → ∀ rest, stripPrefix? pat (b ++ rest) = none := by
  intro a b hab hb rest
  subst hpat
  cases a with
  | nil => simp at hab; subst hab; exact stripPrefix?_head (Ne.symm hc)
  | cons x a => simp at hab; exact absurd hab.2.2 hb

/-- **C21, htmlDecode inverts htmlEncode**, and the encoded text has no `<`, `>`
or `"`. -/
theorem C21_decode_encode (s : Str) :
    htmlDecode (htmlEncode s) = s ∧
    '<' ∉ htmlEncode s ∧ '>' ∉ htmlEncode s ∧ '"' ∉ htmlEncode s := by
  constructor
  · rw [htmlEncode_eq]
    have h0 : ∀ t, htmlDecode t =
        replaceStr c!"&amp;" ['&'] (replaceStr c!"&lt;" ['<'] (replaceStr c!"&gt;" ['>']
          (replaceStr c!"&quot;" ['"'] t))) := fun _ => rfl
    rw [h0]
    rw [replaceStr_tokens c!"&quot;" ['"'] (by simp) encodeOne '"' (by decide)]
    · rw [replaceStr_tokens c!"&gt;" ['>'] (by simp) _ '>' (by decide)]
      · rw [replaceStr_tokens c!"&lt;" ['<'] (by simp) _ '<' (by decide)]
        · rw [replaceStr_tokens c!"&amp;" ['&'] (by simp) _ '&' (by decide)]
          · have : ∀ c : Char, (if c = '&' then ['&'] else if c = '<' then ['<'] else
                if c = '>' then ['>'] else if c = '"' then ['"'] else encodeOne c) = [c] := by
              intro c
              unfold encodeOne
              by_cases h1 : c = '&'
              · rw [if_pos h1, h1]
              · rw [if_neg h1, if_neg h1]
                by_cases h2 : c = '<'
                · rw [if_pos h2, h2]
                · rw [if_neg h2, if_neg h2]
                  by_cases h3 : c = '>'
                  · rw [if_pos h3, h3]
                  · rw [if_neg h3, if_neg h3]
                    by_cases h4 : c = '"'
                    · rw [if_pos h4, h4]
                    · rw [if_neg h4, if_neg h4]
            simp only [this]
            simp
          · intro c h1
            by_cases h2 : c = '<'
            · rw [if_pos h2]; exact token_single _ _ rfl _ (by decide)
            · rw [if_neg h2]
              by_cases h3 : c = '>'
              · rw [if_pos h3]; exact token_single _ _ rfl _ (by decide)
              · rw [if_neg h3]
                by_cases h4 : c = '"'
                · rw [if_pos h4]; exact token_single _ _ rfl _ (by decide)
                · rw [if_neg h4]
                  simp only [encodeOne, if_neg h1, if_neg h2, if_neg h3, if_neg h4]
                  exact token_single _ _ rfl _ h1
        · intro c h2
          by_cases h3 : c = '>'
          · rw [if_pos h3]; exact token_single _ _ rfl _ (by decide)
          · rw [if_neg h3]
            by_cases h4 : c = '"'
            · rw [if_pos h4]; exact token_single _ _ rfl _ (by decide)
            · rw [if_neg h4]
              by_cases h1 : c = '&'
              · simp only [encodeOne, if_pos h1]
                exact token_amp _ 'l' _ rfl 'a' _ (by decide) (by decide) (by decide)
              · simp only [encodeOne, if_neg h1, if_neg h2, if_neg h3, if_neg h4]
                exact token_single _ _ rfl _ h1
      · intro c h3
        by_cases h4 : c = '"'
        · rw [if_pos h4]; exact token_single _ _ rfl _ (by decide)
        · rw [if_neg h4]
          by_cases h1 : c = '&'
          · simp only [encodeOne, if_pos h1]
            exact token_amp _ 'g' _ rfl 'a' _ (by decide) (by decide) (by decide)
          · by_cases h2 : c = '<'
            · simp only [encodeOne, if_neg h1, if_pos h2]
              exact token_amp _ 'g' _ rfl 'l' _ (by decide) (by decide) (by decide)
            · simp only [encodeOne, if_neg h1, if_neg h2, if_neg h3, if_neg h4]
              exact token_single _ _ rfl _ h1
    · intro c h4
      by_cases h1 : c = '&'
      · simp only [encodeOne, if_pos h1]
        exact token_amp _ 'q' _ rfl 'a' _ (by decide) (by decide) (by decide)
      · by_cases h2 : c = '<'
        · simp only [encodeOne, if_neg h1, if_pos h2]
          exact token_amp _ 'q' _ rfl 'l' _ (by decide) (by decide) (by decide)
        · by_cases h3 : c = '>'
          · simp only [encodeOne, if_neg h1, if_neg h2, if_pos h3]
            exact token_amp _ 'q' _ rfl 'g' _ (by decide) (by decide) (by decide)
          · simp only [encodeOne, if_neg h1, if_neg h2, if_neg h3, if_neg h4]
            exact token_single _ _ rfl _ h1
  · rw [htmlEncode_eq]
    have key : ∀ x ∈ s.flatMap encodeOne, x ≠ '<' ∧ x ≠ '>' ∧ x ≠ '"' := by
      intro x hx
      rw [List.mem_flatMap] at hx
      obtain ⟨c, _, hx⟩ := hx
      unfold encodeOne at hx
      split at hx
      · simp at hx; rcases hx with rfl | rfl | rfl | rfl | rfl <;> decide
      · split at hx
        · simp at hx; rcases hx with rfl | rfl | rfl | rfl <;> decide
        · split at hx
          · simp at hx; rcases hx with rfl | rfl | rfl | rfl <;> decide
          · split at hx
            · simp at hx; rcases hx with rfl | rfl | rfl | rfl | rfl | rfl <;> decide
            · next h1 h2 h3 h4 => simp at hx; subst hx; exact ⟨h2, h3, h4⟩
    exact ⟨fun h => (key _ h).1 rfl, fun h => (key _ h).2.1 rfl, fun h => (key _ h).2.2 rfl⟩

example : htmlDecode (htmlEncode c!"&lt; <\"&amp;quot;\">") = c!"&lt; <\"&amp;quot;\">" := by decide

end Cheetah.Filters
