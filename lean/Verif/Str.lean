/-
Python strings as lists of characters, and the few `str` methods the model uses.

These are transcriptions of CPython built-ins (documented behaviour), not of
code in /repo; they belong to the trusted base described in DESIGN.md.
-/
namespace Cheetah

/-- A Python 3 `str`, as the list of its code points. -/
abbrev Str := List Char

deriving instance DecidableEq for Except

open Lean in
/-- `c!"abc"` is the list of characters `['a', 'b', 'c']`. -/
macro:max "c!" s:str : term => do
  s.getString.toList.foldrM (init := ← `([])) fun c acc =>
    `($(Syntax.mkCharLit c) :: $acc)

/-- `s.split(sep)` for a one-character separator: always at least one piece.
Python built-in; models no code in /repo (used throughout). -/
def splitCh (sep : Char) : Str → List Str
  | [] => [[]]
  | c :: cs =>
    if c = sep then [] :: splitCh sep cs
    else match splitCh sep cs with
      | [] => [[c]]            -- unreachable, `splitCh_ne_nil`
      | p :: ps => (c :: p) :: ps

/-- `sep.join(parts)`.
Python built-in; models no code in /repo (used throughout). -/
def joinStr (sep : Str) : List Str → Str
  | [] => []
  | [p] => p
  | p :: q :: ps => p ++ sep ++ joinStr sep (q :: ps)

/-- `s.startswith(pat)`, as a function returning what follows the prefix.
Python built-in; models no code in /repo (used throughout). -/
def stripPrefix? : Str → Str → Option Str
  | [], s => some s
  | _ :: _, [] => none
  | p :: ps, c :: cs => if p = c then stripPrefix? ps cs else none

/-- `s.startswith(pat)`.
Python built-in; models no code in /repo (used throughout). -/
def startsWith (s pat : Str) : Bool := (stripPrefix? pat s).isSome

/-- `s.find(pat) != -1`. -/
def containsStr (pat : Str) : Str → Bool
  | [] => startsWith [] pat
  | c :: cs => startsWith (c :: cs) pat || containsStr pat cs

/-- `s.replace(c, by)` for a one-character pattern.
Python built-in; models no code in /repo (used throughout). -/
def replaceCh (c : Char) (by_ : Str) (s : Str) : Str :=
  s.flatMap fun d => if d = c then by_ else [d]

/-- `s.replace(pat, by)` for a non-empty pattern: leftmost, non-overlapping,
left to right.  `fuel` bounds the number of characters looked at and is
supplied by `replaceStr`.
Python built-in; models no code in /repo (used throughout). -/
def replaceStrAux (pat by_ : Str) : Nat → Str → Str
  | 0, s => s
  | _ + 1, [] => []
  | n + 1, c :: cs =>
    match stripPrefix? pat (c :: cs) with
    | some rest => by_ ++ replaceStrAux pat by_ n rest
    | none => c :: replaceStrAux pat by_ n cs

/-- `s.replace(pat, by)` for a non-empty pattern.
Python built-in; models no code in /repo (used throughout). -/
def replaceStr (pat by_ s : Str) : Str := replaceStrAux pat by_ s.length s

/-! ### Lemmas -/

theorem splitCh_ne_nil (sep : Char) (s : Str) : splitCh sep s ≠ [] := by
  induction s with
  | nil => simp [splitCh]
  | cons c cs ih =>
    simp only [splitCh]
    split
    · simp
    · split <;> simp

theorem splitCh_cons_ne {sep c : Char} (h : c ≠ sep) (cs : Str) :
    ∃ p ps, splitCh sep cs = p :: ps ∧ splitCh sep (c :: cs) = (c :: p) :: ps := by
  obtain ⟨p, ps, hp⟩ := List.exists_cons_of_ne_nil (splitCh_ne_nil sep cs)
  exact ⟨p, ps, hp, by simp [splitCh, h, hp]⟩

/-- Splitting a concatenation at a separator splits both sides. -/
theorem splitCh_append_sep (sep : Char) (a b : Str) :
    splitCh sep (a ++ sep :: b) = splitCh sep a ++ splitCh sep b := by
  induction a with
  | nil => simp [splitCh]
  | cons c cs ih =>
    by_cases h : c = sep
    · simp [splitCh, h, ih]
    · obtain ⟨p, ps, h1, h2⟩ := splitCh_cons_ne h cs
      obtain ⟨p', ps', h1', h2'⟩ := splitCh_cons_ne h (cs ++ sep :: b)
      rw [List.cons_append, h2', h2]
      rw [ih, h1] at h1'
      simp at h1'
      obtain ⟨rfl, rfl⟩ := h1'
      simp

theorem splitCh_of_not_mem {sep : Char} {s : Str} (h : sep ∉ s) : splitCh sep s = [s] := by
  induction s with
  | nil => rfl
  | cons c cs ih =>
    simp at h
    simp [splitCh, Ne.symm h.1, ih h.2]

/-- `sep.join(s.split(sep)) == s`. -/
theorem join_splitCh (sep : Char) (s : Str) : joinStr [sep] (splitCh sep s) = s := by
  induction s with
  | nil => rfl
  | cons c cs ih =>
    by_cases h : c = sep
    · obtain ⟨p, ps, hp⟩ := List.exists_cons_of_ne_nil (splitCh_ne_nil sep cs)
      rw [hp] at ih
      simp [splitCh, h, hp, joinStr, ih]
    · obtain ⟨p, ps, h1, h2⟩ := splitCh_cons_ne h cs
      rw [h2]; rw [h1] at ih
      cases ps with
      | nil => simpa [joinStr] using ih
      | cons q qs => simpa [joinStr] using ih

/-- No piece of a split contains the separator. -/
theorem splitCh_not_mem (sep : Char) (s : Str) : ∀ p ∈ splitCh sep s, sep ∉ p := by
  induction s with
  | nil => simp [splitCh]
  | cons c cs ih =>
    by_cases h : c = sep
    · intro p hp
      simp [splitCh, h] at hp
      rcases hp with rfl | hp
      · simp
      · exact ih p hp
    · obtain ⟨p, ps, h1, h2⟩ := splitCh_cons_ne h cs
      rw [h2]; rw [h1] at ih
      intro q hq
      simp at hq
      rcases hq with rfl | hq
      · have := ih p (by simp)
        simp [Ne.symm h, this]
      · exact ih q (by simp [hq])

theorem splitCh_length (sep : Char) (s : Str) :
    (splitCh sep s).length = s.count sep + 1 := by
  induction s with
  | nil => rfl
  | cons c cs ih =>
    by_cases h : c = sep
    · simp [splitCh, h, ih]
    · obtain ⟨p, ps, h1, h2⟩ := splitCh_cons_ne h cs
      rw [h2]; rw [h1] at ih
      simp [h] at *
      omega

/-- The pieces of a split determine the string. -/
theorem splitCh_join {sep : Char} : ∀ {ps : List Str}, ps ≠ [] → (∀ p ∈ ps, sep ∉ p) →
    splitCh sep (joinStr [sep] ps) = ps
  | [], h, _ => absurd rfl h
  | [p], _, hp => by simp [joinStr, splitCh_of_not_mem (hp p (by simp))]
  | p :: q :: ps, _, hp => by
    have : p ++ [sep] ++ joinStr [sep] (q :: ps) = p ++ sep :: joinStr [sep] (q :: ps) := by simp
    rw [joinStr, this, splitCh_append_sep, splitCh_of_not_mem (hp p (by simp)),
      splitCh_join (by simp) (fun r hr => hp r (by simp at hr ⊢; exact Or.inr hr))]
    rfl

theorem stripPrefix?_some {pat s rest : Str} : stripPrefix? pat s = some rest ↔ s = pat ++ rest := by
  induction pat generalizing s with
  | nil => simp [stripPrefix?, eq_comm]
  | cons p ps ih =>
    cases s with
    | nil => simp [stripPrefix?]
    | cons c cs =>
      by_cases h : p = c
      · subst h; simp [stripPrefix?, ih]
      · simp [stripPrefix?, h, Ne.symm h]

theorem startsWith_iff {s pat : Str} : startsWith s pat = true ↔ ∃ rest, s = pat ++ rest := by
  unfold startsWith
  rw [Option.isSome_iff_exists]
  simp only [stripPrefix?_some]

theorem containsStr_iff {pat s : Str} : containsStr pat s = true ↔ ∃ a b, s = a ++ pat ++ b := by
  induction s with
  | nil =>
    simp [containsStr, startsWith_iff]
  | cons c cs ih =>
    simp only [containsStr, Bool.or_eq_true, startsWith_iff, ih]
    constructor
    · rintro (⟨r, h⟩ | ⟨a, b, h⟩)
      · exact ⟨[], r, by simpa using h⟩
      · exact ⟨c :: a, b, by simp [h]⟩
    · rintro ⟨a, b, h⟩
      cases a with
      | nil => exact Or.inl ⟨b, by simpa using h⟩
      | cons a0 a => simp at h; exact Or.inr ⟨a, b, by simpa using h.2⟩

end Cheetah
