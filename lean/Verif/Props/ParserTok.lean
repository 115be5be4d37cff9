import Verif.ParserTok
/-
C36 (directive names), C38 (multi-line comments) and C40 (escapes).
-/
namespace Cheetah.Parser

/-! ### C36: directive names are whole words -/

/-- The longest run of directive-name characters (letters, digits, `_`, `-`, `@`) a text
starts with.  Specification of Parser.py 752-778. -/
def firstWord : Str → Str
  | [] => []
  | c :: cs => if c.isAlphanum || c == '_' || c == '-' || c == '@' then c :: firstWord cs else []

/-- The directive that a text starts with, given the names of the directives. Specification of Parser.py 752-778:
the special name `@` if an identifier follows it, else the whole first word, if it is a name. -/
def directiveOf (names : List Str) : Str → Option Str
  | '@' :: c :: _ => if c.isAlpha || c == '_' then some ['@'] else none
  | '@' :: [] => none
  | s => if firstWord s ≠ [] ∧ firstWord s ∈ names then some (firstWord s) else none

theorem firstWord_cons (c : Char) (cs : Str) :
    firstWord (c :: cs) = if dirNameChar c then c :: firstWord cs else [] := by
  simp [firstWord, dirNameChar, identChar]

theorem firstWord_nil_iff (cs : Str) : firstWord cs = [] ↔ headIs dirNameChar cs = false := by
  cases cs with
  | nil => simp [firstWord, headIs]
  | cons c cs =>
    rw [firstWord_cons, headIs]
    by_cases h : dirNameChar c = true <;> simp [h]

theorem nameLoop_spec (names : List Str) : ∀ (s name : Str) (possible : List Str),
    (∀ n, n ∈ possible ↔ n ∈ names ∧ ∃ r, n = name ++ r) → (name = [] → ∀ r, s ≠ '@' :: r) →
    (name ≠ [] → firstWord s ≠ []) →
    nameLoop possible name s = if firstWord s ≠ [] ∧ name ++ firstWord s ∈ names then some (name ++ firstWord s) else none := by
  intro s
  induction s with
  | nil => intro name possible _ _ _; simp [nameLoop, firstWord]
  | cons c cs ih =>
    intro name possible hp hat hne
    rw [nameLoop, firstWord_cons]
    by_cases hc : dirNameChar c = true
    · simp only [hc, Bool.not_true, Bool.false_eq_true, if_false, if_true]
      have hat' : name ++ [c] ≠ ['@'] := by
        intro he
        cases name with
        | nil => simp at he; exact hat rfl cs (by rw [he])
        | cons d ds => simp at he
      rw [if_neg hat']
      have hp' : ∀ n, n ∈ possible.filter (fun dn => startsWith dn (name ++ [c])) ↔
          n ∈ names ∧ ∃ r, n = (name ++ [c]) ++ r := by
        intro n
        rw [List.mem_filter, hp, startsWith_iff]
        constructor
        · rintro ⟨⟨h1, _⟩, h2⟩; exact ⟨h1, h2⟩
        · rintro ⟨h1, r, h2⟩; exact ⟨⟨h1, c :: r, by simp [h2]⟩, r, h2⟩
      by_cases hz : possible.filter (fun dn => startsWith dn (name ++ [c])) = []
      · rw [if_pos hz, if_neg]
        rintro ⟨_, hm⟩
        have := (hp' (name ++ c :: firstWord cs)).2 ⟨hm, firstWord cs, by simp⟩
        rw [hz] at this; simp at this
      · rw [if_neg hz]
        by_cases hw : firstWord cs = []
        · rw [hw]
          have hh := (firstWord_nil_iff cs).1 hw
          by_cases hm : (name ++ [c]) ∈ names
          · rw [if_pos, if_pos]
            · simp [hm]
            · simp only [Bool.and_eq_true, List.contains_iff_mem, hh, Bool.not_false, and_true]
              exact (hp' _).2 ⟨hm, [], by simp⟩
          · rw [if_neg, if_neg]
            · rcases cs with _ | ⟨d, ds⟩
              · simp [nameLoop]
              · simp only [headIs] at hh
                simp [nameLoop, hh]
            · simp [hm]
            · simp only [Bool.and_eq_true, List.contains_iff_mem, hh, Bool.not_false, and_true]
              intro h
              exact hm ((hp' _).1 h).1
        · have hh : headIs dirNameChar cs = true := by
            cases h : headIs dirNameChar cs with
            | true => rfl
            | false => exact absurd ((firstWord_nil_iff cs).2 h) hw
          rw [if_neg (by simp [hh]), ih (name ++ [c]) _ hp' (by simp) (fun _ => hw)]
          simp [hw]
    · have hc' : dirNameChar c = false := by simpa using hc
      simp [hc']

/-- **C36.** The directive recognised at a position is the whole word there, if that word is
the name of a directive (or the special name `@`): for every source, every position before the
break point and every table of directive names. -/
theorem C36_directive_is_whole_word (x : Cx) (p : Nat) :
    x.matchDirName p = directiveOf x.cfg.names ((x.src.take x.bp).drop p) := by
  unfold Cx.matchDirName
  generalize (x.src.take x.bp).drop p = s
  cases s with
  | nil => simp [nameLoop, directiveOf, firstWord]
  | cons c cs =>
    by_cases hc : c = '@'
    · subst hc
      have h1 : dirNameChar '@' = true := by decide
      rcases cs with _ | ⟨d, ds⟩
      · simp [nameLoop, h1, headIs, directiveOf]
      · simp [nameLoop, h1, headIs, directiveOf, identStart]
    · rw [nameLoop_spec x.cfg.names (c :: cs) [] x.cfg.names (by simp) (by simp [hc]) (by simp)]
      unfold directiveOf
      split <;> simp_all

/-- A name that merely starts with a directive's name is not taken for it. -/
theorem C36_longer_word_is_not_directive (names : List Str) (w : Str) (c : Char) (r : Str)
    (hw : ∀ d ∈ w, d.isAlphanum = true ∨ d = '_' ∨ d = '-') (hne : w ≠ [])
    (hc : c.isAlphanum = true ∨ c = '_' ∨ c = '-' ∨ c = '@') :
    directiveOf names (w ++ c :: r) ≠ some w := by
  have hfw : ∀ (w : Str), (∀ d ∈ w, d.isAlphanum = true ∨ d = '_' ∨ d = '-') →
      firstWord (w ++ c :: r) = w ++ c :: firstWord r := by
    intro w
    induction w with
    | nil => intro _; rcases hc with h | h | h | h <;> simp [firstWord, h]
    | cons d ds ih =>
      intro h
      have h1 := ih fun e he => h e (by simp [he])
      rcases h d (by simp) with hd | hd | hd <;> simp [firstWord, hd, h1]
  have hne' : ∀ rest, w ++ c :: r ≠ '@' :: rest := by
    intro rest he
    rcases w with _ | ⟨d, ds⟩
    · exact hne rfl
    · simp at he
      have := hw d (by simp)
      rw [he.1] at this
      revert this; decide
  intro h
  unfold directiveOf at h
  split at h
  · rename_i heq; exact hne' _ heq
  · rename_i heq; exact hne' _ heq
  · split at h
    · rw [hfw w hw] at h
      simp at h
    · exact absurd h (by simp)

example : (⟨Cfg.std, c!"#iffy", 6⟩ : Cx).matchDirective 0 = .ok none ∧
    (⟨Cfg.std, c!"#if $x", 6⟩ : Cx).matchDirective 0 = .ok (some c!"if") ∧
    (⟨Cfg.std, c!"#compiler-settings", 18⟩ : Cx).matchDirective 0 = .ok (some c!"compiler-settings") ∧
    (⟨Cfg.std, c!"#@x", 3⟩ : Cx).matchDirective 0 = .ok (some c!"@") ∧
    (⟨Cfg.std, c!"#set-up", 7⟩ : Cx).matchDirective 0 = .ok none := by decide +kernel

/-! ### C40: escapes -/

/-- Removing the backslash before `v` and `d`, in one pass from left to right.
Specification of Parser.py 556-568. -/
def unescapeOnce (v d : Char) : Str → Str
  | [] => []
  | c :: r =>
    if c = '\\' ∧ (r.head? = some v ∨ r.head? = some d) then unescapeOnce v d r else c :: unescapeOnce v d r

theorem replace_esc (v : Char) (hv : v ≠ '\\') : ∀ s : Str,
    replaceStr ['\\', v] [v] s = unescapeOnce v v s
  | [] => rfl
  | c :: cs => by
    by_cases hc : c = '\\'
    · subst hc
      rcases cs with _ | ⟨d, ds⟩
      · rw [replaceStr_miss (by simp [stripPrefix?])]; simp [replaceStr, replaceStrAux, unescapeOnce]
      · by_cases hd : d = v
        · subst hd
          have : ('\\' :: d :: ds) = ['\\', d] ++ ds := rfl
          rw [this, replaceStr_hit (by simp), replace_esc d hv ds]
          simp [unescapeOnce, hv]
        · rw [replaceStr_miss (by simp [stripPrefix?, Ne.symm hd]), replace_esc v hv (d :: ds)]
          conv => rhs; rw [unescapeOnce]
          simp [hd]
    · rw [replaceStr_miss (stripPrefix?_head (Ne.symm hc)), replace_esc v hv cs]
      conv => rhs; rw [unescapeOnce]
      simp [hc]

theorem head_unescape {v d : Char} (hv : v ≠ '\\') : ∀ (s : Str), v ≠ d →
    ((unescapeOnce v v s).head? = some d ↔ s.head? = some d) ∨ d = '\\'
  | [], _ => by simp [unescapeOnce]
  | c :: cs, hvd => by
    rw [unescapeOnce]
    by_cases h : c = '\\' ∧ (cs.head? = some v ∨ cs.head? = some v)
    · rw [if_pos h]
      obtain ⟨rfl, h2⟩ := h
      simp only [or_self] at h2
      rcases cs with _ | ⟨e, es⟩
      · simp at h2
      · simp at h2; subst h2
        have hne : ¬(e = '\\' ∧ (es.head? = some e ∨ es.head? = some e)) := by simp [hv]
        rw [unescapeOnce, if_neg hne]
        by_cases hd : d = '\\'
        · exact Or.inr hd
        · left
          simp only [List.head?_cons, Option.some.injEq]
          exact ⟨fun h => absurd h hvd, fun h => absurd h.symm hd⟩
    · rw [if_neg h]; simp

theorem unescape_two {v d : Char} (hv : v ≠ '\\') (hd : d ≠ '\\') (hvd : v ≠ d) : ∀ s : Str,
    unescapeOnce d d (unescapeOnce v v s) = unescapeOnce v d s
  | [] => rfl
  | c :: cs => by
    have ih := unescape_two hv hd hvd cs
    have hh : (unescapeOnce v v cs).head? = some d ↔ cs.head? = some d := by
      rcases head_unescape (d := d) hv cs hvd with h | h
      · exact h
      · exact absurd h hd
    by_cases hc : c = '\\'
    · subst hc
      by_cases h1 : cs.head? = some v
      · rw [unescapeOnce, if_pos ⟨rfl, Or.inl h1⟩, ih]
        conv => rhs; rw [unescapeOnce]
        rw [if_pos ⟨rfl, Or.inl h1⟩]
      · rw [unescapeOnce, if_neg (by simp [h1])]
        by_cases h2 : cs.head? = some d
        · rw [unescapeOnce, if_pos ⟨rfl, Or.inl (hh.2 h2)⟩, ih]
          conv => rhs; rw [unescapeOnce]
          rw [if_pos ⟨rfl, Or.inr h2⟩]
        · rw [unescapeOnce, if_neg (by simp [hh, h2]), ih]
          conv => rhs; rw [unescapeOnce]
          rw [if_neg (by simp [h1, h2])]
    · rw [unescapeOnce, if_neg (by simp [hc]), unescapeOnce, if_neg (by simp [hc]), ih]
      conv => rhs; rw [unescapeOnce]
      rw [if_neg (by simp [hc])]

/-- **C40 (text handed to the compiler).** With one-character, different placeholder and directive tokens, plain
text loses exactly the backslashes directly before a token, in one pass.  Missing for the full claim: the
escape does not work for a `#` at the end of a line (`C40_end_of_line_counterexample`), and
with equal tokens it is applied twice (`C40_same_token_counterexample`). -/
theorem C40_unescape_partial (g : Cfg) (v d : Char) (hv : g.var = [v]) (hd : g.dir = [d])
    (hv' : v ≠ '\\') (hd' : d ≠ '\\') (hvd : v ≠ d) (s : Str) :
    unescape g s = unescapeOnce v d s := by
  rw [unescape, hv, hd, replace_esc v hv', replace_esc d hd', unescape_two hv' hd' hvd]

example : unescape Cfg.std c!"a \\$b \\#if \\\\$ \\n" = c!"a $b #if \\$ \\n" := by decide +kernel

/-- **C40 (the escaped token is not a tag).** After a backslash no comment, placeholder, directive or PSP tag
starts; only the token that joins lines can. -/
theorem C40_escaped_is_no_tag_partial (x : Cx) (p : Nat) (h : x.src[p]? = some '\\') (t : Tag)
    (ht : x.tagAt (p + 1) = .ok (some t)) : t = .slurp := by
  have hu : x.unescaped (p + 1) = false := by simp [Cx.unescaped, h]
  simp [Cx.tagAt, Cx.matchTok, hu, Cx.matchVarStart, Cx.matchExprStart, Cx.matchDirective, Cx.matchDirStart,
    bind, Except.bind] at ht
  split at ht <;> simp at ht
  exact ht.symm

example : (⟨Cfg.std, c!"\\$x", 3⟩ : Cx).src[0]? = some '\\' ∧
    (⟨Cfg.std, c!"\\#\n", 3⟩ : Cx).tagAt 1 = .ok (some .slurp) := by decide +kernel

/-- A text that holds no escape but ends a line with `\#`: the `#` and the line end are swallowed and the backslash
is kept, although `\#` should give `#`. -/
theorem C40_end_of_line_counterexample :
    (⟨Cfg.std, c!"a\\#\nb", 5⟩ : Cx).eatPlainText 0 = .ok (c!"a\\", 2) ∧
    (⟨Cfg.std, c!"a\\#\nb", 5⟩ : Cx).tagAt 2 = .ok (some .slurp) := by decide +kernel

/-- With the same token for placeholders and directives a backslash too many is removed. -/
theorem C40_same_token_counterexample :
    unescape { Cfg.std with var := c!"@", dir := c!"@" } c!"\\\\@" = c!"@" ∧
    unescapeOnce '@' '@' c!"\\\\@" = c!"\\@" := by decide +kernel

/-! ### C38: multi-line comments -/

theorem drop_length_append {α : Type} (a b : List α) (n : Nat) (h : n = a.length) : (a ++ b).drop n = b := by
  subst h; simp

theorem matchTok_at (x : Cx) (t a b : Str) (h : x.src = a ++ t ++ b) (ha : a.getLast? ≠ some '\\') :
    x.matchTok t a.length = some (a.length + t.length) := by
  have h1 : x.unescaped a.length = true := by
    unfold Cx.unescaped
    rcases a.eq_nil_or_concat with rfl | ⟨a', c, rfl⟩
    · simp
    · simp at ha
      simp [h, ha]
  have h2 : x.rest a.length = t ++ b := by rw [Cx.rest, h, List.append_assoc, drop_length_append _ _ _ rfl]
  rw [Cx.matchTok, h1, h2, Bool.true_and, if_pos (startsWith_iff.2 ⟨b, rfl⟩)]

theorem matchTok_miss (x : Cx) (t a b : Str) (h : x.src = a ++ b) (hb : ∀ r, b ≠ t ++ r) :
    x.matchTok t a.length = none := by
  have h2 : x.rest a.length = b := by rw [Cx.rest, h, drop_length_append _ _ _ rfl]
  rw [Cx.matchTok, h2, if_neg]
  intro hc
  simp only [Bool.and_eq_true] at hc
  obtain ⟨r, hr⟩ := startsWith_iff.1 hc.2
  exact hb r hr

/-- Text of a comment in which every nested comment token is followed by a character that is
not part of a token. Specification for C38. -/
inductive Spaced : Str → Prop
  | nil : Spaced []
  | char (c : Char) (b : Str) (hc : c ≠ '#' ∧ c ≠ '*' ∧ c ≠ '\\') : Spaced b → Spaced (c :: b)
  | nest (c d : Char) (a b : Str) (hc : c ≠ '#' ∧ c ≠ '*' ∧ c ≠ '\\') (hd : d ≠ '#' ∧ d ≠ '*' ∧ d ≠ '\\') :
      Spaced a → Spaced b → Spaced ('#' :: '*' :: c :: (a ++ '*' :: '#' :: d :: b))

theorem Spaced.last {s : Str} (h : Spaced s) : s.getLast? ≠ some '\\' := by
  induction h with
  | nil => simp
  | char c b hc _ ih =>
    cases b with
    | nil => simp [hc.2.2]
    | cons e es => simpa [List.getLast?_cons_cons] using ih
  | nest c d a b hc hd _ _ _ ihb =>
    have : ('#' :: '*' :: c :: (a ++ '*' :: '#' :: d :: b)) = ('#' :: '*' :: c :: (a ++ ['*', '#'])) ++ (d :: b) := by simp
    rw [this, List.getLast?_append]
    cases b with
    | nil => simp [hd.2.2]
    | cons e es =>
      rw [List.getLast?_cons_cons]
      cases hl : (e :: es).getLast? with
      | none => simp at hl
      | some y => simpa [hl] using ihb

theorem last_append_of {a s : Str} (ha : a.getLast? ≠ some '\\') (hs : s.getLast? ≠ some '\\') :
    (a ++ s).getLast? ≠ some '\\' := by
  rw [List.getLast?_append]
  cases h : s.getLast? with
  | none => simpa using ha
  | some y => rw [h] at hs; simpa using hs

/-- The scanner passes over spaced text without changing the level. -/
theorem mlScan_spaced (x : Cx) (hS : x.cfg.mlStart = c!"#*") (hE : x.cfg.mlEnd = c!"*#") {s : Str} (hs : Spaced s) :
    ∀ (a b : Str) (level : Nat), x.src = a ++ s ++ b → a.getLast? ≠ some '\\' → 1 ≤ level →
    (a ++ s).length ≤ x.bp → ∃ k, k ≤ s.length ∧ ∀ n,
      x.mlScan (n + k) level a.length = x.mlScan n level (a.length + s.length) := by
  induction hs with
  | nil => intro a b level _ _ _ _; exact ⟨0, by simp⟩
  | char c s hc hs ih =>
    intro a b level hsrc ha hl hbp
    obtain ⟨k, hk, hscan⟩ := ih (a ++ [c]) b level (by simp [hsrc]) (last_append_of ha (by simp [hc.2.2])) hl
      (by simpa using hbp)
    refine ⟨k + 1, by simp; omega, fun n => ?_⟩
    rw [show n + (k + 1) = (n + k) + 1 from rfl, Cx.mlScan, if_neg (by simp at hbp; omega)]
    rw [hS, hE, matchTok_miss x _ a (c :: (s ++ b)) (by simp [hsrc]) (by intro r; simp [hc.1]),
      matchTok_miss x _ a (c :: (s ++ b)) (by simp [hsrc]) (by intro r; simp [hc.2.1])]
    simp only
    simp only [List.length_append, List.length_singleton] at hscan
    rw [hscan]; congr 1; simp; omega
  | nest c d s t hc hd hs ht ihs iht =>
    intro a b level hsrc ha hl hbp
    simp only [List.length_append, List.length_cons] at hbp
    -- positions
    have e1 : x.src = a ++ c!"#*" ++ (c :: (s ++ '*' :: '#' :: d :: (t ++ b))) := by simp [hsrc]
    have e2 : x.src = (a ++ c!"#*" ++ [c]) ++ s ++ ('*' :: '#' :: d :: (t ++ b)) := by simp [hsrc]
    have e3 : x.src = (a ++ c!"#*" ++ [c] ++ s) ++ c!"*#" ++ (d :: (t ++ b)) := by simp [hsrc]
    have e4 : x.src = (a ++ c!"#*" ++ [c] ++ s ++ c!"*#" ++ [d]) ++ t ++ b := by simp [hsrc]
    have l2 : (a ++ c!"#*" ++ [c]).getLast? ≠ some '\\' := last_append_of (last_append_of ha (by simp)) (by simp [hc.2.2])
    have l3 := last_append_of l2 hs.last
    have l4 : (a ++ c!"#*" ++ [c] ++ s ++ c!"*#" ++ [d]).getLast? ≠ some '\\' :=
      last_append_of (last_append_of l3 (by simp)) (by simp [hd.2.2])
    obtain ⟨k2, hk2, h2⟩ := iht _ b level e4 l4 hl (by simp; omega)
    obtain ⟨k1, hk1, h1⟩ := ihs _ _ (level + 1) e2 l2 (by omega) (by simp; omega)
    refine ⟨k1 + k2 + 2, by simp; omega, fun n => ?_⟩
    rw [show n + (k1 + k2 + 2) = (n + k2 + 1 + k1) + 1 by omega, Cx.mlScan, if_neg (by omega), hS,
      matchTok_at x _ a _ e1 ha]
    simp only [Cx.goto, List.length_cons, List.length_nil, Nat.zero_add, bind, Except.bind]
    rw [if_pos (by omega)]
    simp only
    rw [if_pos (by omega)]
    simp only
    simp only [List.length_append, List.length_cons, List.length_nil, Nat.zero_add] at h1 h2
    rw [show a.length + (1 + 1) + 1 = a.length + 2 + 1 from rfl] at *
    rw [h1, Cx.mlScan, if_neg (by omega), hS, hE]
    have m1 := matchTok_miss x c!"#*" (a ++ c!"#*" ++ [c] ++ s) ('*' :: '#' :: d :: (t ++ b)) (by simp [hsrc]) (by intro r; simp)
    have m2 := matchTok_at x c!"*#" (a ++ c!"#*" ++ [c] ++ s) _ e3 l3
    simp only [List.length_append, List.length_cons, List.length_nil, Nat.zero_add] at m1 m2
    rw [m1, m2]
    simp only [Cx.goto]
    rw [if_pos (by omega)]
    simp only [bind, Except.bind]
    rw [if_neg (by omega), if_pos (by omega)]
    simp only
    rw [show level + 1 - 1 = level by omega, show a.length + 2 + 1 + s.length + (1 + 1) + 1 = a.length + (1 + 1) + 1 + s.length + (1 + 1) + 1 from rfl, h2]
    congr 1
    simp; omega

/-- **C38 (partial).** A comment whose nested comment tokens are each followed by a character that belongs to
no token ends exactly at the token that balances its start: the comment handed on is
its text, and reading goes on after its end token.  (Stated without the gobbling of white space around
comments; `C38_nested_counterexample` shows why the restriction on the nested tokens is needed, and
`C38_unclosed_counterexample` that an unclosed comment is accepted.) -/
theorem C38_comment_ends_where_balanced_partial (x : Cx) (hS : x.cfg.mlStart = c!"#*") (hE : x.cfg.mlEnd = c!"*#")
    (hg : x.cfg.gobbleMl = false) (before body after : Str) (hb : Spaced body)
    (hsrc : x.src = before ++ c!"#*" ++ body ++ c!"*#" ++ after) (hlast : before.getLast? ≠ some '\\')
    (hbp : (before ++ c!"#*" ++ body ++ c!"*#").length ≤ x.bp) :
    x.eatMlComment before.length = .ok ([.comment body], (before ++ c!"#*" ++ body ++ c!"*#").length) := by
  simp only [List.length_append, List.length_cons, List.length_nil, Nat.zero_add] at hbp
  have e1 : x.src = before ++ c!"#*" ++ (body ++ c!"*#" ++ after) := by simp [hsrc]
  have l2 : (before ++ c!"#*").getLast? ≠ some '\\' := last_append_of hlast (by simp)
  have l3 := last_append_of l2 hb.last
  obtain ⟨k, hk, h1⟩ := mlScan_spaced x hS hE hb (before ++ c!"#*") (c!"*#" ++ after) 1
    (by simp [hsrc]) l2 (by omega) (by simp; omega)
  have m1 := matchTok_miss x c!"#*" (before ++ c!"#*" ++ body) (c!"*#" ++ after) (by simp [hsrc]) (by intro r; simp)
  have m2 := matchTok_at x c!"*#" (before ++ c!"#*" ++ body) after hsrc l3
  simp only [List.length_append, List.length_cons, List.length_nil, Nat.zero_add] at h1 m1 m2
  have hsl : x.slice (before.length + (1 + 1)) (before.length + (1 + 1) + body.length) = body := by
    rw [Cx.slice, hsrc]
    have : before ++ c!"#*" ++ body ++ c!"*#" ++ after = (before ++ c!"#*" ++ body) ++ (c!"*#" ++ after) := by simp
    rw [this, List.take_append_of_le_length (by simp; omega), List.take_of_length_le (by simp; omega)]
    exact drop_length_append _ _ _ (by simp)
  unfold Cx.eatMlComment
  rw [hS, matchTok_at x _ before _ e1 hlast]
  simp only [Cx.goto, List.length_cons, List.length_nil, Nat.zero_add, bind, Except.bind]
  rw [if_pos (by omega)]
  simp only
  rw [show x.bp + 1 - (before.length + (1 + 1)) = x.bp - (before.length + 2) - k + 1 + k by omega, h1]
  rw [Cx.mlScan, if_neg (by omega), hS, hE, m1, m2]
  simp only [Cx.goto, bind, Except.bind]
  rw [if_pos (by omega)]
  simp only [Nat.sub_self, if_true]
  rw [if_pos (by omega), hsl]
  rw [m2]
  simp only
  rw [if_pos (by omega)]
  simp only [Cx.afterMl, hg, Bool.and_false, Bool.false_eq_true, if_false]
  simp
  omega

example : Spaced c!" a #* b *# c " :=
  .char ' ' _ (by decide) (.char 'a' _ (by decide) (.char ' ' _ (by decide) (.nest ' ' ' ' c!"b " c!"c " (by decide) (by decide)
    (.char 'b' _ (by decide) (.char ' ' _ (by decide) .nil)) (.char 'c' _ (by decide) (.char ' ' _ (by decide) .nil)))))

example : (⟨{ Cfg.std with gobbleMl := false }, c!"x#* a #* b *# c *#y", 20⟩ : Cx).eatMlComment 1 =
    .ok ([.comment c!" a #* b *# c "], 18) := by decide +kernel

/-- An empty nested comment: `#* #**# *#text`. The comment should end before `text`; instead everything up to
the end of the source is taken for a comment, because one character after the nested start
token is skipped. -/
theorem C38_nested_counterexample :
    (⟨Cfg.std, c!"#* #**# *#text", 14⟩ : Cx).eatMlComment 0 = .ok ([.comment c!" #**# *#text"], 14) ∧
    (⟨Cfg.std, c!"#* #* *#*#text", 14⟩ : Cx).eatMlComment 0 = .ok ([.comment c!" #* *#*#text"], 14) := by
  decide +kernel

/-- A comment that is never closed is accepted, and swallows the rest of the source. -/
theorem C38_unclosed_counterexample :
    (⟨Cfg.std, c!"a #* b", 6⟩ : Cx).eatMlComment 2 = .ok ([.comment c!" b"], 6) := by decide +kernel

/-- A nested start token at the very end is an error of the reader, not a ParseError. -/
theorem C38_reader_error_counterexample :
    (⟨Cfg.std, c!"#* #*", 5⟩ : Cx).eatMlComment 0 = .error .reader := by decide +kernel

end Cheetah.Parser
