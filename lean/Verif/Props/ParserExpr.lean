import Verif.ParserExpr
import Verif.Props.ParserTok
/-
C37: brackets in expressions, call arguments and placeholders are matched.
C39 (part): reading an expression terminates.
-/
namespace Cheetah.Parser

/-! ### Specification -/

/-- An opening or closing bracket. -/
def Bracket (c : Char) : Prop := c ∈ ['(', ')', '[', ']', '{', '}']

instance (c : Char) : Decidable (Bracket c) := by unfold Bracket; infer_instance

/-- Opening bracket and the bracket that closes it. -/
inductive Pair : Char → Char → Prop
  | round : Pair '(' ')'
  | square : Pair '[' ']'
  | curly : Pair '{' '}'

/-- Text with correctly matched brackets. Brackets inside one token of Python (a string or a comment) do
not count. -/
inductive Matched (tok : Str → Option Nat) : Str → Prop
  | nil : Matched tok []
  | char (c : Char) (s : Str) : ¬ Bracket c → Matched tok s → Matched tok (c :: s)
  | token (t r s : Str) : tok (t ++ r) = some t.length → (∀ c, t.head? = some c → ¬ Bracket c) →
      Matched tok s → Matched tok (t ++ s)
  | bracket (o c : Char) (a s : Str) : Pair o c → Matched tok a → Matched tok s → Matched tok (o :: a ++ c :: s)

/-- What is assumed of the tokenizer and of the settings: a token is not empty, is a prefix of the text,
and a bracket is a token by itself; the placeholder token is not empty and has no brackets in it; the
break point is inside the text. -/
structure Good (x : Px) : Prop where
  bp : x.bp ≤ x.src.length
  tok : ∀ s n, s ≠ [] → x.tok s = some n → 0 < n ∧ n ≤ s.length ∧ (∀ c, s.head? = some c → Bracket c → n = 1)
  var_ne : x.cfg.var ≠ []
  var : ∀ c ∈ x.cfg.var, ¬ Bracket c

/-! ### Lemmas -/

theorem Matched.append {tok : Str → Option Nat} {a b : Str} (ha : Matched tok a) (hb : Matched tok b) : Matched tok (a ++ b) := by
  induction ha with
  | nil => exact hb
  | char c s h _ ih => exact .char c _ h ih
  | token t r s h1 h2 _ ih => rw [List.append_assoc]; exact .token t r _ h1 h2 ih
  | bracket o c a s h1 h2 _ _ ih => 
    have : o :: a ++ c :: s ++ b = o :: a ++ c :: (s ++ b) := by simp
    rw [this]; exact .bracket o c a _ h1 h2 ih

theorem Matched.chars {tok : Str → Option Nat} {a : Str} (h : ∀ c ∈ a, ¬ Bracket c) : Matched tok a := by
  induction a with
  | nil => exact .nil
  | cons c s ih => exact .char c s (h c (by simp)) (ih fun d hd => h d (by simp [hd]))

/-- Bracketed texts one after another, nothing between them. -/
inductive Groups (tok : Str → Option Nat) : Str → Prop
  | nil : Groups tok []
  | cons (o c : Char) (a s : Str) : Pair o c → Matched tok a → Groups tok s → Groups tok (o :: a ++ c :: s)

theorem Groups.matched {tok : Str → Option Nat} {s : Str} (h : Groups tok s) : Matched tok s := by
  induction h with
  | nil => exact .nil
  | cons o c a s h1 h2 _ ih => exact .bracket o c a s h1 h2 ih

theorem Groups.head {tok : Str → Option Nat} {s : Str} (h : Groups tok s) : ∀ c, s.head? = some c → isOpen c = true := by
  cases h with
  | nil => simp
  | cons o c a s h1 h2 _ => cases h1 <;> simp <;> decide

/-- The text closes these brackets, in this order, and is matched otherwise; after the last of them come
only bracketed texts if `en`. -/
def Closing (tok : Str → Option Nat) (en : Bool) : List Char → Str → Prop
  | [], s => if en then Groups tok s else Matched tok s
  | o :: os, s => ∃ a b c, s = a ++ c :: b ∧ Pair o c ∧ Matched tok a ∧ Closing tok en os b

theorem Closing.base {tok : Str → Option Nat} {en : Bool} {s : Str} (h : Closing tok en [] s) : Matched tok s := by
  unfold Closing at h
  split at h
  · exact h.matched
  · exact h

theorem Closing.nil (tok : Str → Option Nat) (en : Bool) : Closing tok en [] [] := by
  unfold Closing
  split
  · exact .nil
  · exact .nil

theorem Closing.prepend {tok : Str → Option Nat} {en : Bool} {os : List Char} {a s : Str} (hne : ¬ (en = true ∧ os = []))
    (ha : Matched tok a) (h : Closing tok en os s) : Closing tok en os (a ++ s) := by
  cases os with
  | nil =>
    have : en = false := by cases en <;> simp_all
    subst this
    exact ha.append h
  | cons o os =>
    obtain ⟨b, c, d, rfl, hp, hb, hc⟩ := h
    exact ⟨a ++ b, c, d, by simp, hp, ha.append hb, hc⟩

theorem Closing.opened {tok : Str → Option Nat} {en : Bool} {os : List Char} {o : Char} {s : Str} (h : Closing tok en (o :: os) s) :
    Closing tok en os (o :: s) := by
  obtain ⟨a, b, c, rfl, hp, ha, hb⟩ := h
  have e : o :: (a ++ c :: b) = (o :: a ++ c :: []) ++ b := by simp
  by_cases hne : en = true ∧ os = []
  · obtain ⟨rfl, rfl⟩ := hne
    exact .cons o c a b hp ha hb
  · rw [e]
    exact hb.prepend hne (.bracket o c a [] hp ha .nil)

theorem pair_closeOf {o : Char} (h : isOpen o = true) : Pair o (closeOf o) := by
  simp [isOpen] at h
  rcases h with (rfl | rfl) | rfl <;> constructor

theorem bracket_iff (c : Char) : Bracket c ↔ isOpen c = true ∨ isClose c = true := by
  simp [Bracket, isOpen, isClose]; grind

theorem Cx.peek_some {x : Cx} {p : Nat} {c : Char} (h : x.peek p = some c) : p < x.bp ∧ x.src[p]? = some c := by
  unfold Cx.peek at h
  split at h
  · exact ⟨by assumption, h⟩
  · cases h

theorem Cx.peek_none {x : Cx} {p : Nat} (hb : x.bp ≤ x.src.length) (h : x.peek p = none) : x.bp ≤ p := by
  unfold Cx.peek at h
  split at h
  · rw [List.getElem?_eq_none_iff] at h; omega
  · omega

theorem Cx.slice_self (x : Cx) (p : Nat) : x.slice p p = [] := by simp [Cx.slice]

theorem Cx.slice_one {x : Cx} {p : Nat} {c : Char} (h : x.src[p]? = some c) : x.slice p (p + 1) = [c] := by
  unfold Cx.slice
  rw [List.getElem?_eq_some_iff] at h
  obtain ⟨hl, rfl⟩ := h
  rw [List.drop_take, show p + 1 - p = 1 by omega, List.drop_eq_getElem_cons hl]
  rfl

theorem Cx.slice_append (x : Cx) {p q r : Nat} (h1 : p ≤ q) (h2 : q ≤ r) : x.slice p r = x.slice p q ++ x.slice q r := by
  unfold Cx.slice
  have h : x.src.take r = x.src.take q ++ (x.src.take r).drop q := by
    conv_lhs => rw [← List.take_append_drop q (x.src.take r), List.take_take, Nat.min_eq_left h2]
  by_cases hq : q ≤ x.src.length
  · rw [h, List.drop_append, List.drop_append]
    simp [Nat.min_eq_left hq, Nat.sub_eq_zero_of_le h1]
  · rw [List.take_of_length_le (by omega : x.src.length ≤ r), List.take_of_length_le (by omega : x.src.length ≤ q),
      List.drop_of_length_le (by omega : x.src.length ≤ q)]
    simp

theorem Cx.slice_prefix (x : Cx) (p n : Nat) : x.slice p (p + n) = (x.rest p).take n := by
  unfold Cx.slice Cx.rest
  rw [List.drop_take]; congr 1; omega

theorem Cx.ws_slice (x : Cx) (p : Nat) : x.slice p (p + (x.ws p).length) = x.ws p := by
  rw [Cx.slice_prefix]
  unfold Cx.ws Cx.slice Cx.rest
  rw [List.drop_take]
  generalize x.src.drop p = s
  have h : ∀ (n : Nat) (s : Str), s.take ((s.take n).takeWhile isWs).length = (s.take n).takeWhile isWs := by
    intro n
    induction n with
    | zero => intro s; simp
    | succ n ih =>
      intro s
      cases s with
      | nil => simp
      | cons c s =>
        simp only [List.take_succ_cons, List.takeWhile_cons]
        by_cases hc : isWs c
        · simp [hc, ih s]
        · simp [hc]
  exact h _ _

theorem Cx.ws_le {x : Cx} {p : Nat} (hp : p ≤ x.bp) : p + (x.ws p).length ≤ x.bp := by
  unfold Cx.ws Cx.slice
  have := (List.takeWhile_prefix (p := isWs) (l := (x.src.take x.bp).drop p)).length_le
  simp at this
  omega

theorem Cx.ws_pos {x : Cx} {p : Nat} {c : Char} (h : x.peek p = some c) (hc : isWs c = true) : 0 < (x.ws p).length := by
  obtain ⟨h1, h2⟩ := Cx.peek_some h
  unfold Cx.ws
  rw [Cx.slice_append x (Nat.le_succ p) h1, Cx.slice_one h2]
  simp [hc]

theorem isWs_not_bracket {c : Char} (h : isWs c = true) : ¬ Bracket c := by
  simp [isWs] at h
  rcases h with (rfl | rfl) | rfl <;> decide

theorem identChar_not_bracket {c : Char} (h : identChar c = true) : ¬ Bracket c := by
  intro hb
  simp [Bracket] at hb
  rcases hb with rfl | rfl | rfl | rfl | rfl | rfl <;> revert h <;> decide

theorem identStart_identChar {c : Char} (h : identStart c = true) : identChar c = true := by
  simp [identStart, identChar, Char.isAlphanum] at h ⊢
  rcases h with h | h <;> simp [h]

theorem Cx.ws_matched (x : Cx) (tok : Str → Option Nat) (p : Nat) : Matched tok (x.slice p (p + (x.ws p).length)) := by
  rw [Cx.ws_slice]
  refine Matched.chars fun c hc => isWs_not_bracket ?_
  unfold Cx.ws at hc
  have := List.all_takeWhile (p := isWs) (l := x.slice p x.bp)
  rw [List.all_eq_true] at this
  exact this c hc

/-- The facts about a reported bracket. -/
def ErrOk (x : Px) : Err → Prop
  | .parse q (.eof o) => x.src[q]? = some o ∧ isOpen o = true ∧ q < x.bp ∧ Matched x.tok (x.slice (q + 1) x.bp)
  | .parse q (.mismatch c r o) => x.src[q]? = some o ∧ isOpen o = true ∧ q < r ∧ r < x.bp ∧ x.src[r]? = some c ∧ isClose c = true ∧
      ¬ Pair o c ∧ Matched x.tok (x.slice (q + 1) r)
  | _ => True

/-- A result satisfies `good`; an error is truthful, and fuel runs out only below the bound. -/
def Res {α : Type} (x : Px) (good : α → Prop) (B n : Nat) : Except Err α → Prop
  | .ok a => good a
  | .error e => ErrOk x e ∧ (e = .fuel → n < B)

theorem Res.bind {α β : Type} {x : Px} {good : α → Prop} {good' : β → Prop} {B n B' n' : Nat} {r : Except Err α} {f : α → Except Err β}
    (h : Res x good B n r) (hn : n < B → n' < B') (hf : ∀ a, good a → Res x good' B' n' (f a)) :
    Res x good' B' n' (r >>= f) := by
  cases r with
  | ok a => exact hf a h
  | error e => exact ⟨h.1, fun he => hn (h.2 he)⟩

theorem Res.mono {α : Type} {x : Px} {good good' : α → Prop} {B n B' n' : Nat} {r : Except Err α}
    (h : Res x good B n r) (hn : n < B → n' < B') (hf : ∀ a, good a → good' a) : Res x good' B' n' r := by
  cases r with
  | ok a => exact hf a h
  | error e => exact ⟨h.1, fun he => hn (h.2 he)⟩

/-- The open brackets, innermost first, up to a position. -/
def EncOk (x : Px) : List (Char × Nat) → Nat → Prop
  | [], _ => True
  | (o, q) :: e, p => q < p ∧ x.src[q]? = some o ∧ isOpen o = true ∧ Matched x.tok (x.slice (q + 1) p) ∧ EncOk x e q

theorem EncOk.advance {x : Px} {e : List (Char × Nat)} {p q : Nat} (h : EncOk x e p) (hpq : p ≤ q)
    (hm : Matched x.tok (x.slice p q)) : EncOk x e q := by
  cases e with
  | nil => trivial
  | cons a e =>
    obtain ⟨h1, h2, h3, h4, h5⟩ := h
    refine ⟨by omega, h2, h3, ?_, h5⟩
    rw [Cx.slice_append x.toCx (by omega : a.2 + 1 ≤ p) hpq]
    exact h4.append hm

theorem Px.goto_res {x : Px} (p : Nat) : Res x (fun q => q = p ∧ p ≤ x.bp) 0 0 (x.goto p) := by
  unfold Cx.goto
  split
  · exact ⟨rfl, by assumption⟩
  · exact ⟨trivial, by simp⟩

theorem Px.pyTok_res {x : Px} (hg : Good x) {p : Nat} {c : Char} (hc : x.peek p = some c) :
    Res x (fun (t, q) => p < q ∧ q ≤ x.bp ∧ t = x.slice p q ∧ (Bracket c → q = p + 1) ∧ (¬ Bracket c → Matched x.tok (x.slice p q)))
      0 0 (x.pyTok p) := by
  obtain ⟨h1, h2⟩ := Cx.peek_some hc
  unfold Px.pyTok
  cases ht : x.tok (x.rest p) with
  | none => exact ⟨trivial, by simp⟩
  | some n =>
    simp only
    have hd : x.rest p = c :: x.src.drop (p + 1) := by
      unfold Cx.rest
      rw [List.getElem?_eq_some_iff] at h2
      obtain ⟨hl, rfl⟩ := h2
      exact List.drop_eq_getElem_cons hl
    obtain ⟨hn1, hn2, hn3⟩ := hg.tok _ n (by rw [hd]; simp) ht
    refine (Px.goto_res (p + n)).bind (by omega) ?_
    rintro q ⟨rfl, hq⟩
    refine ⟨by omega, hq, rfl, ?_, ?_⟩
    · intro hb; rw [hn3 c (by rw [hd]; rfl) hb]
    · intro hb
      have := Matched.token (tok := x.tok) (x.slice p (p + n)) ((x.rest p).drop n) [] (by
        rw [Cx.slice_prefix, List.take_append_drop, ht]
        simp [Nat.min_eq_left hn2]) (by
        intro d hd'
        rw [Cx.slice_prefix, hd] at hd'
        cases n with
        | zero => omega
        | succ n => simp at hd'; rw [← hd']; exact hb) .nil
      simpa using this

theorem Px.transform_res {x : Px} (t : Str) (p : Nat) : Res x (fun u => u = t) 0 0 (x.transform t p) := by
  unfold Px.transform
  split
  · exact ⟨trivial, by simp⟩
  · rfl

theorem Px.identifier_res {x : Px} (p : Nat) :
    Res x (fun (a, q) => p < q ∧ q ≤ x.bp ∧ a = x.slice p q ∧ (∀ c ∈ a, identChar c = true)) 0 0 (x.identifier p) := by
  unfold Px.identifier
  split
  · rename_i h
    refine (Px.goto_res _).bind (by omega) ?_
    rintro q ⟨rfl, hq⟩
    refine ⟨?_, hq, rfl, ?_⟩
    · cases hr : x.rest p with
      | nil => rw [hr] at h; cases h
      | cons c r =>
        rw [hr] at h
        simp [identStart_identChar h]
    · intro c hc
      rw [Cx.slice_prefix] at hc
      have h1 : (x.rest p).take ((x.rest p).takeWhile identChar).length = (x.rest p).takeWhile identChar := by
        generalize x.rest p = s
        exact (List.prefix_iff_eq_take.1 (List.takeWhile_prefix identChar)).symm
      rw [h1] at hc
      have := List.all_takeWhile (p := identChar) (l := x.rest p)
      rw [List.all_eq_true] at this
      exact this c hc
  · exact ⟨trivial, by simp⟩

theorem Px.dottedLoop_res {x : Px} : ∀ (n p : Nat), p ≤ x.bp →
    Res x (fun (a, q) => p ≤ q ∧ q ≤ x.bp ∧ Matched x.tok (x.slice p q) ∧ a = x.slice p q ∧
      ((x.peek p).any identChar → n ≠ 0 → p < q)) 0 0 (x.dottedLoop n p) := by
  intro n
  induction n with
  | zero => intro p hp; exact ⟨Nat.le_refl _, hp, by rw [Cx.slice_self]; exact .nil, by rw [Cx.slice_self], by simp⟩
  | succ n ih =>
    intro p hp
    unfold Px.dottedLoop
    cases hc : x.peek p with
    | none => exact ⟨Nat.le_refl _, hp, by rw [Cx.slice_self]; exact .nil, by rw [Cx.slice_self], by simp⟩
    | some c =>
      obtain ⟨h1, h2⟩ := Cx.peek_some hc
      simp only
      split
      · refine (Px.identifier_res p).bind (by omega) ?_
        rintro ⟨a, q⟩ ⟨hpq, hq, ha, hi⟩
        refine (ih q hq).bind (by omega) ?_
        rintro ⟨b, r⟩ ⟨hqr, hr, hm, hb, _⟩
        refine ⟨by omega, hr, ?_, ?_, fun _ _ => by omega⟩
        · rw [Cx.slice_append x.toCx (by omega : p ≤ q) hqr]
          exact (Matched.chars fun d hd => identChar_not_bracket (hi d (ha ▸ hd))).append hm
        · rw [Cx.slice_append x.toCx (by omega : p ≤ q) hqr, ← ha, ← hb]
      · rename_i hid
        split
        · rename_i hdot
          refine (ih (p + 1) h1).bind (by omega) ?_
          rintro ⟨b, r⟩ ⟨hqr, hr, hm, hb, _⟩
          refine ⟨by omega, hr, ?_, ?_, fun _ _ => by omega⟩
          · rw [Cx.slice_append x.toCx (by omega : p ≤ p + 1) hqr, Cx.slice_one h2, hdot.1]
            exact Matched.char _ _ (by decide) hm
          · rw [Cx.slice_append x.toCx (by omega : p ≤ p + 1) hqr, Cx.slice_one h2, hdot.1, ← hb]; rfl
        · exact ⟨Nat.le_refl _, hp, by rw [Cx.slice_self]; exact .nil, by rw [Cx.slice_self], by simp [hid]⟩

theorem Px.dottedName_res {x : Px} (p : Nat) (hp : p < x.bp) :
    Res x (fun (a, q) => p < q ∧ q ≤ x.bp ∧ Matched x.tok (x.slice p q) ∧ a = x.slice p q) 0 0 (x.dottedName p) := by
  unfold Px.dottedName Cx.peek!
  rw [if_neg (by omega)]
  cases hc : x.src[p]? with
  | none => exact ⟨trivial, by simp⟩
  | some c =>
    simp only [bind, Except.bind]
    split
    · rename_i h
      refine (Px.dottedLoop_res (x.bp - p) p (by omega)).mono (by omega) ?_
      rintro ⟨a, q⟩ ⟨h1, h2, h3, h4, h5⟩
      exact ⟨h5 (by simp [Cx.peek, hp, hc, identStart_identChar h]) (by omega), h2, h3, h4⟩
    · exact ⟨trivial, by simp⟩

/-- The rest after the cache token, and what was skipped. -/
theorem readToken_suffix (s : Str) : ∃ a, s = a ++ (Interval.readToken s).2 ∧ ∀ c ∈ a, ¬ Bracket c := by
  have hdig : ∀ c, (isDigit c || c == '.') = true → ¬ Bracket c := by
    intro c h hb
    simp [Bracket] at hb
    rcases hb with rfl | rfl | rfl | rfl | rfl | rfl <;> revert h <;> decide
  have hstar : ¬ Bracket '*' := by decide
  unfold Interval.readToken
  cases h : Interval.matchRefresh s with
  | none =>
    simp only
    split
    · exact ⟨['*'], rfl, by simp [hstar]⟩
    · exact ⟨[], rfl, by simp⟩
  | some a =>
    obtain ⟨i, r⟩ := a
    simp only
    cases s with
    | nil => cases h
    | cons c t =>
      by_cases hc : c = '*'
      · subst hc
        simp only [Interval.matchRefresh] at h
        generalize hu : Interval.unitLetter (t.dropWhile fun c => isDigit c || c == '.') = u at h
        obtain ⟨u, v⟩ := u
        simp only at h
        split at h
        · rename_i w
          split at h
          · cases h
          · simp only [Option.some.injEq, Prod.mk.injEq] at h
            obtain ⟨_, rfl⟩ := h
            have hsplit : t.dropWhile (fun c => isDigit c || c == '.') = u ++ '*' :: w ∧ ∀ c ∈ u, ¬ Bracket c := by
              revert hu
              generalize t.dropWhile (fun c => isDigit c || c == '.') = d
              intro hu
              unfold Interval.unitLetter at hu
              split at hu
              · split at hu
                · rename_i hl
                  simp only [Prod.mk.injEq] at hu
                  obtain ⟨rfl, rfl⟩ := hu
                  refine ⟨rfl, ?_⟩
                  intro c hc
                  simp at hc; subst hc
                  rcases hl with rfl | rfl | rfl | rfl | rfl <;> decide
                · simp only [Prod.mk.injEq] at hu
                  obtain ⟨rfl, h⟩ := hu
                  exact ⟨by simpa using h, by simp⟩
              · simp at hu
            refine ⟨'*' :: t.takeWhile (fun c => isDigit c || c == '.') ++ u ++ ['*'], ?_, ?_⟩
            · conv_lhs => rw [← List.takeWhile_append_dropWhile (p := fun c => isDigit c || c == '.') (l := t), hsplit.1]
              simp
            · intro c hc
              simp only [List.mem_append, List.mem_cons, List.not_mem_nil, or_false] at hc
              have hall := List.all_takeWhile (p := fun c => isDigit c || c == '.') (l := t)
              rw [List.all_eq_true] at hall
              rcases hc with ((rfl | hc) | hc) | rfl
              · exact hstar
              · exact hdig c (hall c hc)
              · exact hsplit.2 c hc
              · exact hstar
        · cases h
      · unfold Interval.matchRefresh at h
        split at h
        · rename_i heq; simp at heq; exact absurd heq.1 hc
        · cases h

theorem Px.silentAndCache_res {x : Px} (p : Nat) :
    Res x (fun (_, _, q) => p ≤ q ∧ q ≤ x.bp ∧ Matched x.tok (x.slice p q)) 0 0 (x.silentAndCache p) := by
  unfold Px.silentAndCache
  simp only
  split
  · rename_i hq
    refine ⟨Nat.le_add_right _ _, hq, ?_⟩
    obtain ⟨a, ha, hb⟩ := readToken_suffix (afterSilent (x.rest p))
    have h2 : ∃ b, x.rest p = b ++ afterSilent (x.rest p) ∧ ∀ c ∈ b, ¬ Bracket c := by
      unfold afterSilent
      split
      · rename_i r hr; exact ⟨['!'], hr, by simp; decide⟩
      · exact ⟨[], rfl, by simp⟩
    obtain ⟨b, hb1, hb2⟩ := h2
    have h3 : x.rest p = (b ++ a) ++ (Interval.readToken (afterSilent (x.rest p))).2 := by
      rw [List.append_assoc, ← ha, ← hb1]
    have h4 : (x.rest p).length - (Interval.readToken (afterSilent (x.rest p))).2.length = (b ++ a).length := by
      have := congrArg List.length h3
      simp only [List.length_append] at this ⊢
      omega
    rw [h4, Cx.slice_prefix]
    refine Matched.chars ?_
    intro c hc
    rw [h3] at hc
    simp only [List.take_left'] at hc
    rcases List.mem_append.1 hc with hc | hc
    · exact hb2 c hc
    · exact hb c hc
  · exact ⟨trivial, by simp⟩

theorem stripPrefix?_eq : ∀ (a s r : Str), stripPrefix? a s = some r → s = a ++ r := by
  intro a
  induction a with
  | nil => intro s r h; simp [stripPrefix?] at h; exact h
  | cons c a ih =>
    intro s r h
    cases s with
    | nil => simp [stripPrefix?] at h
    | cons d s =>
      simp only [stripPrefix?] at h
      split at h
      · rename_i hc; rw [ih s r h, hc]; rfl
      · cases h

theorem Px.varTok_matched {x : Px} (hg : Good x) {p q : Nat} (h : x.matchVarTok p = some q) :
    p < q ∧ Matched x.tok (x.slice p q) := by
  unfold Cx.matchVarTok at h
  split at h
  · split at h
    · rename_i r hr
      split at h
      · simp only [Option.some.injEq] at h
        subst h
        have := stripPrefix?_eq _ _ _ hr
        have hl := List.length_pos_iff.2 hg.var_ne
        refine ⟨by omega, ?_⟩
        rw [Cx.slice_prefix, this]
        exact Matched.chars (by simpa using hg.var)
      · cases h
    · cases h
  · cases h

theorem genVar_res {x : Px} (st : GenVar.Settings) (plain : Bool) (cs : List GenVar.Chunk) :
    Res x (fun _ => True) 0 0 (genVar st plain cs) := by
  unfold genVar
  split
  · trivial
  · exact ⟨trivial, by simp⟩

/-- What the four mutually recursive functions guarantee. -/
structure Spec (x : Px) (n : Nat) : Prop where
  expr : ∀ st en brk enc p, p ≤ x.bp → EncOk x enc p →
    Res x (fun (_, q) => p ≤ q ∧ q ≤ x.bp ∧ Closing x.tok en (enc.map (·.1)) (x.slice p q)) (4 * (x.bp - p) + 3) n
      (x.exprParts n st en brk enc p)
  opened : ∀ st en brk p c, x.peek p = some c → isOpen c = true →
    Res x (fun (_, q) => p < q ∧ q ≤ x.bp ∧ Matched x.tok (x.slice p q)) (4 * (x.bp - p) + 3) n
      (x.exprParts n st en brk [] p)
  args : ∀ st enc p, p ≤ x.bp → EncOk x enc p →
    Res x (fun (_, q) => p < q ∧ q ≤ x.bp ∧ ∃ o e es a c, enc = (o, e) :: es ∧ Pair o c ∧ x.slice p q = a ++ [c] ∧ Matched x.tok a)
      (4 * (x.bp - p) + 4) n (x.callArgs n st enc p)
  chunks : ∀ st p, p ≤ x.bp →
    Res x (fun (_, q) => p ≤ q ∧ q ≤ x.bp ∧ Matched x.tok (x.slice p q)) (4 * (x.bp - p) + 1) n (x.nameChunks n st p)
  var : ∀ st plain skip p, p ≤ x.bp →
    Res x (fun (_, q) => p ≤ q ∧ (skip = false → p < q) ∧ q ≤ x.bp ∧ Matched x.tok (x.slice p q)) (4 * (x.bp - p) + 2) n
      (x.cheetahVar n st plain skip p)

theorem not_bracket {c : Char} (h1 : ¬ isOpen c = true) (h2 : ¬ isClose c = true) : ¬ Bracket c := by
  rw [bracket_iff]; rintro (h | h) <;> contradiction

theorem isOpen_bracket {c : Char} (h : isOpen c = true) : Bracket c := (bracket_iff c).2 (.inl h)

theorem eolLen_le (s : Str) : eolLen s ≤ s.length ∧ ∀ c ∈ s.take (eolLen s), c = '\r' ∨ c = '\n' := by
  unfold eolLen
  split <;> simp

theorem Res.step {α β : Type} {x : Px} {en : Bool} {p q : Nat} {os : List Char} {B n B' n' : Nat} {r : Except Err (α × Nat)} {f : α → β}
    (h : Res x (fun (_, e) => q ≤ e ∧ e ≤ x.bp ∧ Closing x.tok en os (x.slice q e)) B n r) (hn : n < B → n' < B')
    (hpq : p ≤ q) (hne : ¬ (en = true ∧ os = [])) (hm : Matched x.tok (x.slice p q)) :
    Res x (fun (_, e) => p ≤ e ∧ e ≤ x.bp ∧ Closing x.tok en os (x.slice p e)) B' n' (r >>= fun (a, e) => .ok (f a, e)) := by
  refine h.bind hn ?_
  rintro ⟨a, e⟩ ⟨h1, h2, h3⟩
  refine ⟨by omega, h2, ?_⟩
  rw [Cx.slice_append x.toCx hpq h1]
  exact h3.prepend hne hm

theorem Res.stepArgs {α β : Type} {x : Px} {p q : Nat} {enc : List (Char × Nat)} {B n B' n' : Nat} {r : Except Err (α × Nat)} {f : α → β}
    (h : Res x (fun (_, e) => q < e ∧ e ≤ x.bp ∧ ∃ o e' es a c, enc = (o, e') :: es ∧ Pair o c ∧ x.slice q e = a ++ [c] ∧ Matched x.tok a) B n r)
    (hn : n < B → n' < B') (hpq : p ≤ q) (hm : Matched x.tok (x.slice p q)) :
    Res x (fun (_, e) => p < e ∧ e ≤ x.bp ∧ ∃ o e' es a c, enc = (o, e') :: es ∧ Pair o c ∧ x.slice p e = a ++ [c] ∧ Matched x.tok a) B' n'
      (r >>= fun (a, e) => .ok (f a, e)) := by
  refine h.bind hn ?_
  rintro ⟨a, e⟩ ⟨h1, h2, o, e', es, a', c, h3, h4, h5, h6⟩
  refine ⟨by omega, h2, o, e', es, x.slice p q ++ a', c, h3, h4, ?_, hm.append h6⟩
  rw [Cx.slice_append x.toCx hpq (by omega), h5, List.append_assoc]

theorem isSpacey_not_bracket {c : Char} (h : isWs c = true ∨ c = '\r' ∨ c = '\n') : ¬ Bracket c := by
  rcases h with h | rfl | rfl
  · exact isWs_not_bracket h
  · decide
  · decide

theorem stop_res {x : Px} {en : Bool} {p B n : Nat} {β : Type} {b : β} (hp : p ≤ x.bp) :
    Res x (fun (_, q) => p ≤ q ∧ q ≤ x.bp ∧ Closing x.tok en [] (x.slice p q)) B n (.ok (b, p)) :=
  ⟨Nat.le_refl _, hp, by rw [Cx.slice_self]; exact .nil _ _⟩

theorem Res.ite {α : Type} {x : Px} {good : α → Prop} {B n : Nat} {c : Prop} [Decidable c] {r s : Except Err α}
    (h1 : c → Res x good B n r) (h2 : ¬ c → Res x good B n s) : Res x good B n (if c then r else s) := by
  by_cases h : c
  · rw [if_pos h]; exact h1 h
  · rw [if_neg h]; exact h2 h

theorem spec_expr {x : Px} (hg : Good x) {n : Nat} (ih : Spec x n) : ∀ st en brk enc p, p ≤ x.bp → EncOk x enc p →
    Res x (fun (_, q) => p ≤ q ∧ q ≤ x.bp ∧ Closing x.tok en (enc.map (·.1)) (x.slice p q)) (4 * (x.bp - p) + 3) (n + 1)
      (x.exprParts (n + 1) st en brk enc p) := by
  intro st en brk enc p hp he
  unfold Px.exprParts
  cases hc : x.peek p with
  | none =>
    have hpe : p = x.bp := by have := Cx.peek_none hg.bp hc; omega
    cases enc with
    | nil => exact stop_res hp
    | cons a enc =>
      obtain ⟨o, q⟩ := a
      obtain ⟨h1, h2, h3, h4, h5⟩ := he
      exact ⟨⟨h2, h3, by omega, hpe ▸ h4⟩, by simp⟩
  | some c =>
    obtain ⟨h1, h2⟩ := Cx.peek_some hc
    have hone : x.slice p (p + 1) = [c] := Cx.slice_one h2
    refine Res.ite ?_ ?_
    · -- opening bracket
      intro ho
      refine (ih.expr st en brk ((c, p) :: enc) (p + 1) h1 ⟨by omega, h2, ho, by rw [Cx.slice_self]; exact .nil, he⟩).bind (by omega) ?_
      rintro ⟨bs, r⟩ ⟨h3, h4, h5⟩
      refine ⟨by omega, h4, ?_⟩
      rw [Cx.slice_append x.toCx (by omega : p ≤ p + 1) h3, hone]
      exact h5.opened
    · intro ho
      refine Res.ite ?_ ?_
      · intro hs; rw [hs.2]; exact stop_res hp
      · intro hne'
        have hne : ¬ (en = true ∧ enc.map (·.1) = []) := by simpa using hne'
        refine Res.ite ?_ ?_
        · intro hcl
          cases enc with
          | nil => exact ⟨trivial, by simp⟩
          | cons a enc =>
            obtain ⟨o, q⟩ := a
            obtain ⟨g1, g2, g3, g4, g5⟩ := he
            simp only
            refine Res.ite ?_ ?_
            · intro hcc
              have hpair : Pair o c := hcc ▸ pair_closeOf g3
              have hm : Matched x.tok (x.slice q (p + 1)) := by
                rw [Cx.slice_append x.toCx (by omega : q ≤ q + 1) (by omega), Cx.slice_one g2,
                  Cx.slice_append x.toCx (by omega : q + 1 ≤ p) (by omega), hone]
                exact .bracket o c _ [] hpair g4 .nil
              refine (ih.expr st en brk enc (p + 1) h1 (g5.advance (by omega) hm)).bind (by omega) ?_
              rintro ⟨bs, r⟩ ⟨h3, h4, h5⟩
              refine ⟨by omega, h4, [], x.slice (p + 1) r, c, ?_, hpair, .nil, h5⟩
              rw [Cx.slice_append x.toCx (by omega : p ≤ p + 1) h3, hone]; rfl
            · intro hcc
              refine ⟨⟨g2, g3, g1, h1, h2, hcl, ?_, g4⟩, by simp⟩
              intro hpair
              apply hcc
              cases hpair <;> rfl
        · intro hcl
          have hnb := not_bracket ho hcl
          refine Res.ite ?_ ?_
          · intro hw
            have hpos := Cx.ws_pos hc hw
            have hle := Cx.ws_le hp
            have hm := Cx.ws_matched x.toCx x.tok p
            exact (ih.expr st en brk enc _ hle (he.advance (by omega) hm)).step (by omega) (by omega) hne hm
          · intro _
            refine Res.ite ?_ ?_
            · intro hs; rw [hs.2]; exact stop_res hp
            · intro _
              refine Res.ite ?_ ?_
              · intro hbs
                refine Res.ite ?_ ?_
                · intro _
                  exact ⟨trivial, by simp⟩
                · intro _
                  refine (Px.goto_res _).bind (by omega) ?_
                  rintro q ⟨rfl, hq⟩
                  have hm : Matched x.tok (x.slice p (p + 1 + eolLen (x.rest (p + 1)))) := by
                    rw [Cx.slice_append x.toCx (by omega : p ≤ p + 1) (by omega), hone, Cx.slice_prefix]
                    refine .char _ _ hnb (.chars ?_)
                    intro d hd
                    exact isSpacey_not_bracket (.inr ((eolLen_le _).2 d hd))
                  refine (ih.expr st en brk enc _ hq (he.advance (by omega) hm)).mono (by omega) ?_
                  rintro ⟨bs, r⟩ ⟨h3, h4, h5⟩
                  refine ⟨by omega, h4, ?_⟩
                  rw [Cx.slice_append x.toCx (by omega : p ≤ _) h3]
                  exact h5.prepend hne hm
              · intro _
                refine Res.ite ?_ ?_
                · intro _
                  refine Res.ite ?_ ?_
                  · intro hs; subst hs; exact stop_res hp
                  · intro _
                    have hm : Matched x.tok (x.slice p (p + 1)) := by rw [hone]; exact .char _ _ hnb .nil
                    refine (ih.expr st en brk enc _ h1 (he.advance (by omega) hm)).mono (by omega) ?_
                    rintro ⟨bs, r⟩ ⟨h3, h4, h5⟩
                    refine ⟨by omega, h4, ?_⟩
                    rw [Cx.slice_append x.toCx (by omega : p ≤ p + 1) h3]
                    exact h5.prepend hne hm
                · intro _
                  refine Res.ite ?_ ?_
                  · intro _
                    refine (ih.var st false false p hp).bind (by omega) ?_
                    rintro ⟨v, q⟩ ⟨_, k1, k2, k3⟩
                    have k1 := k1 rfl
                    exact (ih.expr st en brk enc q k2 (he.advance (by omega) k3)).step (by omega) (by omega) hne k3
                  · intro _
                    refine Res.ite ?_ ?_
                    · intro _
                      exact ⟨trivial, by simp⟩
                    · intro _
                      refine (Px.pyTok_res hg hc).bind (by omega) ?_
                      rintro ⟨t, q⟩ ⟨k1, k2, k3, _, k4⟩
                      have k4 := k4 hnb
                      simp only
                      refine Res.ite ?_ ?_
                      · intro hs; rw [hs.1]; exact stop_res hp
                      · intro _
                        refine (Px.transform_res t q).bind (by omega) ?_
                        rintro t' rfl
                        have he' := he.advance (by omega) k4
                        refine Res.ite ?_ ?_
                        · intro _
                          refine Res.ite ?_ ?_
                          · intro _
                            refine (ih.expr { st with useNameMapper := false } false [c!"in"] [] q k2 trivial).bind (by omega) ?_
                            rintro ⟨e, q2⟩ ⟨m1, m2, m3⟩
                            have hm : Matched x.tok (x.slice p q2) := by
                              rw [Cx.slice_append x.toCx (by omega : p ≤ q) m1]; exact k4.append m3.base
                            exact (ih.expr st en brk enc q2 m2 (he.advance (by omega) hm)).step (f := fun bs => t' :: e.flatten :: bs) (by omega) (by omega) hne hm
                          · intro _
                            have w1 := Cx.ws_le k2
                            have w2 := Cx.ws_matched x.toCx x.tok q
                            have hm : Matched x.tok (x.slice p (q + (x.ws q).length)) := by
                              rw [Cx.slice_append x.toCx (by omega : p ≤ q) (by omega)]; exact k4.append w2
                            refine Res.ite ?_ ?_
                            · intro hpar
                              obtain ⟨l1, l2⟩ := Cx.peek_some hpar
                              refine (ih.args st [('(', q + (x.ws q).length)] (q + (x.ws q).length + 1) l1
                                ⟨by omega, l2, rfl, by rw [Cx.slice_self]; exact .nil, trivial⟩).bind (by omega) ?_
                              rintro ⟨a, q3⟩ ⟨m1, m2, o, e, es, s, d, m3, m4, m5, m6⟩
                              simp only [List.cons.injEq, Prod.mk.injEq] at m3
                              obtain ⟨⟨rfl, rfl⟩, rfl⟩ := m3
                              have hm2 : Matched x.tok (x.slice p q3) := by
                                rw [Cx.slice_append x.toCx (by omega : p ≤ q + (x.ws q).length) (by omega)]
                                refine hm.append ?_
                                rw [Cx.slice_append x.toCx (by omega : q + (x.ws q).length ≤ q + (x.ws q).length + 1) (by omega),
                                  Cx.slice_one l2, m5]
                                exact .bracket _ d s [] m4 m6 .nil
                              exact (ih.expr st en brk enc q3 m2 (he.advance (by omega) hm2)).step (f := fun bs => t' :: x.ws q :: ('(' :: a) :: bs) (by omega) (by omega) hne hm2
                            · intro _
                              exact (ih.expr st en brk enc _ w1 (he.advance (by omega) hm)).step (f := fun bs => t' :: x.ws q :: bs) (by omega) (by omega) hne hm
                        · intro _
                          exact (ih.expr st en brk enc q k2 he').step (by omega) (by omega) hne k4

theorem spec_opened {x : Px} {n : Nat} (ih : Spec x n) : ∀ st en brk p c, x.peek p = some c → isOpen c = true →
    Res x (fun (_, q) => p < q ∧ q ≤ x.bp ∧ Matched x.tok (x.slice p q)) (4 * (x.bp - p) + 3) (n + 1)
      (x.exprParts (n + 1) st en brk [] p) := by
  intro st en brk p c hc ho
  obtain ⟨h1, h2⟩ := Cx.peek_some hc
  unfold Px.exprParts
  rw [hc]
  change Res x _ _ _ (if isOpen c = true then _ else _)
  rw [if_pos ho]
  refine (ih.expr st en brk [(c, p)] (p + 1) h1 ⟨by omega, h2, ho, by rw [Cx.slice_self]; exact .nil, trivial⟩).bind (by omega) ?_
  rintro ⟨bs, r⟩ ⟨h3, h4, h5⟩
  refine ⟨by omega, h4, ?_⟩
  rw [Cx.slice_append x.toCx (by omega : p ≤ p + 1) h3, Cx.slice_one h2]
  exact h5.opened.base

theorem spec_args {x : Px} (hg : Good x) {n : Nat} (ih : Spec x n) : ∀ st enc p, p ≤ x.bp → EncOk x enc p →
    Res x (fun (_, q) => p < q ∧ q ≤ x.bp ∧ ∃ o e es a c, enc = (o, e) :: es ∧ Pair o c ∧ x.slice p q = a ++ [c] ∧ Matched x.tok a)
      (4 * (x.bp - p) + 4) (n + 1) (x.callArgs (n + 1) st enc p) := by
  intro st enc p hp he
  unfold Px.callArgs
  cases hc : x.peek p with
  | none =>
    have hpe : p = x.bp := by have := Cx.peek_none hg.bp hc; omega
    cases enc with
    | nil => exact ⟨trivial, by simp⟩
    | cons a enc =>
      obtain ⟨o, q⟩ := a
      obtain ⟨h1, h2, h3, h4, h5⟩ := he
      exact ⟨⟨h2, h3, by omega, hpe ▸ h4⟩, by simp⟩
  | some c =>
    obtain ⟨h1, h2⟩ := Cx.peek_some hc
    have hone : x.slice p (p + 1) = [c] := Cx.slice_one h2
    refine Res.ite ?_ ?_
    · intro hcl
      cases enc with
      | nil => exact ⟨trivial, by simp⟩
      | cons a enc =>
        obtain ⟨o, q⟩ := a
        obtain ⟨g1, g2, g3, g4, g5⟩ := he
        simp only
        refine Res.ite ?_ ?_
        · intro hcc
          exact ⟨by omega, h1, o, q, enc, [], c, rfl, hcc ▸ pair_closeOf g3, hone, .nil⟩
        · intro _
          exact ⟨trivial, by simp⟩
    · intro hcl
      refine Res.ite ?_ ?_
      · intro hw
        have hm : Matched x.tok (x.slice p (p + 1)) := by rw [hone]; exact .char _ _ (isSpacey_not_bracket hw) .nil
        exact (ih.args st enc _ h1 (he.advance (by omega) hm)).stepArgs (by omega) (by omega) hm
      · intro _
        refine Res.ite ?_ ?_
        · intro _
          refine (ih.var st false false p hp).bind (by omega) ?_
          rintro ⟨v, q⟩ ⟨_, k1, k2, k3⟩
          have k1 := k1 rfl
          have w1 := Cx.ws_le k2
          have hm : Matched x.tok (x.slice p (q + (x.ws q).length)) := by
            rw [Cx.slice_append x.toCx (by omega : p ≤ q) (by omega)]; exact k3.append (Cx.ws_matched x.toCx x.tok q)
          refine Res.ite ?_ ?_
          · intro heq
            refine (Px.pyTok_res hg heq).bind (by omega) ?_
            rintro ⟨t, q3⟩ ⟨l1, l2, l3, _, l4⟩
            have hm2 : Matched x.tok (x.slice p q3) := by
              rw [Cx.slice_append x.toCx (by omega : p ≤ q + (x.ws q).length) (by omega)]
              exact hm.append (l4 (by decide))
            refine Res.ite ?_ ?_
            · intro _
              refine (ih.var st true false p hp).bind (by omega) ?_
              rintro ⟨v', q'⟩ _
              exact (ih.args st enc q3 l2 (he.advance (by omega) hm2)).stepArgs (f := fun s => v' ++ x.ws q ++ t ++ s) (by omega) (by omega) hm2
            · intro _
              exact (ih.args st enc q3 l2 (he.advance (by omega) hm2)).stepArgs (f := fun s => v ++ x.ws q ++ t ++ s) (by omega) (by omega) hm2
          · intro _
            exact (ih.args st enc _ w1 (he.advance (by omega) hm)).stepArgs (f := fun s => v ++ x.ws q ++ s) (by omega) (by omega) hm
        · intro _
          refine Res.ite ?_ ?_
          · intro _
            exact ⟨trivial, by simp⟩
          · intro _
            refine (Px.pyTok_res hg hc).bind (by omega) ?_
            rintro ⟨t, q⟩ ⟨k1, k2, k3, k4, k5⟩
            by_cases ho : isOpen c = true
            · have hq : q = p + 1 := k4 (isOpen_bracket ho)
              have ht : t = [c] := by rw [k3, hq, hone]
              change Res x _ _ _ (if t = c!"{" ∨ t = c!"(" ∨ t = c!"[" then _ else _)
              rw [if_pos (by rw [ht]; simp [isOpen] at ho; rcases ho with (rfl | rfl) | rfl <;> decide)]
              subst hq
              rw [Nat.add_sub_cancel]
              refine (ih.opened st true [] p c hc ho).bind (by omega) ?_
              rintro ⟨e, q2⟩ ⟨m1, m2, m3⟩
              exact (ih.args st enc q2 m2 (he.advance (by omega) m3)).stepArgs (by omega) (by omega) m3
            · have hm := k5 (not_bracket ho hcl)
              change Res x _ _ _ (if t = c!"{" ∨ t = c!"(" ∨ t = c!"[" then _ else _)
              have hne : ¬ (t = c!"{" ∨ t = c!"(" ∨ t = c!"[") := by
                intro hh
                have : t.head? = some c := by
                  rw [k3, Cx.slice_append x.toCx (by omega : p ≤ p + 1) (by omega), hone]; rfl
                apply ho
                rcases hh with rfl | rfl | rfl <;> (simp at this; subst this; decide)
              rw [if_neg hne]
              refine (Px.transform_res t q).bind (by omega) ?_
              rintro t' rfl
              exact (ih.args st enc q k2 (he.advance (by omega) hm)).stepArgs (by omega) (by omega) hm

theorem spec_chunks {x : Px} {n : Nat} (ih : Spec x n) : ∀ st p, p ≤ x.bp →
    Res x (fun (_, q) => p ≤ q ∧ q ≤ x.bp ∧ Matched x.tok (x.slice p q)) (4 * (x.bp - p) + 1) (n + 1) (x.nameChunks (n + 1) st p) := by
  intro st p hp
  have stop : ∀ {B m}, Res x (fun (_, q) => p ≤ q ∧ q ≤ x.bp ∧ Matched x.tok (x.slice p q)) B m (.ok (([] : List GenVar.Chunk), p)) :=
    ⟨Nat.le_refl _, hp, by rw [Cx.slice_self]; exact .nil⟩
  unfold Px.nameChunks
  cases hc : x.peek p with
  | none => exact stop
  | some c =>
    obtain ⟨h1, h2⟩ := Cx.peek_some hc
    have hone : x.slice p (p + 1) = [c] := Cx.slice_one h2
    refine Res.ite (fun _ => stop) fun _ => Res.ite (fun _ => stop) fun hdot => ?_
    have hlt : (if c = '.' then p + 1 else p) < x.bp := by
      split
      · rename_i hcd
        simp only [hcd, true_and, Classical.not_not] at hdot
        cases hn : x.peek (p + 1) with
        | none => rw [hn] at hdot; simp at hdot
        | some d => exact (Cx.peek_some hn).1
      · exact h1
    refine (Px.dottedName_res _ hlt).bind (by omega) ?_
    rintro ⟨d, q⟩ ⟨k1, k2, k3, k4⟩
    have k0 : p < q := by split at k1 <;> omega
    have hm : Matched x.tok (x.slice p q) := by
      split at k3
      · rename_i hcd
        rw [if_pos hcd] at k1
        rw [Cx.slice_append x.toCx (by omega : p ≤ p + 1) (by omega), hone, hcd]
        exact .char _ _ (by decide) k3
      · exact k3
    refine Res.ite ?_ fun _ => Res.ite ?_ ?_
    · intro hpar
      obtain ⟨l1, l2⟩ := Cx.peek_some hpar
      refine (ih.args st [('(', q)] (q + 1) l1 ⟨by omega, l2, rfl, by rw [Cx.slice_self]; exact .nil, trivial⟩).bind (by omega) ?_
      rintro ⟨a, q2⟩ ⟨m1, m2, o, e, es, s, d', m3, m4, m5, m6⟩
      simp only [List.cons.injEq, Prod.mk.injEq] at m3
      obtain ⟨⟨rfl, rfl⟩, rfl⟩ := m3
      refine (ih.chunks st q2 m2).bind (by omega) ?_
      rintro ⟨cs, r⟩ ⟨j1, j2, j3⟩
      refine ⟨by omega, j2, ?_⟩
      rw [Cx.slice_append x.toCx (by omega : p ≤ q) (by omega), Cx.slice_append x.toCx (by omega : q ≤ q2) j1,
        Cx.slice_append x.toCx (by omega : q ≤ q + 1) (by omega), Cx.slice_one l2, m5]
      refine hm.append (Matched.append ?_ j3)
      exact .bracket _ _ s [] m4 m6 .nil
    · intro hsq
      obtain ⟨l1, l2⟩ := Cx.peek_some hsq
      refine (ih.expr st true [] [] q k2 trivial).bind (by omega) ?_
      rintro ⟨e, q2⟩ ⟨m1, m2, m3⟩
      refine (ih.chunks st q2 m2).bind (by omega) ?_
      rintro ⟨cs, r⟩ ⟨j1, j2, j3⟩
      refine ⟨by omega, j2, ?_⟩
      rw [Cx.slice_append x.toCx (by omega : p ≤ q) (by omega), Cx.slice_append x.toCx (by omega : q ≤ q2) j1]
      exact hm.append (Matched.append m3.base j3)
    · intro _
      refine (ih.chunks st q k2).bind (by omega) ?_
      rintro ⟨cs, r⟩ ⟨j1, j2, j3⟩
      refine ⟨by omega, j2, ?_⟩
      rw [Cx.slice_append x.toCx (by omega : p ≤ q) (by omega)]
      exact hm.append j3

theorem spec_var {x : Px} (hg : Good x) {n : Nat} (ih : Spec x n) : ∀ st plain skip p, p ≤ x.bp →
    Res x (fun (_, q) => p ≤ q ∧ (skip = false → p < q) ∧ q ≤ x.bp ∧ Matched x.tok (x.slice p q)) (4 * (x.bp - p) + 2) (n + 1)
      (x.cheetahVar (n + 1) st plain skip p) := by
  intro st plain skip p hp
  unfold Px.cheetahVar
  have h0 : Res x (fun q => p ≤ q ∧ (skip = false → p < q) ∧ q ≤ x.bp ∧ Matched x.tok (x.slice p q)) 0 0
      (x.varStart skip p) := by
    unfold Px.varStart
    split
    · rename_i hs; exact ⟨Nat.le_refl _, by simp [hs], hp, by rw [Cx.slice_self]; exact .nil⟩
    · cases hv : x.matchVarTok p with
      | none => exact ⟨trivial, by simp⟩
      | some q =>
        obtain ⟨k1, k2⟩ := Px.varTok_matched hg hv
        refine (Px.goto_res q).mono (by omega) ?_
        rintro r ⟨rfl, hr⟩
        exact ⟨by omega, fun _ => k1, hr, k2⟩
  refine h0.bind (by omega) ?_
  rintro p1 ⟨k1, k2, k3, k4⟩
  refine (Px.silentAndCache_res p1).bind (by omega) ?_
  rintro ⟨_, _, p2⟩ ⟨l1, l2, l3⟩
  refine (ih.chunks st p2 l2).bind (by omega) ?_
  rintro ⟨cs, q⟩ ⟨m1, m2, m3⟩
  refine (genVar_res st plain cs).bind (by omega) ?_
  rintro v _
  refine ⟨by omega, fun h => by have := k2 h; omega, m2, ?_⟩
  rw [Cx.slice_append x.toCx (by omega : p ≤ p1) (by omega), Cx.slice_append x.toCx (by omega : p1 ≤ p2) (by omega)]
  exact k4.append (l3.append m3)

theorem spec {x : Px} (hg : Good x) : ∀ n, Spec x n := by
  intro n
  induction n with
  | zero =>
    constructor
    · intro st en brk enc p _ _; unfold Px.exprParts; exact ⟨trivial, fun _ => by omega⟩
    · intro st en brk p c _ _; unfold Px.exprParts; exact ⟨trivial, fun _ => by omega⟩
    · intro st enc p _ _; unfold Px.callArgs; exact ⟨trivial, fun _ => by omega⟩
    · intro st p _; unfold Px.nameChunks; exact ⟨trivial, fun _ => by omega⟩
    · intro st plain skip p _; unfold Px.cheetahVar; exact ⟨trivial, fun _ => by omega⟩
  | succ n ih => exact ⟨spec_expr hg ih, spec_opened ih, spec_args hg ih, spec_chunks ih, spec_var hg ih⟩

theorem Res.of_ok {α : Type} {x : Px} {good : α → Prop} {B n : Nat} {r : Except Err α} {a : α} (h : Res x good B n r) (hr : r = .ok a) : good a := by
  subst hr; exact h

theorem Res.of_error {α : Type} {x : Px} {good : α → Prop} {B n : Nat} {r : Except Err α} {e : Err} (h : Res x good B n r) (hr : r = .error e) :
    ErrOk x e ∧ (e = .fuel → n < B) := by
  subst hr; exact h

theorem Px.expression_res {x : Px} (hg : Good x) (st : GenVar.Settings) (en : Bool) (brk : List Str) (enc : List (Char × Nat)) (p : Nat)
    (hp : p ≤ x.bp) (he : EncOk x enc p) :
    Res x (fun (_, q) => p ≤ q ∧ q ≤ x.bp ∧ Closing x.tok en (enc.map (·.1)) (x.slice p q)) 0 0 (x.expression st en brk enc p) := by
  unfold Px.expression
  refine ((spec hg _).expr st en brk enc p hp he).bind (by unfold Px.fuel; omega) ?_
  rintro ⟨bs, q⟩ h
  exact h

theorem Px.callArgString_res {x : Px} (hg : Good x) (st : GenVar.Settings) (p : Nat) (hp : p < x.bp) :
    Res x (fun (_, q) => p < q ∧ q ≤ x.bp ∧ ∃ a, x.slice p q = '(' :: a ++ [')'] ∧ Matched x.tok a) 0 0 (x.callArgString st p) := by
  unfold Px.callArgString Cx.peek!
  rw [if_neg (by omega)]
  cases hc : x.src[p]? with
  | none => exact ⟨trivial, by simp⟩
  | some c =>
    simp only [bind, Except.bind]
    refine Res.ite ?_ ?_
    · rintro rfl
      refine ((spec hg (x.fuel p)).args st [('(', p)] (p + 1) (by omega) ⟨by omega, hc, rfl, by rw [Cx.slice_self]; exact .nil, trivial⟩).bind
        (n' := 0) (B' := 0) (f := fun (s, q) => .ok ('(' :: s, q)) (by unfold Px.fuel; omega) ?_
      rintro ⟨s, q⟩ ⟨h1, h2, o, e, es, a, c, h3, h4, h5, h6⟩
      simp only [List.cons.injEq, Prod.mk.injEq] at h3
      obtain ⟨⟨rfl, rfl⟩, rfl⟩ := h3
      cases h4
      refine ⟨by omega, h2, a, ?_, h6⟩
      rw [Cx.slice_append x.toCx (by omega : p ≤ p + 1) (by omega), Cx.slice_one hc, h5]; rfl
    · intro _; exact ⟨trivial, by simp⟩

theorem Px.peek!_res {x : Px} {p : Nat} (hp : p ≤ x.bp) : Res x (fun c => x.src[p]? = some c) 0 0 (x.peek! p) := by
  unfold Cx.peek!
  rw [if_neg (by omega)]
  cases hc : x.src[p]? with
  | none => exact ⟨trivial, by simp⟩
  | some c => exact rfl

theorem Px.varStart_res {x : Px} (hg : Good x) (p : Nat) :
    Res x (fun q => p < q ∧ q ≤ x.bp ∧ Matched x.tok (x.slice p q)) 0 0 (x.varStart false p) := by
  unfold Px.varStart
  rw [if_neg (by simp)]
  cases hv : x.matchVarTok p with
  | none => exact ⟨trivial, by simp⟩
  | some q =>
    obtain ⟨k1, k2⟩ := Px.varTok_matched hg hv
    refine (Px.goto_res q).mono (by omega) ?_
    rintro r ⟨rfl, hr⟩
    exact ⟨k1, hr, k2⟩

theorem Px.phOpen_res {x : Px} {p : Nat} (hp : p ≤ x.bp) :
    Res x (fun (enc, q) => p ≤ q ∧ q ≤ x.bp ∧ (enc = [] ∧ q = p ∧ (∀ c, x.src[p]? = some c → isOpen c = false) ∨ ∃ o, enc = [(o, p)] ∧ p < q) ∧ EncOk x enc q) 0 0 (x.phOpen p) := by
  unfold Px.phOpen
  refine (Px.peek!_res hp).bind (by omega) ?_
  intro c hc
  refine Res.ite ?_ ?_
  · intro ho
    refine (Px.goto_res (p + 1)).bind (by omega) ?_
    rintro q ⟨rfl, hq⟩
    have h1 := Cx.ws_le hq
    unfold Cx.skip
    exact ⟨by omega, h1, .inr ⟨c, rfl, by omega⟩, by omega, hc, ho, Cx.ws_matched x.toCx x.tok _, trivial⟩
  · intro hno
    exact ⟨by omega, hp, .inl ⟨rfl, rfl, fun d hd => by rw [hc] at hd; simp at hd; subst hd; simpa using hno⟩, trivial⟩

theorem Px.phRest_res {x : Px} (hg : Good x) (st : GenVar.Settings) {o : Char} {e p : Nat} (hp : p ≤ x.bp) (he : EncOk x [(o, e)] p) :
    Res x (fun (_, q) => p < q ∧ q ≤ x.bp ∧ Closing x.tok true [o] (x.slice p q)) 0 0 (x.phRest st o [(o, e)] p) := by
  unfold Px.phRest
  have hpos : ∀ {s : Str}, Closing x.tok true [o] s → s ≠ [] := by
    rintro s ⟨a, b, c, rfl, _⟩; simp
  refine (Px.peek!_res hp).bind (by omega) ?_
  intro d hd
  refine Res.ite ?_ fun _ => Res.ite ?_ ?_
  · intro _
    refine ((spec hg _).args st [(o, e)] p hp he).bind (by unfold Px.fuel; omega) ?_
    rintro ⟨a, q⟩ ⟨h1, h2, o', e', es, s, c, h3, h4, h5, h6⟩
    simp only [List.cons.injEq, Prod.mk.injEq] at h3
    obtain ⟨⟨rfl, rfl⟩, rfl⟩ := h3
    exact ⟨h1, h2, s, [], c, h5, h4, h6, .nil _ _⟩
  · rintro rfl
    refine (Px.goto_res (p + 1)).bind (by omega) ?_
    rintro q ⟨rfl, hq⟩
    exact ⟨by omega, hq, [], [], _, Cx.slice_one hd, pair_closeOf he.2.2.1, .nil, .nil _ _⟩
  · intro _
    refine (Px.expression_res hg st true [] [(o, e)] p hp he).bind (by omega) ?_
    rintro ⟨r, q⟩ ⟨h1, h2, h3⟩
    refine Res.ite (fun _ => ⟨trivial, by simp⟩) fun _ => ⟨?_, h2, h3⟩
    rcases Nat.lt_or_ge p q with h | h
    · exact h
    · have : q = p := by omega
      subst this
      rw [Cx.slice_self] at h3
      exact absurd rfl (hpos h3)

theorem Px.phBody_res {x : Px} (hg : Good x) (st : GenVar.Settings) {enc : List (Char × Nat)} {p : Nat} (hp : p ≤ x.bp)
    (he : EncOk x enc p) (hl : enc = [] ∨ ∃ o e, enc = [(o, e)]) :
    Res x (fun (_, q) => p ≤ q ∧ q ≤ x.bp ∧ (enc = [] → Matched x.tok (x.slice p q)) ∧
      ∀ o e, enc = [(o, e)] → Closing x.tok true [o] (x.slice p q)) 0 0 (x.phBody st enc p) := by
  unfold Px.phBody
  refine Res.ite ?_ ?_
  · intro _
    refine ((spec hg _).chunks st p hp).bind (by unfold Px.fuel; omega) ?_
    rintro ⟨cs, q⟩ ⟨h1, h2, h3⟩
    refine (genVar_res st false cs).bind (by omega) ?_
    rintro v _
    rcases hl with rfl | ⟨o, e, rfl⟩
    · exact ⟨h1, h2, fun _ => h3, by simp⟩
    · have w1 := Cx.ws_le h2
      have hm : Matched x.tok (x.slice p (q + (x.ws q).length)) := by
        rw [Cx.slice_append x.toCx h1 (by omega)]; exact h3.append (Cx.ws_matched x.toCx x.tok q)
      refine (Px.phRest_res hg st w1 (he.advance (by omega) hm)).bind (by omega) ?_
      rintro ⟨⟨r, f⟩, q2⟩ ⟨k1, k2, k3⟩
      refine ⟨by omega, k2, by simp, ?_⟩
      intro o' e' h
      simp only [List.cons.injEq, Prod.mk.injEq] at h
      obtain ⟨⟨rfl, rfl⟩, _⟩ := h
      rw [Cx.slice_append x.toCx (by omega : p ≤ q + (x.ws q).length) (by omega)]
      exact k3.prepend (by simp) hm
  · intro _
    refine (Px.expression_res hg st true [] enc p hp he).bind (by omega) ?_
    rintro ⟨r, q⟩ ⟨h1, h2, h3⟩
    rcases hl with rfl | ⟨o, e, rfl⟩
    · exact ⟨trivial, by simp⟩
    · refine Res.ite (fun _ => ⟨trivial, by simp⟩) fun _ => ⟨h1, h2, by simp, ?_⟩
      intro o' e' h
      simp only [List.cons.injEq, Prod.mk.injEq] at h
      obtain ⟨⟨rfl, rfl⟩, _⟩ := h
      exact h3

theorem Px.placeholder_res {x : Px} (hg : Good x) (st : GenVar.Settings) (p : Nat) :
    Res x (fun (ph, q) => p < q ∧ q ≤ x.bp ∧ ph.raw = x.slice p q ∧ Matched x.tok (x.slice p q)) 0 0 (x.placeholder st p) := by
  unfold Px.placeholder
  refine (Px.varStart_res hg p).bind (by omega) ?_
  rintro p1 ⟨k1, k3, k2⟩
  refine (Px.silentAndCache_res p1).bind (by omega) ?_
  rintro ⟨silent, cache, p2⟩ ⟨l1, l2, l3⟩
  refine (Px.phOpen_res l2).bind (by omega) ?_
  rintro ⟨enc, p3⟩ ⟨m1, m2, m3, m4⟩
  have hm2 : Matched x.tok (x.slice p p2) := by
    rw [Cx.slice_append x.toCx (by omega : p ≤ p1) l1]; exact k2.append l3
  have hl : enc = [] ∨ ∃ o e, enc = [(o, e)] := by
    rcases m3 with ⟨h, _⟩ | ⟨o, h, _⟩
    · exact .inl h
    · exact .inr ⟨o, p2, h⟩
  refine (Px.phBody_res hg st m2 m4 hl).bind (by omega) ?_
  rintro ⟨⟨e, f⟩, q⟩ ⟨n1, n2, n3, n4⟩
  refine ⟨by omega, n2, rfl, ?_⟩
  rw [Cx.slice_append x.toCx (by omega : p ≤ p2) (by omega)]
  refine hm2.append ?_
  rcases m3 with ⟨h, rfl, _⟩ | ⟨o, rfl, h⟩
  · exact n3 h
  · obtain ⟨j1, j2, j3, j4, _⟩ := m4
    rw [Cx.slice_append x.toCx (by omega : p2 ≤ p2 + 1) (by omega), Cx.slice_one j2,
      Cx.slice_append x.toCx (by omega : p2 + 1 ≤ p3) n1]
    exact ((n4 o p2 rfl).prepend (by simp) j4).opened.base

/-! ### A simple tokenizer, for the examples -/

/-- Names and numbers, strings in single quotes, and single characters. -/
def simpleTok : Str → Option Nat
  | [] => none
  | c :: r =>
    if identChar c then some ((c :: r).takeWhile identChar).length
    else if c = '\'' then
      if '\'' ∈ r then some ((r.takeWhile (· ≠ '\'')).length + 2) else none
    else some 1

theorem simpleTok_ok (s : Str) (n : Nat) (_ : s ≠ []) (h : simpleTok s = some n) :
    0 < n ∧ n ≤ s.length ∧ (∀ c, s.head? = some c → Bracket c → n = 1) := by
  cases s with
  | nil => cases h
  | cons c r =>
    simp only [simpleTok] at h
    split at h
    · rename_i hc
      have e : n = (List.takeWhile identChar (c :: r)).length := by simpa using h.symm
      refine ⟨?_, ?_, ?_⟩
      · rw [e]; simp [List.takeWhile_cons, hc]
      · rw [e]; exact (List.takeWhile_prefix identChar).length_le
      · intro d hd hb
        simp at hd; subst hd
        exact absurd hb (identChar_not_bracket hc)
    · split at h
      · rename_i hq
        split at h
        · rename_i hm
          have e : n = (r.takeWhile (· ≠ '\'')).length + 2 := by simpa using h.symm
          have hlt : (r.takeWhile (· ≠ '\'')).length < r.length := by
            clear h e
            induction r with
            | nil => simp at hm
            | cons d r ih =>
              by_cases hd : d = '\''
              · simp [hd]
              · have hm' : '\'' ∈ r := by
                  rcases List.mem_cons.1 hm with h | h
                  · exact absurd h.symm hd
                  · exact h
                have := ih (by simp) hm'
                simp [hd] at this ⊢
                omega
          refine ⟨by omega, by simp; omega, ?_⟩
          intro d hd hb
          simp at hd; subst hd; subst hq
          exact absurd hb (by decide)
        · cases h
      · simp only [Option.some.injEq] at h
        subst h
        simp

/-- The parser with the standard tokens, on this text. -/
def demo (s : Str) : Px := { cfg := Cfg.std, src := s, bp := s.length, tok := simpleTok }

theorem demo_good (s : Str) : Good (demo s) where
  bp := Nat.le_refl _
  tok := simpleTok_ok
  var_ne := by show Cfg.std.var ≠ []; decide
  var := by show ∀ c ∈ Cfg.std.var, ¬ Bracket c; decide

/-- Compiler settings for the examples. -/
def demoSt : GenVar.Settings := ⟨false, true, true, true⟩

/-! ### C37 -/

/-- An expression is read up to a place where all its brackets are closed: the text consumed is matched. -/
theorem C37_expression_matched (x : Px) (hg : Good x) (st : GenVar.Settings) (enclosed : Bool) (brk : List Str) (p q : Nat) (e : Str)
    (hp : p ≤ x.bp) (h : x.expression st enclosed brk [] p = .ok (e, q)) :
    p ≤ q ∧ q ≤ x.bp ∧ Matched x.tok ((x.src.take q).drop p) := by
  obtain ⟨h1, h2, h3⟩ := (Px.expression_res hg st enclosed brk [] p hp trivial).of_ok h
  exact ⟨h1, h2, h3.base⟩

example : (demo c!"[1, (2, {3})] rest").expression demoSt true [] [] 0 = .ok (c!"[1, (2, {3})]", 13) := by decide +kernel
example : (demo c!"a + '(' * [b]\n)").expression demoSt false [] [] 0 = .ok (c!"a + '(' * [b]", 13) := by decide +kernel

/-- The argument list of a call is the text from its `(` to the `)` that closes it. -/
theorem C37_call_matched (x : Px) (hg : Good x) (st : GenVar.Settings) (p q : Nat) (s : Str)
    (hp : p < x.bp) (h : x.callArgString st p = .ok (s, q)) :
    p < q ∧ q ≤ x.bp ∧ ∃ a, (x.src.take q).drop p = '(' :: a ++ [')'] ∧ Matched x.tok a :=
  (Px.callArgString_res hg st p hp).of_ok h

example : (demo c!"(1, [2, $f(3)], x=')') tail").callArgString demoSt 0 = .ok (c!"(1, [2, f(3)], x=')')", 22) := by decide +kernel

/-- The text of a placeholder is matched. -/
theorem C37_placeholder_matched (x : Px) (hg : Good x) (st : GenVar.Settings) (p q : Nat) (ph : Placeholder)
    (h : x.placeholder st p = .ok (ph, q)) :
    p < q ∧ q ≤ x.bp ∧ ph.raw = (x.src.take q).drop p ∧ Matched x.tok ph.raw := by
  obtain ⟨h1, h2, h3, h4⟩ := (Px.placeholder_res hg st p).of_ok h
  exact ⟨h1, h2, h3, h3 ▸ h4⟩

example : (demo c!"$a.b[1](x, {2}).c, d").placeholder demoSt 0 =
    .ok (⟨c!"a.b[1](x, {2}).c", c!"$a.b[1](x, {2}).c", none, .none, false⟩, 17) := by decide +kernel

/-- An error about the end of the file names a bracket that is open in the text, at its position, and
everything after it is matched: it is the innermost unclosed bracket. -/
theorem C37_unclosed_reported (x : Px) (hg : Good x) (st : GenVar.Settings) (p q : Nat) (o : Char) (hp : p < x.bp)
    (h : (∃ en brk, x.expression st en brk [] p = .error (.parse q (.eof o))) ∨ x.callArgString st p = .error (.parse q (.eof o)) ∨
      x.placeholder st p = .error (.parse q (.eof o))) :
    x.src[q]? = some o ∧ o ∈ ['(', '[', '{'] ∧ q < x.bp ∧ Matched x.tok ((x.src.take x.bp).drop (q + 1)) := by
  have : ErrOk x (.parse q (.eof o)) := by
    rcases h with ⟨en, brk, h⟩ | h | h
    · exact ((Px.expression_res hg st en brk [] p (by omega) trivial).of_error h).1
    · exact ((Px.callArgString_res hg st p hp).of_error h).1
    · exact ((Px.placeholder_res hg st p).of_error h).1
  obtain ⟨h1, h2, h3, h4⟩ := this
  refine ⟨h1, ?_, h3, h4⟩
  simp [isOpen] at h2
  rcases h2 with (rfl | rfl) | rfl <;> simp

example : (demo c!"(1, [2, (3)").callArgString demoSt 0 = .error (.parse 4 (.eof '[')) := by decide +kernel
example : (demo c!"${a + (b").placeholder demoSt 0 = .error (.parse 6 (.eof '(')) := by decide +kernel

/-- An error about a wrong closing bracket names the bracket found, which is in the text where it says,
and the innermost bracket open there, at its position; the two do not match. -/
theorem C37_mismatch_reported (x : Px) (hg : Good x) (st : GenVar.Settings) (p q r : Nat) (o c : Char) (hp : p < x.bp)
    (h : (∃ en brk, x.expression st en brk [] p = .error (.parse q (.mismatch c r o))) ∨
      x.callArgString st p = .error (.parse q (.mismatch c r o)) ∨ x.placeholder st p = .error (.parse q (.mismatch c r o))) :
    x.src[q]? = some o ∧ o ∈ ['(', '[', '{'] ∧ x.src[r]? = some c ∧ c ∈ [')', ']', '}'] ∧ q < r ∧ r < x.bp ∧ ¬ Pair o c ∧
      Matched x.tok ((x.src.take r).drop (q + 1)) := by
  have : ErrOk x (.parse q (.mismatch c r o)) := by
    rcases h with ⟨en, brk, h⟩ | h | h
    · exact ((Px.expression_res hg st en brk [] p (by omega) trivial).of_error h).1
    · exact ((Px.callArgString_res hg st p hp).of_error h).1
    · exact ((Px.placeholder_res hg st p).of_error h).1
  obtain ⟨h1, h2, h3, h4, h5, h6, h7, h8⟩ := this
  refine ⟨h1, ?_, h5, ?_, h3, h4, h7, h8⟩
  · simp [isOpen] at h2
    rcases h2 with (rfl | rfl) | rfl <;> simp
  · simp [isClose] at h6
    rcases h6 with (rfl | rfl) | rfl <;> simp

example : (demo c!"[1, {2, (3)]").expression demoSt true [] [] 0 = .error (.parse 4 (.mismatch ']' 11 '{')) := by decide +kernel

/-- Python text without placeholders, line ends and calls, followed by the given text: white space, names,
other tokens and bracketed texts, to any depth. Every token is what the tokenizer finds there. -/
inductive Flat (tok : Str → Option Nat) : Str → Str → Prop
  | nil (r : Str) : Flat tok r []
  | blank (r w s : Str) : w ≠ [] → (∀ c ∈ w, c ∈ c!" \t\x0c") → (∀ c, (s ++ r).head? = some c → c ∉ c!" \t\x0c") →
      Flat tok r s → Flat tok r (w ++ s)
  | token (r : Str) (c : Char) (t s : Str) : identStart c = false → c ∉ c!"()[]{} \t\x0c\r\n\\$" →
      tok (c :: t ++ (s ++ r)) = some (t.length + 1) → Flat tok r s → Flat tok r (c :: t ++ s)
  | name (r : Str) (c : Char) (t w s : Str) : identStart c = true → c :: t ≠ c!"for" → c :: t ≠ c!"c" →
      tok (c :: t ++ (w ++ (s ++ r))) = some (t.length + 1) → (∀ c ∈ w, c ∈ c!" \t\x0c") →
      (∀ c, (s ++ r).head? = some c → c ∉ c!" \t\x0c(") → Flat tok r s → Flat tok r (c :: t ++ (w ++ s))
  | group (r : Str) (o c : Char) (a s : Str) : Pair o c → Flat tok (c :: (s ++ r)) a → Flat tok r s → Flat tok r (o :: a ++ c :: s)

theorem peek_at {x : Cx} {a r : Str} {c : Char} (h : x.src = a ++ c :: r) (hb : x.bp = x.src.length) : x.peek a.length = some c := by
  unfold Cx.peek
  rw [hb, h]
  simp

theorem exprParts_open {x : Px} {st : GenVar.Settings} {en : Bool} {brk : List Str} {enc : List (Char × Nat)} {p : Nat} {c : Char} (n : Nat)
    (hp : x.peek p = some c) (ho : isOpen c = true) :
    x.exprParts (n + 1) st en brk enc p = (x.exprParts n st en brk ((c, p) :: enc) (p + 1) >>= fun (bs, q) => .ok ([c] :: bs, q)) := by
  conv_lhs => unfold Px.exprParts
  rw [hp]
  show (if isOpen c = true then _ else _) = _
  rw [if_pos ho]

theorem exprParts_close {x : Px} {st : GenVar.Settings} {en : Bool} {brk : List Str} {enc : List (Char × Nat)} {p e : Nat} {o c : Char} (n : Nat)
    (hp : x.peek p = some c) (hc : Pair o c) :
    x.exprParts (n + 1) st en brk ((o, e) :: enc) p = (x.exprParts n st en brk enc (p + 1) >>= fun (bs, q) => .ok ([c] :: bs, q)) := by
  conv_lhs => unfold Px.exprParts
  rw [hp]
  show (if isOpen c = true then _ else if _ then _ else if isClose c = true then _ else _) = _
  rw [if_neg (by cases hc <;> decide), if_neg (by simp), if_pos (by cases hc <;> rfl)]
  show (if closeOf o = c then _ else _) = _
  rw [if_pos (by cases hc <;> rfl)]

theorem rest_at {x : Cx} {a r : Str} (h : x.src = a ++ r) : x.rest a.length = r := by
  unfold Cx.rest; rw [h]; simp

theorem isWs_mem {c : Char} : isWs c = true ↔ c ∈ c!" \t\x0c" := by
  simp [isWs, or_assoc]

theorem ws_at {x : Cx} {a w r : Str} (h : x.src = a ++ w ++ r) (hb : x.bp = x.src.length) (hw : ∀ c ∈ w, c ∈ c!" \t\x0c")
    (hr : ∀ c, r.head? = some c → c ∉ c!" \t\x0c") : x.ws a.length = w := by
  unfold Cx.ws Cx.slice
  rw [hb, List.take_length, h, List.append_assoc, List.drop_left]
  rw [List.takeWhile_append_of_pos (fun c hc => isWs_mem.2 (hw c hc))]
  cases r with
  | nil => simp
  | cons c r =>
    have : isWs c = false := by
      have := hr c rfl
      rw [← isWs_mem] at this
      simpa using this
    simp [this]

theorem pyTok_at {x : Px} {a t r : Str} (h : x.src = a ++ t ++ r) (hb : x.bp = x.src.length) (ht : x.tok (t ++ r) = some t.length) :
    x.pyTok a.length = .ok (t, a.length + t.length) := by
  unfold Px.pyTok
  rw [rest_at (by rw [h, List.append_assoc]), ht]
  simp only [bind, Except.bind]
  unfold Cx.goto
  rw [if_pos (by rw [hb, h]; simp)]
  simp only
  rw [Cx.slice_prefix, rest_at (by rw [h, List.append_assoc])]
  simp

theorem novar_at {x : Cx} {a r : Str} {c : Char} (h : x.src = a ++ c :: r) (hv : x.cfg.var = c!"$") (hc : c ≠ '$') :
    x.matchVarInExpr a.length = false ∧ x.matchVarStart a.length = false := by
  have hr := rest_at h
  refine ⟨?_, ?_⟩
  · unfold Cx.matchVarInExpr; rw [hr, hv]; simp [stripPrefix?, hc.symm]
  · unfold Cx.matchVarStart; rw [hr, hv]; simp [stripPrefix?, hc.symm]

theorem exprParts_blank {x : Px} {st : GenVar.Settings} {en : Bool} {brk : List Str} {e : Char × Nat} {enc : List (Char × Nat)} {p : Nat} {c : Char}
    (n : Nat) (hp : x.peek p = some c) (hw : isWs c = true) :
    x.exprParts (n + 1) st en brk (e :: enc) p =
      (x.exprParts n st en brk (e :: enc) (p + (x.ws p).length) >>= fun (bs, q) => .ok (x.ws p :: bs, q)) := by
  conv_lhs => unfold Px.exprParts
  rw [hp]
  have hb := isWs_not_bracket hw
  rw [bracket_iff] at hb
  show (if isOpen c = true then _ else if _ then _ else if isClose c = true then _ else if isWs c = true then _ else _) = _
  rw [if_neg (fun h => hb (.inl h)), if_neg (by simp), if_neg (fun h => hb (.inr h)), if_pos hw]

theorem not_special {c : Char} (h : c ∉ c!"()[]{} \t\x0c\r\n\\$") :
    isOpen c = false ∧ isClose c = false ∧ isWs c = false ∧ c ≠ '\\' ∧ ¬ (c = '\r' ∨ c = '\n') ∧ c ≠ '$' := by
  simp at h
  simp [isOpen, isClose, isWs, h]

/-- The branches of the loop before a Python token is read. -/
theorem exprParts_pyTok {x : Px} {st : GenVar.Settings} {en : Bool} {e : Char × Nat} {enc : List (Char × Nat)} {a r : Str} {c : Char}
    (n : Nat) (h : x.src = a ++ c :: r) (hb : x.bp = x.src.length) (hv : x.cfg.var = c!"$") (hc : c ∉ c!"()[]{} \t\x0c\r\n\\$")
    {t : Str} {q : Nat} (htok : x.pyTok a.length = .ok (t, q)) (hnc : t ≠ c!"c") :
    x.exprParts (n + 1) st en [] (e :: enc) a.length =
      if headIs identStart t then
        if t = c!"for" then (do
          let (f, q2) ← x.exprParts n { st with useNameMapper := false } false [c!"in"] [] q
          let (bs, r) ← x.exprParts n st en [] (e :: enc) q2
          .ok (t :: f.flatten :: bs, r))
        else
          if x.peek (q + (x.ws q).length) = some '(' then (do
            let (g, q3) ← x.callArgs n st [('(', q + (x.ws q).length)] (q + (x.ws q).length + 1)
            let (bs, r) ← x.exprParts n st en [] (e :: enc) q3
            .ok (t :: x.ws q :: ('(' :: g) :: bs, r))
          else (do
            let (bs, r) ← x.exprParts n st en [] (e :: enc) (q + (x.ws q).length)
            .ok (t :: x.ws q :: bs, r))
      else (do
        let (bs, r) ← x.exprParts n st en [] (e :: enc) q
        .ok (t :: bs, r)) := by
  obtain ⟨h1, h2, h3, h4, h5, h6⟩ := not_special hc
  obtain ⟨v1, v2⟩ := novar_at (x := x.toCx) h hv h6
  conv_lhs => unfold Px.exprParts
  rw [peek_at h hb]
  show (if isOpen c = true then _ else if _ then _ else if isClose c = true then _ else if isWs c = true then _ else
    if _ then _ else if _ then _ else if _ then _ else if _ then _ else if _ then _ else _) = _
  rw [if_neg (by simp [h1]), if_neg (by simp), if_neg (by simp [h2]), if_neg (by simp [h3]), if_neg (by simp), if_neg (by simp [h4]), if_neg h5,
    if_neg (by rw [v1]; simp), if_neg (by rw [v2]; simp), htok]
  simp only [bind, Except.bind]
  rw [if_neg (by simp)]
  have ht : x.transform t q = .ok t := by unfold Px.transform; rw [if_neg (by simp [hnc])]
  simp only [ht]

theorem flat_read {x : Px} (st : GenVar.Settings) (en : Bool) (hb : x.bp = x.src.length) (hv : x.cfg.var = c!"$")
    {r s : Str} (hs : Flat x.tok r s) : ∀ (a : Str), x.src = a ++ s ++ r → ∃ k, k ≤ s.length ∧ ∃ bits : List Str, bits.flatten = s ∧
      ∀ (n : Nat) (e : Char × Nat) (enc : List (Char × Nat)),
        x.exprParts (n + k) st en [] (e :: enc) a.length =
          (x.exprParts n st en [] (e :: enc) (a.length + s.length) >>= fun (bs, q) => .ok (bits ++ bs, q)) := by
  induction hs with
  | nil r =>
    intro a h
    refine ⟨0, by simp, [], rfl, ?_⟩
    intro n e enc
    simp only [Nat.add_zero, List.length_nil, List.nil_append]
    cases x.exprParts n st en [] (e :: enc) a.length <;> rfl
  | blank r w s hne hw hr hs ih =>
    intro a h
    obtain ⟨k, hk, bits, hbits, hrec⟩ := ih (a ++ w) (by simp [h])
    have hl := List.length_pos_iff.2 hne
    refine ⟨k + 1, by simp; omega, w :: bits, by simp [hbits], ?_⟩
    intro n e enc
    have hws : x.ws a.length = w := ws_at (r := s ++ r) (by simp [h]) hb hw hr
    obtain ⟨c, w', rfl⟩ := List.exists_cons_of_ne_nil hne
    rw [← Nat.add_assoc, exprParts_blank _ (peek_at (c := c) (r := w' ++ s ++ r) (by simp [h]) hb) (isWs_mem.2 (hw c (by simp))), hws]
    have := hrec n e enc
    simp only [List.length_append] at this ⊢
    rw [this, Nat.add_assoc]
    cases x.exprParts n st en [] (e :: enc) (a.length + ((c :: w').length + s.length)) <;> rfl
  | token r c t s hi hc htok hs ih =>
    intro a h
    obtain ⟨k, hk, bits, hbits, hrec⟩ := ih (a ++ c :: t) (by simp [h])
    refine ⟨k + 1, by simp; omega, (c :: t) :: bits, by simp [hbits], ?_⟩
    intro n e enc
    have hp : x.pyTok a.length = .ok (c :: t, a.length + (c :: t).length) := pyTok_at (r := s ++ r) (by simp [h]) hb (by simpa using htok)
    rw [← Nat.add_assoc, exprParts_pyTok _ (r := t ++ (s ++ r)) (c := c) (by simp [h]) hb hv hc hp
      (by intro hh; simp at hh; rw [hh.1] at hi; revert hi; decide)]
    rw [if_neg (by simp [headIs, hi])]
    have := hrec n e enc
    simp only [List.length_append] at this ⊢
    rw [this, Nat.add_assoc]
    cases x.exprParts n st en [] (e :: enc) (a.length + ((c :: t).length + s.length)) <;> rfl
  | name r c t w s hi hfor hnc htok hw hr hs ih =>
    intro a h
    obtain ⟨k, hk, bits, hbits, hrec⟩ := ih (a ++ c :: t ++ w) (by simp [h])
    refine ⟨k + 1, by simp; omega, (c :: t) :: w :: bits, by simp [hbits], ?_⟩
    intro n e enc
    have hp : x.pyTok a.length = .ok (c :: t, a.length + (c :: t).length) := pyTok_at (r := w ++ (s ++ r)) (by simp [h]) hb (by simpa using htok)
    have hcs : c ∉ c!"()[]{} \t\x0c\r\n\\$" := by
      intro hm
      have hall : ∀ d ∈ c!"()[]{} \t\x0c\r\n\\$", identStart d = false := by decide
      rw [hall c hm] at hi; cases hi
    rw [← Nat.add_assoc, exprParts_pyTok _ (r := t ++ (w ++ (s ++ r))) (c := c) (by simp [h]) hb hv hcs hp hnc]
    rw [if_pos (by simp [headIs, hi]), if_neg hfor]
    have hws : x.ws (a.length + (c :: t).length) = w := by
      have := ws_at (x := x.toCx) (a := a ++ c :: t) (w := w) (r := s ++ r) (by simp [h]) hb hw
        (fun d hd hm => hr d hd (by simp at hm ⊢; tauto))
      simpa using this
    have := hrec n e enc
    simp only [List.length_append] at this ⊢
    rw [hws, if_neg, this, Nat.add_assoc, Nat.add_assoc]
    · cases x.exprParts n st en [] (e :: enc) (a.length + ((c :: t).length + (w.length + s.length))) <;> rfl
    · intro hpar
      have h2 := (Cx.peek_some hpar).2
      rw [show x.src = (a ++ c :: t ++ w) ++ (s ++ r) by simp [h], List.getElem?_append_right (by simp; omega)] at h2
      simp only [List.length_append, Nat.sub_self] at h2
      rw [← List.head?_eq_getElem?] at h2
      exact hr _ h2 (by simp)
  | group r o c b s hp _ _ ihb ihs =>
    intro a h
    obtain ⟨k1, hk1, bits1, hbits1, hrec1⟩ := ihb (a ++ [o]) (by simp [h])
    obtain ⟨k2, hk2, bits2, hbits2, hrec2⟩ := ihs (a ++ o :: b ++ [c]) (by simp [h])
    refine ⟨k2 + 1 + k1 + 1, by simp; omega, [o] :: bits1 ++ [c] :: bits2, by simp [hbits1, hbits2], ?_⟩
    intro n e enc
    have hpo := peek_at (x := x.toCx) (a := a) (c := o) (r := b ++ c :: s ++ r) (by simp [h]) hb
    have hpc := peek_at (x := x.toCx) (a := a ++ o :: b) (c := c) (r := s ++ r) (by simp [h]) hb
    have e1 := hrec1 (n + k2 + 1) (o, a.length) (e :: enc)
    have e2 := hrec2 n e enc
    simp only [List.length_append, List.length_cons, List.length_nil] at e1 e2 hpc ⊢
    rw [show n + (k2 + 1 + k1 + 1) = (n + k2 + 1 + k1) + 1 by omega, exprParts_open _ hpo (by cases hp <;> rfl), e1,
      show a.length + (0 + 1) + b.length = a.length + (b.length + 1) by omega, exprParts_close _ hpc hp, 
      show a.length + (b.length + 1) + 1 = a.length + (b.length + 1) + (0 + 1) by omega, e2,
      show a.length + (b.length + 1 + (s.length + 1)) = a.length + (b.length + 1) + (0 + 1) + s.length by omega]
    cases x.exprParts n st en [] (e :: enc) (a.length + (b.length + 1) + (0 + 1) + s.length) <;> simp [bind, Except.bind]

/-- Every bracketed Python text without placeholders, of whatever depth, is accepted and copied
unchanged, if no further bracket follows it. -/
theorem C37_nested_accepted (x : Px) (st : GenVar.Settings) (hb : x.bp = x.src.length) (hv : x.cfg.var = c!"$")
    (pre s r : Str) (o c : Char) (hp : Pair o c) (hs : Flat x.tok (c :: r) s) (hsrc : x.src = pre ++ (o :: s ++ [c]) ++ r)
    (hr : ∀ d, r.head? = some d → d ∉ c!"([{") :
    x.expression st true [] [] pre.length = .ok (o :: s ++ [c], pre.length + s.length + 2) := by
  unfold Px.expression
  have hpo := peek_at (x := x.toCx) (a := pre) (c := o) (r := s ++ c :: r) (by simp [hsrc]) hb
  have hpc := peek_at (x := x.toCx) (a := pre ++ o :: s) (c := c) (r := r) (by simp [hsrc]) hb
  obtain ⟨k, hk, bits, hbits, hrec⟩ := flat_read st true hb hv hs (pre ++ [o]) (by simp [hsrc])
  obtain ⟨m, hm⟩ : ∃ m, x.fuel pre.length = m + 1 + 1 + k + 1 := by
    have : x.bp = pre.length + (s.length + 2) + r.length := by rw [hb, hsrc]; simp; omega
    exact ⟨x.fuel pre.length - k - 3, by unfold Px.fuel; omega⟩
  rw [hm]
  have e1 := hrec (m + 1 + 1) (o, pre.length) []
  simp only [List.length_append, List.length_cons, List.length_nil] at e1 hpc
  rw [exprParts_open _ hpo (by cases hp <;> rfl), show pre.length + 1 = pre.length + (0 + 1) by omega, e1,
    show pre.length + (0 + 1) + s.length = pre.length + (s.length + 1) by omega, exprParts_close _ hpc hp]
  have hstop : x.exprParts (m + 1) st true [] [] (pre.length + (s.length + 1) + 1) = .ok ([], pre.length + (s.length + 1) + 1) := by
    cases hq : x.peek (pre.length + (s.length + 1) + 1) with
    | none => unfold Px.exprParts; rw [hq]
    | some d =>
      have hd : r.head? = some d := by
        have := (Cx.peek_some hq).2
        rw [hsrc] at this
        rw [List.getElem?_append_right (by simp; omega)] at this
        simp only [List.length_append, List.length_cons, List.length_nil] at this
        rw [show pre.length + (s.length + 1) + 1 - (pre.length + (s.length + 1 + (0 + 1))) = 0 by omega] at this
        rw [List.head?_eq_getElem?]
        exact this
      conv_lhs => unfold Px.exprParts
      rw [hq]
      show (if isOpen d = true then _ else if _ then _ else _) = _
      rw [if_neg (fun h => hr d hd (by simp [isOpen] at h ⊢; rcases h with (h | h) | h <;> simp [h])), if_pos (by simp)]
  rw [hstop]
  simp [bind, Except.bind, hbits]
  omega

example : (demo c!"[(1, {}),[[x + 'b']]] y").expression demoSt true [] [] 0 = .ok (c!"[(1, {}),[[x + 'b']]]", 21) := by decide +kernel
example : Flat simpleTok c!"]" c!"(1,a )" :=
  .group _ '(' ')' c!"1,a " [] .round
    (.token _ '1' [] c!",a " rfl (by decide) (by decide) (.token _ ',' [] c!"a " rfl (by decide) (by decide)
      (.name _ 'a' [] c!" " [] rfl (by decide) (by decide) (by decide) (by decide) (by decide) (.nil _)))) (.nil _)

/-! ### C67: where a bracketed placeholder ends -/

/-- A placeholder written `$` and a bracket is read up to the bracket that closes it, unless an opening
bracket follows directly; then the bracketed text after it is read too. -/
theorem C67_placeholder_end_partial (x : Px) (hg : Good x) (st : GenVar.Settings) (p q : Nat) (ph : Placeholder) (o : Char)
    (ho : Bracket o) (hsrc : x.src[p + x.cfg.var.length]? = some o) (h : x.placeholder st p = .ok (ph, q)) :
    ∃ c a g, ph.raw = x.cfg.var ++ o :: a ++ c :: g ∧ Pair o c ∧ Matched x.tok a ∧
      (g = [] ∨ ∃ o', (o' = '(' ∨ o' = '[' ∨ o' = '{') ∧ g.head? = some o') := by
  have key : Res x (fun (ph, _) => ∃ c a g, ph.raw = x.cfg.var ++ o :: a ++ c :: g ∧ Pair o c ∧ Matched x.tok a ∧ Groups x.tok g) 0 0
      (x.placeholder st p) := by
    unfold Px.placeholder
    have hrest : x.rest (p + x.cfg.var.length) = o :: x.src.drop (p + x.cfg.var.length + 1) := by
      unfold Cx.rest
      rw [List.getElem?_eq_some_iff] at hsrc
      obtain ⟨hl, h2⟩ := hsrc
      rw [List.drop_eq_getElem_cons hl, h2]
    have h1 : Res x (fun q => q = p + x.cfg.var.length ∧ q ≤ x.bp ∧ x.slice p q = x.cfg.var ∧ isOpen o = true) 0 0 (x.varStart false p) := by
      unfold Px.varStart
      rw [if_neg (by simp)]
      cases hv : x.matchVarTok p with
      | none => exact ⟨trivial, by simp⟩
      | some q =>
        refine (Px.goto_res q).mono (by omega) ?_
        rintro r ⟨rfl, hr⟩
        unfold Cx.matchVarTok at hv
        split at hv
        · split at hv
          · rename_i t ht
            split at hv
            · rename_i hh
              simp only [Option.some.injEq] at hv
              have hst := stripPrefix?_eq _ _ _ ht
              refine ⟨hv.symm, hr, ?_, ?_⟩
              · rw [← hv, Cx.slice_prefix, hst]; simp
              · have ht' : t = x.rest (p + x.cfg.var.length) := by
                  unfold Cx.rest at hst ⊢
                  rw [← List.drop_drop, hst]; simp
                rw [ht', hrest] at hh
                simp only [headIs, Bool.or_eq_true, beq_iff_eq] at hh
                rcases hh with ((hh | rfl) | rfl) | hh
                · exact absurd ho (identChar_not_bracket (identStart_identChar hh))
                · exact absurd ho (by decide)
                · exact absurd ho (by decide)
                · exact hh
            · cases hv
          · cases hv
        · cases hv
    refine h1.bind (by omega) ?_
    rintro p1 ⟨rfl, k1, k2, k3⟩
    have hs : x.silentAndCache (p + x.cfg.var.length) = .ok (false, .none, p + x.cfg.var.length) := by
      unfold Px.silentAndCache
      have a1 : afterSilent (x.rest (p + x.cfg.var.length)) = x.rest (p + x.cfg.var.length) := by
        rw [hrest]; unfold afterSilent; split
        · rename_i heq; simp at heq; rw [heq.1] at ho; exact absurd ho (by decide)
        · rfl
      have a2 : Interval.readToken (x.rest (p + x.cfg.var.length)) = (.none, x.rest (p + x.cfg.var.length)) := by
        rw [hrest]
        simp [isOpen] at k3
        rcases k3 with (rfl | rfl) | rfl <;> rfl
      simp only [a1, a2]
      rw [if_pos (by omega)]
      simp
    rw [hs]
    simp only [bind, Except.bind]
    refine (Px.phOpen_res k1).bind (f := fun (enc, p3) => x.phBody st enc p3 >>= fun ((e, f), q) =>
      .ok ((⟨e, x.slice p q, f, .none, false⟩ : Placeholder), q)) (by omega) ?_
    rintro ⟨enc, p3⟩ ⟨m1, m2, m3, m4⟩
    rcases m3 with ⟨_, _, h⟩ | ⟨o', rfl, h⟩
    · rw [h o hsrc] at k3; cases k3
    · have m4' := m4
      obtain ⟨j1, j2, j3, j4, _⟩ := m4
      have : o' = o := by rw [hsrc] at j2; simpa using j2.symm
      subst this
      refine (Px.phBody_res hg st m2 m4' (.inr ⟨_, _, rfl⟩)).bind (by omega) ?_
      rintro ⟨⟨e, f⟩, q⟩ ⟨n1, n2, _, n4⟩
      obtain ⟨a, g, c, l1, l2, l3, l4⟩ := (n4 _ _ rfl).prepend (by simp) j4
      refine ⟨c, a, g, ?_, l2, l3, l4⟩
      show x.slice p q = _
      rw [Cx.slice_append x.toCx (by omega : p ≤ p + x.cfg.var.length) (by omega), k2,
        Cx.slice_append x.toCx (by omega : p + x.cfg.var.length ≤ p + x.cfg.var.length + 1) (by omega), Cx.slice_one j2,
        Cx.slice_append x.toCx (by omega : p + x.cfg.var.length + 1 ≤ p3) (by omega), l1]
      simp
  obtain ⟨c, a, g, h1, h2, h3, h4⟩ := key.of_ok h
  refine ⟨c, a, g, h1, h2, h3, ?_⟩
  cases h4 with
  | nil => exact .inl rfl
  | cons o' c' a' s' hp' _ _ =>
    refine .inr ⟨o', ?_, rfl⟩
    cases hp' <;> simp

example : (demo c!"${a + (b)} c").placeholder demoSt 0 =
    .ok (⟨c!"a + (b)", c!"${a + (b)}", none, .none, false⟩, 10) := by decide +kernel
example : (demo c!"$(1 + [2]).c").placeholder demoSt 0 =
    .ok (⟨c!"1 + [2]", c!"$(1 + [2])", none, .none, false⟩, 10) := by decide +kernel

/-- When an opening bracket follows the placeholder, the text after it is swallowed and the
expression is not a Python expression: `${a + 1}(see b)` reads `a + 1}(see b)`. -/
theorem C67_swallowed_counterexample :
    (demo c!"${a + 1}(see b)").placeholder demoSt 0 =
      .ok (⟨c!"a + 1}(see b)", c!"${a + 1}(see b)", none, .none, false⟩, 15) := by decide +kernel

-- A name in the brackets alone is not affected.
example : (demo c!"${a}(see b)").placeholder demoSt 0 =
    .ok (⟨c!"a", c!"${a}", none, .none, false⟩, 4) := by decide +kernel

/-! ### C39: reading an expression ends -/

/-- Reading an expression, an argument list or a placeholder ends: whatever the text, the recursion is never
deeper than four times the length of what is left of it. -/
theorem C39_expression_terminates_partial (x : Px) (hg : Good x) (st : GenVar.Settings) (p : Nat) :
    (∀ en brk, p ≤ x.bp → x.expression st en brk [] p ≠ .error .fuel) ∧ (p < x.bp → x.callArgString st p ≠ .error .fuel) ∧
      x.placeholder st p ≠ .error .fuel := by
  refine ⟨fun en brk hp h => ?_, fun hp h => ?_, fun h => ?_⟩
  · exact absurd (((Px.expression_res hg st en brk [] p hp trivial).of_error h).2 rfl) (by omega)
  · exact absurd (((Px.callArgString_res hg st p hp).of_error h).2 rfl) (by omega)
  · exact absurd (((Px.placeholder_res hg st p).of_error h).2 rfl) (by omega)

example : Good (demo c!"$f($g($h(1)))") := demo_good _

end Cheetah.Parser
