import Verif.Props.ParserExpr
/-
C41: argument lists of definitions survive parsing.
-/
namespace Cheetah.Parser

/-! ### Specification -/

/-- The name of an argument: an identifier, or one after `*` or `**`. -/
def ArgName (n : Str) : Prop := ∃ stars i, n = stars ++ i ∧ stars ∈ [c!"", c!"*", c!"**"] ∧ headIs identStart i = true ∧ ∀ c ∈ i, identChar c = true

/-- A default value followed by the given text: white space, tokens of Python and bracketed texts. -/
inductive Default (tok : Str → Option Nat) (r : Str) : Str → Prop
  | nil : Default tok r []
  | blank (c : Char) (s : Str) : c ∈ c!" \t\x0c\r\n" → Default tok r s → Default tok r (c :: s)
  | token (c : Char) (t s : Str) : c ∉ c!"()[]{} \t\x0c\r\n=,:#$" → tok (c :: t ++ (s ++ r)) = some (t.length + 1) →
      c :: t ≠ c!"c" → Default tok r s → Default tok r (c :: t ++ s)
  | group (o c : Char) (a s : Str) : Pair o c → Flat tok (c :: (s ++ r)) a → (∀ d, (s ++ r).head? = some d → d ∉ c!"([{") →
      Default tok r s → Default tok r (o :: a ++ c :: s)

/-- One argument as it may be written before the text `r`: white space, perhaps a `$`, the name, white
space, and perhaps `=` and the default value. -/
inductive One (tok : Str → Option Nat) : Str × Option Str → Str → Str → Prop
  | plain (n w w' r : Str) (dollar : Bool) : ArgName n → (∀ c ∈ w, c ∈ c!" \t\x0c\r\n") → (∀ c ∈ w', c ∈ c!" \t\x0c\r\n") →
      One tok (n, none) r (w ++ ((if dollar then c!"$" else []) ++ (n ++ (w' ++ r))))
  | dflt (n w w' d e r : Str) (dollar : Bool) : ArgName n → (∀ c ∈ w, c ∈ c!" \t\x0c\r\n") → (∀ c ∈ w', c ∈ c!" \t\x0c\r\n") →
      Default tok r e → strip e = d → d ≠ [] →
      One tok (n, some d) r (w ++ ((if dollar then c!"$" else []) ++ (n ++ (w' ++ '=' :: (e ++ r)))))

/-- A list of arguments as it may be written, with the closing parenthesis and the text `r` after it. -/
inductive Written (tok : Str → Option Nat) (r : Str) : List (Str × Option Str) → Str → Prop
  | nil (w : Str) : (∀ c ∈ w, c ∈ c!" \t\x0c\r\n") → Written tok r [] (w ++ ')' :: r)
  | last (a : Str × Option Str) (t : Str) : One tok a (')' :: r) t → Written tok r [a] t
  | cons (a : Str × Option Str) (as : List (Str × Option Str)) (t u : Str) : Written tok r as t → One tok a (',' :: t) u → Written tok r (a :: as) u

/-! ### The loop -/

section
variable {x : Px} (st : GenVar.Settings) (hb : x.bp = x.src.length) (hcfg : x.cfg = Cfg.std)
  (htokb : ∀ o r, o ∈ c!"([{" → x.tok (o :: r) = some 1)

theorem blank_cases {c : Char} (h : c ∈ c!" \t\x0c\r\n") : isWs c = true ∨ c = '\r' ∨ c = '\n' := by
  simp at h; simp [isWs]; grind

theorem dirEnd_none {a r : Str} {c : Char} (h : x.src = a ++ c :: r) (hcfg : x.cfg = Cfg.std) (hc : c ≠ '#') :
    (x.matchTok x.cfg.dirEnd a.length).isSome = false := by
  unfold Cx.matchTok
  rw [rest_at h, hcfg, show Cfg.std.dirEnd = c!"#" from rfl]
  simp [startsWith, stripPrefix?, hc.symm]

include hb hcfg

theorem defArgs_blank (onDef : Bool) {a r : Str} {c : Char} (h : x.src = a ++ c :: r) (hc : c ∈ c!" \t\x0c\r\n") (n : Nat) (al : ArgList) :
    x.defArgs (n + 1) st none onDef al a.length =
      if onDef then (do
        let al ← al.addDefault [c]
        x.defArgs n st none onDef al (a.length + 1))
      else x.defArgs n st none onDef al (a.length + 1) := by
  conv_lhs => unfold Px.defArgs
  rw [peek_at h hb]
  have hd : (x.matchTok x.cfg.dirEnd a.length).isSome = false := dirEnd_none h hcfg (by rintro rfl; revert hc; decide)
  have hc2 : c ≠ ')' ∧ c ≠ ':' := by constructor <;> (rintro rfl; revert hc; decide)
  simp only [reduceCtorEq, if_false, hd, hc2.1, hc2.2, false_or, Bool.false_eq_true]
  rw [if_pos (blank_cases hc)]

theorem defArgs_blanks {w : Str} (hw : ∀ c ∈ w, c ∈ c!" \t\x0c\r\n") : ∀ {a r : Str}, x.src = a ++ w ++ r → ∀ (n : Nat) (al : ArgList),
    x.defArgs (n + w.length) st none false al a.length = x.defArgs n st none false al (a.length + w.length) := by
  induction w with
  | nil => intros; rfl
  | cons c w ih =>
    intro a r h n al
    rw [List.length_cons, ← Nat.add_assoc, defArgs_blank st hb hcfg false (r := w ++ r) (by simp [h]) (hw c (by simp)), if_neg (by simp)]
    have := ih (fun d hd => hw d (by simp [hd])) (a := a ++ [c]) (r := r) (by simp [h]) n al
    simp only [List.length_append, List.length_cons, List.length_nil, Nat.zero_add] at this
    rw [this, Nat.add_assoc, Nat.add_comm 1]

theorem defArgs_eq (onDef : Bool) {a r : Str} (h : x.src = a ++ '=' :: r) (n : Nat) (al : ArgList) :
    x.defArgs (n + 1) st none onDef al a.length = x.defArgs n st none true al (a.length + 1) := by
  conv_lhs => unfold Px.defArgs
  rw [peek_at h hb]
  have hd : (x.matchTok x.cfg.dirEnd a.length).isSome = false := dirEnd_none h hcfg (by decide)
  simp only [reduceCtorEq, if_false, hd, false_or, Bool.false_eq_true]
  rw [if_neg (by decide), if_neg (by decide), if_neg (by decide), if_pos trivial]

theorem defArgs_comma (onDef : Bool) {a r : Str} (h : x.src = a ++ ',' :: r) (n : Nat) (al : ArgList) :
    x.defArgs (n + 1) st none onDef al a.length = x.defArgs n st none false al.next (a.length + 1) := by
  conv_lhs => unfold Px.defArgs
  rw [peek_at h hb]
  have hd : (x.matchTok x.cfg.dirEnd a.length).isSome = false := dirEnd_none h hcfg (by decide)
  simp only [reduceCtorEq, if_false, hd, false_or, Bool.false_eq_true]
  rw [if_neg (by decide), if_neg (by decide), if_neg (by decide), if_neg (by decide), if_pos trivial]

theorem defArgs_close (onDef : Bool) {a r : Str} (h : x.src = a ++ ')' :: r) (n : Nat) (al : ArgList) :
    x.defArgs (n + 1) st none onDef al a.length = .ok (al, a.length) := by
  conv_lhs => unfold Px.defArgs
  rw [peek_at h hb]
  simp

theorem defArgs_dollar {a r : Str} (h : x.src = a ++ '$' :: r) (n : Nat) (al : ArgList) :
    x.defArgs (n + 1) st none false al a.length = x.defArgs n st none false al (a.length + 1) := by
  conv_lhs => unfold Px.defArgs
  rw [peek_at h hb]
  have hd : (x.matchTok x.cfg.dirEnd a.length).isSome = false := dirEnd_none h hcfg (by decide)
  have hs : startsWith (x.rest a.length) x.cfg.var = true := by
    rw [rest_at h, hcfg, show Cfg.std.var = c!"$" from rfl]; simp [startsWith, stripPrefix?]
  simp only [reduceCtorEq, if_false, hd, false_or, Bool.false_eq_true]
  rw [if_neg (by decide), if_neg (by decide), if_neg (by decide), if_neg (by decide), if_neg (by decide), if_pos ⟨hs, trivial⟩]
  rw [hcfg, show Cfg.std.var.length = 1 from rfl]
  unfold Cx.goto
  rw [if_pos (by rw [hb, h]; simp)]
  rfl

theorem identifier_at {a i r : Str} (h : x.src = a ++ i ++ r) (hi : headIs identStart i = true) (hic : ∀ c ∈ i, identChar c = true)
    (hr : ∀ c, r.head? = some c → identChar c = false) : x.identifier a.length = .ok (i, a.length + i.length) := by
  unfold Px.identifier
  have hrest : x.rest a.length = i ++ r := rest_at (by simp [h])
  have htw : (i ++ r).takeWhile identChar = i := by
    rw [List.takeWhile_append_of_pos hic]
    cases r with
    | nil => simp
    | cons c r => simp [hr c rfl]
  have hh : headIs identStart (i ++ r) = true := by
    cases i with
    | nil => cases hi
    | cons c i => exact hi
  rw [hrest, if_pos hh, htw]
  unfold Cx.goto
  rw [if_pos (by rw [hb, h]; simp)]
  simp only [bind, Except.bind]
  rw [Cx.slice_prefix, hrest]
  simp

theorem defArgs_ident {a i r : Str} (h : x.src = a ++ i ++ r) (hi : headIs identStart i = true) (hic : ∀ c ∈ i, identChar c = true)
    (hr : ∀ c, r.head? = some c → identChar c = false) (n : Nat) (al : ArgList) :
    x.defArgs (n + 1) st none false al a.length = x.defArgs n st none false (al.addArgument i) (a.length + i.length) := by
  have hid := identifier_at hb hcfg h hi hic hr
  cases i with
  | nil => cases hi
  | cons c i =>
    conv_lhs => unfold Px.defArgs
    rw [peek_at (c := c) (r := i ++ r) (by simp [h]) hb]
    have hsp : ∀ d ∈ c!")#: \t\x0c\r\n=,$", c ≠ d := by
      rintro d hd rfl
      have hall : ∀ e ∈ c!")#: \t\x0c\r\n=,$", identStart e = false := by decide
      rw [show headIs identStart (c :: i) = identStart c from rfl, hall c hd] at hi
      cases hi
    have hws : ¬ (isWs c = true ∨ c = '\r' ∨ c = '\n') := by
      simp only [isWs, Bool.or_eq_true, beq_iff_eq]
      rintro (((h | h) | h) | h | h)
      · exact hsp ' ' (by decide) h
      · exact hsp '\t' (by decide) h
      · exact hsp '\x0c' (by decide) h
      · exact hsp '\r' (by decide) h
      · exact hsp '\n' (by decide) h
    have hd : (x.matchTok x.cfg.dirEnd a.length).isSome = false := dirEnd_none (c := c) (r := i ++ r) (by simp [h]) hcfg (hsp '#' (by decide))
    have hs : startsWith (x.rest a.length) x.cfg.var = false := by
      rw [rest_at (r := c :: (i ++ r)) (by simp [h]), hcfg, show Cfg.std.var = c!"$" from rfl]
      simp [startsWith, stripPrefix?, (hsp '$' (by decide)).symm]
    have hst : identStart c = true := hi
    simp only [reduceCtorEq, if_false, hd, Bool.false_eq_true, or_false]
    rw [if_neg (hsp ')' (by decide)), if_neg (hsp ':' (by decide)), if_neg hws, if_neg (hsp '=' (by decide)), if_neg (hsp ',' (by decide)),
      if_neg (by simp [hs]), if_pos ⟨hst, trivial⟩, hid]
    rfl

theorem defArgs_star {a stars i r : Str} (hst : stars = c!"*" ∨ stars = c!"**") (h : x.src = a ++ (stars ++ i) ++ r) (hi : headIs identStart i = true)
    (hic : ∀ c ∈ i, identChar c = true) (hr : ∀ c, r.head? = some c → identChar c = false) (n : Nat) (al : ArgList) :
    x.defArgs (n + 1) st none false al a.length = x.defArgs n st none false (al.addArgument (stars ++ i)) (a.length + (stars ++ i).length) := by
  have hid := identifier_at hb hcfg (a := a ++ stars) (i := i) (r := r) (by simp [h]) hi hic hr
  obtain ⟨c, i', rfl⟩ : ∃ c i', i = c :: i' := by
    cases i with
    | nil => cases hi
    | cons c i => exact ⟨c, i, rfl⟩
  have hcs : identStart c = true := hi
  have hcne : c ≠ '*' := by rintro rfl; revert hcs; decide
  obtain ⟨s', hs'⟩ : ∃ s', stars = '*' :: s' := by rcases hst with rfl | rfl <;> exact ⟨_, rfl⟩
  have hsrc : x.src = a ++ '*' :: (s' ++ (c :: i' ++ r)) := by rw [h, hs']; simp
  conv_lhs => unfold Px.defArgs
  rw [peek_at hsrc hb]
  have hd : (x.matchTok x.cfg.dirEnd a.length).isSome = false := dirEnd_none hsrc hcfg (by decide)
  have hs : startsWith (x.rest a.length) x.cfg.var = false := by
    rw [rest_at hsrc, hcfg, show Cfg.std.var = c!"$" from rfl]; simp [startsWith, stripPrefix?]
  simp only [reduceCtorEq, if_false, hd, Bool.false_eq_true, or_false]
  rw [if_neg (by decide), if_neg (by decide), if_neg (by decide), if_neg (by decide), if_neg (by decide), if_neg (by simp [hs]), if_neg (by simp [show identStart '*' = false from rfl]),
    if_pos trivial]
  have hpk : x.peek! (a.length + 1) = .ok (if stars = c!"**" then '*' else c) := by
    unfold Cx.peek!
    rw [if_neg (by rw [hb, hsrc]; simp)]
    have : x.src[a.length + 1]? = some (if stars = c!"**" then '*' else c) := by
      rw [h, List.append_assoc, List.getElem?_append_right (by omega)]
      rcases hst with rfl | rfl <;> simp
    rw [this]
  rw [hpk]
  simp only [bind, Except.bind]
  have hstars : (if (if stars = c!"**" then '*' else c) = '*' then c!"**" else c!"*") = stars := by
    rcases hst with rfl | rfl <;> simp [hcne]
  rw [hstars]
  have hr2 : x.rest (a.length + stars.length) = c :: i' ++ r := by
    rw [← List.length_append]; exact rest_at (by rw [h]; simp)
  rw [List.length_append] at hid
  rw [hr2, if_pos (by simp [headIs, hcs]), hid]
  simp [Nat.add_assoc]

theorem defArgs_name {a m r : Str} (hm : ArgName m) (h : x.src = a ++ m ++ r) (hr : ∀ c, r.head? = some c → identChar c = false) (n : Nat) (al : ArgList) :
    x.defArgs (n + 1) st none false al a.length = x.defArgs n st none false (al.addArgument m) (a.length + m.length) := by
  obtain ⟨stars, i, rfl, hst, hi, hic⟩ := hm
  simp only [List.mem_cons, List.not_mem_nil, or_false] at hst
  rcases hst with rfl | hst
  · exact defArgs_ident st hb hcfg h hi hic hr n al
  · exact defArgs_star st hb hcfg hst h hi hic hr n al

include htokb in
/-- The loop on a default value. -/
theorem defArgs_default {r e : Str} (he : Default x.tok r e) : ∀ {a : Str}, x.src = a ++ e ++ r →
    ∃ k, k ≤ e.length ∧ ∀ (n : Nat) (ns : List Str) (ds : List (Option Str)) (d : Option Str),
      (d = none → e ≠ []) →
      x.defArgs (n + k) st none true ⟨ns, ds ++ [d], ds.length⟩ a.length =
        x.defArgs n st none true ⟨ns, ds ++ [some (d.getD [] ++ e)], ds.length⟩ (a.length + e.length) := by
  induction he with
  | nil =>
    intro a h
    refine ⟨0, by simp, fun n ns ds d hd => ?_⟩
    cases d with
    | none => exact absurd rfl (hd rfl)
    | some d => simp
  | blank c s hc hs ih =>
    intro a h
    obtain ⟨k, hk, hrec⟩ := ih (a := a ++ [c]) (by simp [h])
    refine ⟨k + 1, by simp; omega, fun n ns ds d _ => ?_⟩
    rw [← Nat.add_assoc, defArgs_blank st hb hcfg true (r := s ++ r) (by simp [h]) hc, if_pos rfl]
    have := hrec n ns ds (some (d.getD [] ++ [c])) (by simp)
    simp only [List.length_append, List.length_cons, List.length_nil, Nat.zero_add, Option.getD_some, List.append_assoc, List.singleton_append] at this
    simp only [ArgList.addDefault, List.getElem?_append_right (Nat.le_refl _), Nat.sub_self, List.getElem?_cons_zero, bind, Except.bind,
      List.set_append_right _ _ (Nat.le_refl _), List.set_cons_zero]
    rw [this]
    simp [Nat.add_comm, Nat.add_left_comm, Nat.add_assoc]
  | token c t s hc htok hnc hs ih =>
    intro a h
    obtain ⟨k, hk, hrec⟩ := ih (a := a ++ c :: t) (by simp [h])
    refine ⟨k + 1, by simp; omega, fun n ns ds d _ => ?_⟩
    have hsrc : x.src = a ++ c :: (t ++ (s ++ r)) := by simp [h]
    have hsp : ∀ e ∈ c!"()[]{} \t\x0c\r\n=,:#$", c ≠ e := by rintro e he rfl; exact hc he
    have hws : ¬ (isWs c = true ∨ c = '\r' ∨ c = '\n') := by
      simp only [isWs, Bool.or_eq_true, beq_iff_eq]
      rintro (((h | h) | h) | h | h)
      · exact hsp ' ' (by decide) h
      · exact hsp '\t' (by decide) h
      · exact hsp '\x0c' (by decide) h
      · exact hsp '\r' (by decide) h
      · exact hsp '\n' (by decide) h
    have hp : x.pyTok a.length = .ok (c :: t, a.length + (c :: t).length) := pyTok_at (r := s ++ r) (by simp [h]) hb (by simpa using htok)
    obtain ⟨v1, v2⟩ := novar_at (x := x.toCx) hsrc (by rw [hcfg]; rfl) (hsp '$' (by decide))
    have htr : x.transform (c :: t) (a.length + (c :: t).length) = .ok (c :: t) := by unfold Px.transform; rw [if_neg (fun hh => hnc hh.1)]
    have hdt : x.defaultToken st a.length = .ok (c :: t, a.length + (c :: t).length) := by
      unfold Px.defaultToken
      rw [v1, v2, hp, if_neg (by simp), if_neg (by simp)]
      simp only [bind, Except.bind]
      rw [if_neg, htr]
      have h1 := hsp '{' (by decide); have h2 := hsp '(' (by decide); have h3 := hsp '[' (by decide)
      rintro (hh | hh | hh) <;> simp at hh
      · exact h1 hh.1
      · exact h2 hh.1
      · exact h3 hh.1
    rw [← Nat.add_assoc]
    conv_lhs => unfold Px.defArgs
    rw [peek_at hsrc hb]
    have hd' : (x.matchTok x.cfg.dirEnd a.length).isSome = false := dirEnd_none hsrc hcfg (hsp '#' (by decide))
    simp only [reduceCtorEq, if_false, hd', Bool.false_eq_true, or_false]
    rw [if_neg (hsp ')' (by decide)), if_neg (hsp ':' (by decide)), if_neg hws, if_neg (hsp '=' (by decide)), if_neg (hsp ',' (by decide)),
      if_neg (by simp), if_neg (by simp), if_pos trivial, hdt]
    have := hrec n ns ds (some (d.getD [] ++ c :: t)) (by simp)
    simp only [List.length_append, Option.getD_some, List.append_assoc] at this
    simp only [ArgList.addDefault, List.getElem?_append_right (Nat.le_refl _), Nat.sub_self, List.getElem?_cons_zero, bind, Except.bind,
      List.set_append_right _ _ (Nat.le_refl _), List.set_cons_zero]
    rw [this]
    simp [Nat.add_comm, Nat.add_left_comm, Nat.add_assoc]
  | group o c b s hpair hfl hnext hs ih =>
    intro a h
    obtain ⟨k, hk, hrec⟩ := ih (a := a ++ o :: b ++ [c]) (by simp [h])
    refine ⟨k + 1, by simp; omega, fun n ns ds d _ => ?_⟩
    have hsrc : x.src = a ++ o :: (b ++ c :: (s ++ r)) := by simp [h]
    have ho : o ∈ c!"([{" := by cases hpair <;> decide
    have hsp : ∀ e ∈ c!") \t\x0c\r\n=,:#$", o ≠ e := by cases hpair <;> decide
    have hws : ¬ (isWs o = true ∨ o = '\r' ∨ o = '\n') := by cases hpair <;> decide
    have hsrc2 : x.src = a ++ (o :: b ++ [c]) ++ (s ++ r) := by simp [h]
    have hexp := C37_nested_accepted x st hb (by rw [hcfg]; rfl) a b (s ++ r) o c hpair hfl hsrc2 hnext
    obtain ⟨v1, v2⟩ := novar_at (x := x.toCx) hsrc (by rw [hcfg]; rfl) (hsp '$' (by decide))
    rw [← Nat.add_assoc]
    conv_lhs => unfold Px.defArgs
    rw [peek_at hsrc hb]
    have hd' : (x.matchTok x.cfg.dirEnd a.length).isSome = false := dirEnd_none hsrc hcfg (hsp '#' (by decide))
    simp only [reduceCtorEq, if_false, hd', Bool.false_eq_true, or_false]
    rw [if_neg (hsp ')' (by decide)), if_neg (hsp ':' (by decide)), if_neg hws, if_neg (hsp '=' (by decide)), if_neg (hsp ',' (by decide)),
      if_neg (by simp), if_neg (by simp), if_pos trivial]
    have hpk : x.tok (o :: (b ++ c :: (s ++ r))) = some 1 := htokb o _ ho
    have hp : x.pyTok a.length = .ok ([o], a.length + 1) := pyTok_at (t := [o]) (r := b ++ c :: (s ++ r)) (by simp [h]) hb (by simpa using hpk)
    have hdt : x.defaultToken st a.length = .ok (o :: b ++ [c], a.length + b.length + 2) := by
      unfold Px.defaultToken
      rw [v1, v2, hp, if_neg (by simp), if_neg (by simp)]
      simp only [bind, Except.bind]
      rw [if_pos (by simp at ho; rcases ho with rfl | rfl | rfl <;> simp), Nat.add_sub_cancel, hexp]
    rw [hdt]
    have := hrec n ns ds (some (d.getD [] ++ (o :: b ++ [c]))) (by simp)
    simp only [List.length_append, List.length_cons, List.length_nil, Option.getD_some, List.append_assoc] at this
    simp only [ArgList.addDefault, List.getElem?_append_right (Nat.le_refl _), Nat.sub_self, List.getElem?_cons_zero, bind, Except.bind,
      List.set_append_right _ _ (Nat.le_refl _), List.set_cons_zero]
    rw [show a.length + b.length + 2 = a.length + (b.length + 1 + (0 + 1)) by omega]
    rw [this]
    simp [Nat.add_comm, Nat.add_left_comm, Nat.add_assoc]

omit hb hcfg in
theorem identChar_not_space {c : Char} (h : identChar c = true) : isSpace c = false := by
  have hr : 48 ≤ c.toNat ∧ c.toNat ≤ 122 := by
    simp only [identChar, Char.isAlphanum, Char.isAlpha, Char.isUpper, Char.isLower, Char.isDigit, Bool.or_eq_true, Bool.and_eq_true,
      decide_eq_true_eq, beq_iff_eq, ge_iff_le, UInt32.le_iff_toNat_le] at h
    unfold Char.toNat
    rcases h with (((⟨h1, h2⟩ | ⟨h1, h2⟩) | ⟨h1, h2⟩) | rfl)
    · have h1 : 65 ≤ c.val.toNat := h1
      have h2 : c.val.toNat ≤ 90 := h2
      omega
    · have h1 : 97 ≤ c.val.toNat := h1
      have h2 : c.val.toNat ≤ 122 := h2
      omega
    · have h1 : 48 ≤ c.val.toNat := h1
      have h2 : c.val.toNat ≤ 57 := h2
      omega
    · decide
  unfold isSpace
  simp
  omega

omit hb hcfg in
theorem argName_strip {m : Str} (hm : ArgName m) : strip m = m := by
  obtain ⟨stars, i, rfl, hst, hi, hic⟩ := hm
  have hsp : ∀ c ∈ stars ++ i, isSpace c = false := by
    have hs : isSpace '*' = false := by decide +kernel
    intro c hc
    rcases List.mem_append.1 hc with hc | hc
    · simp only [List.mem_cons, List.not_mem_nil, or_false] at hst
      rcases hst with rfl | rfl | rfl <;> simp at hc <;> subst hc <;> exact hs
    · exact identChar_not_space (hic c hc)
  unfold strip
  rw [lstrip_eq_self fun c hc => hsp c (List.mem_of_mem_head? hc), rstrip_eq_self fun c hc => hsp c (List.mem_of_getLast? hc)]

omit hb hcfg in
theorem not_ident_of {w r : Str} (hw : ∀ c ∈ w, c ∈ c!" \t\x0c\r\n") (hr : ∀ c, r.head? = some c → identChar c = false) :
    ∀ c, (w ++ r).head? = some c → identChar c = false := by
  intro c hc
  cases w with
  | nil => exact hr c hc
  | cons d w =>
    simp at hc; subst hc
    have hall : ∀ e ∈ c!" \t\x0c\r\n", identChar e = false := by decide
    exact hall d (hw d (by simp))

omit hb hcfg in
theorem one_suffix {tok : Str → Option Nat} {b : Str × Option Str} {r t : Str} (h : One tok b r t) : ∃ u, t = u ++ r := by
  cases h with
  | plain m w w' _ dollar => exact ⟨w ++ ((if dollar then c!"$" else []) ++ (m ++ w')), by simp⟩
  | dflt m w w' d e _ dollar => exact ⟨w ++ ((if dollar then c!"$" else []) ++ (m ++ (w' ++ '=' :: e))), by simp⟩

/-- What one argument leaves behind. -/
def stored (a : Str × Option Str) (d : Option Str) : Prop :=
  match a.2 with
  | none => d = none
  | some v => ∃ e, d = some e ∧ strip e = v ∧ v ≠ []

include htokb in
theorem defArgs_one {b : Str × Option Str} {r t : Str} (ho : One x.tok b r t) (hr : r.head? = some ',' ∨ r.head? = some ')') {a : Str}
    (h : x.src = a ++ t) : ∃ k, k + r.length ≤ t.length ∧ ∃ d onDef, stored b d ∧ ArgName b.1 ∧ ∀ (n : Nat) (ns : List Str) (ds : List (Option Str)),
      x.defArgs (n + k) st none false ⟨ns, ds, ds.length⟩ a.length =
        x.defArgs n st none onDef ⟨ns ++ [b.1], ds ++ [d], ds.length⟩ (x.src.length - r.length) := by
  have hri : ∀ c, r.head? = some c → identChar c = false := by
    intro c hc
    rcases hr with h | h <;> (rw [h] at hc; simp at hc; subst hc; decide)
  have hstart : ∀ (w m rest : Str) (dollar : Bool), (∀ c ∈ w, c ∈ c!" \t\x0c\r\n") → ArgName m → (∀ c, rest.head? = some c → identChar c = false) →
      x.src = a ++ (w ++ ((if dollar then c!"$" else []) ++ (m ++ rest))) →
      ∃ k, k ≤ w.length + (if dollar then 1 else 0) + 1 ∧ k + rest.length ≤ (w ++ ((if dollar then c!"$" else []) ++ (m ++ rest))).length ∧ ∀ (n : Nat) (al : ArgList),
        x.defArgs (n + k) st none false al a.length =
          x.defArgs n st none false (al.addArgument m) (a ++ (w ++ ((if dollar then c!"$" else []) ++ m))).length := by
    intro w m rest dollar hw hm hrest hsrc
    have hml : 1 ≤ m.length := by
      obtain ⟨stars, i, rfl, _, hi, _⟩ := hm
      cases i with
      | nil => cases hi
      | cons c i => simp; omega
    cases dollar with
    | false =>
      refine ⟨1 + w.length, by simp; omega, by simp; omega, fun n al => ?_⟩
      rw [← Nat.add_assoc, defArgs_blanks st hb hcfg hw (r := m ++ rest) (by simp [hsrc])]
      have := defArgs_name st hb hcfg (a := a ++ w) hm (r := rest) (by simp [hsrc]) hrest n al
      simp only [List.length_append] at this ⊢
      rw [this]
      simp [Nat.add_assoc]
    | true =>
      refine ⟨1 + 1 + w.length, by simp; omega, by simp; omega, fun n al => ?_⟩
      rw [← Nat.add_assoc, defArgs_blanks st hb hcfg hw (r := c!"$" ++ (m ++ rest)) (by simp [hsrc])]
      have h1 := defArgs_dollar st hb hcfg (a := a ++ w) (r := m ++ rest) (by simp [hsrc]) (n + 1) al
      have h2 := defArgs_name st hb hcfg (a := a ++ w ++ c!"$") hm (r := rest) (by simp [hsrc]) hrest n al
      simp only [List.length_append, List.length_cons, List.length_nil, Nat.zero_add] at h1 h2
      rw [← Nat.add_assoc, h1, h2]
      congr 1
      simp; omega
  cases ho with
  | plain m w w' _ dollar hm hw hw' =>
    obtain ⟨k, hk, hk2, hrec⟩ := hstart w m (w' ++ r) dollar hw hm (not_ident_of hw' hri) h
    refine ⟨w'.length + k, ?_, none, false, rfl, hm, fun n ns ds => ?_⟩
    · simp only [List.length_append] at hk2 ⊢; omega
    · rw [← Nat.add_assoc, hrec, defArgs_blanks st hb hcfg hw' (r := r) (by simp [h])]
      congr 1
      rw [h]; simp; omega
  | dflt m w w' v e _ dollar hm hw hw' he hv hne =>
    obtain ⟨k, hk, hk2, hrec⟩ := hstart w m (w' ++ '=' :: (e ++ r)) dollar hw hm (not_ident_of hw' (by intro c hc; simp at hc; subst hc; decide)) h
    have hee : e ≠ [] := by rintro rfl; exact hne (by rw [← hv]; rfl)
    obtain ⟨k2, hk3, hrec2⟩ := defArgs_default st hb hcfg htokb he (a := a ++ (w ++ ((if dollar then c!"$" else []) ++ m)) ++ w' ++ c!"=") (by simp [h])
    refine ⟨k2 + 1 + w'.length + k, ?_, some e, true, ⟨e, rfl, hv, hne⟩, hm, fun n ns ds => ?_⟩
    · simp only [List.length_append, List.length_cons] at hk2 ⊢; omega
    · have h1 := defArgs_eq st hb hcfg false (a := a ++ (w ++ ((if dollar then c!"$" else []) ++ m)) ++ w') (r := e ++ r) (by simp [h]) (n + k2)
        (ArgList.addArgument ⟨ns, ds, ds.length⟩ m)
      have h2 := hrec2 n (ns ++ [m]) ds none (fun _ => hee)
      rw [← Nat.add_assoc, hrec, ← Nat.add_assoc, ← Nat.add_assoc, defArgs_blanks st hb hcfg hw' (r := '=' :: (e ++ r)) (by simp [h]),
        ← List.length_append, h1]
      rw [List.length_append (bs := c!"=")] at h2
      simp only [ArgList.addArgument]
      rw [show [('=' : Char)].length = 1 from rfl] at h2
      rw [h2]
      simp only [Option.getD_none, List.nil_append]
      congr 1
      rw [h]; simp; omega

omit hb hcfg in
theorem merge_one {b : Str × Option Str} {d : Option Str} (hs : stored b d) (hn : ArgName b.1) (ns : List Str) (ds : List (Option Str)) (c c' : Nat)
    (hl : ns.length = ds.length) : (ArgList.mk (ns ++ [b.1]) (ds ++ [d]) c).merge = (ArgList.mk ns ds c').merge ++ [b] := by
  unfold ArgList.merge
  rw [List.zip_append hl]
  simp only [List.map_append, List.append_cancel_left_eq, List.zip_cons_cons, List.zip_nil_right, List.map_cons, List.map_nil, argName_strip hn]
  obtain ⟨m, v⟩ := b
  cases v with
  | none =>
    have : d = none := hs
    subst this; rfl
  | some v =>
    obtain ⟨e, rfl, h1, h2⟩ := hs
    simp only at h1 ⊢
    rw [h1, if_neg h2]

include htokb in
theorem defArgs_written {r t : Str} {args : List (Str × Option Str)} (hw : Written x.tok r args t) : ∀ {a : Str}, x.src = a ++ t →
    ∀ (n : Nat) (ns : List Str) (ds : List (Option Str)), t.length < n → ns.length = ds.length →
      ∃ al, x.defArgs n st none false ⟨ns, ds, ds.length⟩ a.length = .ok (al, x.src.length - r.length - 1) ∧
        al.merge = (ArgList.mk ns ds ds.length).merge ++ args := by
  induction hw with
  | nil w hw =>
    intro a h n ns ds hn hl
    obtain ⟨m, rfl⟩ : ∃ m, n = m + 1 + w.length := ⟨n - 1 - w.length, by simp at hn; omega⟩
    rw [defArgs_blanks st hb hcfg hw (r := ')' :: r) (by simp [h]), ← List.length_append,
      defArgs_close st hb hcfg false (r := r) (by simp [h])]
    refine ⟨⟨ns, ds, ds.length⟩, ?_, by simp⟩
    congr 2
    rw [h]; simp; omega
  | last b t ho =>
    intro a h n ns ds hn hl
    obtain ⟨k, hk, d, onDef, h1, h2, hrec⟩ := defArgs_one st hb hcfg htokb ho (.inr rfl) h
    obtain ⟨m, rfl⟩ : ∃ m, n = m + 1 + k := ⟨n - 1 - k, by simp at hk; omega⟩
    obtain ⟨u, hu⟩ : ∃ u, x.src = u ++ ')' :: r := by
      obtain ⟨u, hu⟩ := one_suffix ho
      exact ⟨a ++ u, by rw [h, hu]; simp⟩
    have hul : x.src.length - (')' :: r).length = u.length := by rw [hu]; simp
    rw [hrec, hul, defArgs_close st hb hcfg onDef hu]
    refine ⟨⟨ns ++ [b.1], ds ++ [d], ds.length⟩, ?_, merge_one h1 h2 ns ds _ _ hl⟩
    congr 2
    rw [hu]; simp; omega
  | cons b as t u hwr ho ih =>
    intro a h n ns ds hn hl
    obtain ⟨k, hk, d, onDef, h1, h2, hrec⟩ := defArgs_one st hb hcfg htokb ho (.inl rfl) h
    obtain ⟨m, rfl⟩ : ∃ m, n = m + 1 + k := ⟨n - 1 - k, by simp at hk; omega⟩
    obtain ⟨v, hv⟩ : ∃ v, x.src = v ++ ',' :: t := by
      obtain ⟨u, hu⟩ := one_suffix ho
      exact ⟨a ++ u, by rw [h, hu]; simp⟩
    have hul : x.src.length - (',' :: t).length = v.length := by rw [hv]; simp
    have := ih (a := v ++ c!",") (by simp [hv]) m (ns ++ [b.1]) (ds ++ [d]) (by simp at hk; omega) (by simp [hl])
    obtain ⟨al, e1, e2⟩ := this
    refine ⟨al, ?_, ?_⟩
    · rw [hrec, hul, defArgs_comma st hb hcfg onDef hv]
      simpa [ArgList.next] using e1
    · rw [e2, merge_one h1 h2 ns ds _ ds.length hl]; simp

end

/-! ### C41 -/

/-- The argument list of a definition, however it is laid out, is read as exactly the arguments written, in
order, each with its default value; the position after it is that of the closing parenthesis. -/
theorem C41_arguments_partial (x : Px) (st : GenVar.Settings) (nm : Bool) (hb : x.bp = x.src.length) (hcfg : x.cfg = Cfg.std)
    (htok : ∀ o r, o ∈ c!"([{" → x.tok (o :: r) = some 1) (pre t r : Str) (args : List (Str × Option Str))
    (hw : Written x.tok r args t) (hsrc : x.src = pre ++ '(' :: t) :
    x.defArgList st nm pre.length = .ok (args, x.src.length - r.length - 1) := by
  unfold Px.defArgList Cx.peek!
  have h1 : x.src[pre.length]? = some '(' := by rw [hsrc]; simp
  rw [if_neg (by rw [hb, hsrc]; simp), h1]
  simp only [bind, Except.bind, if_pos]
  unfold Cx.goto
  rw [if_pos (by rw [hb, hsrc]; simp)]
  simp only
  obtain ⟨al, e1, e2⟩ := defArgs_written { st with useNameMapper := nm } hb hcfg htok hw (a := pre ++ c!"(") (by simp [hsrc])
    (x.bp - (pre.length + 1) + 1) [] [] (by rw [hb, hsrc]; simp; omega) rfl
  simp only [List.length_append, List.length_cons, List.length_nil, Nat.zero_add] at e1
  rw [show ({} : ArgList) = ⟨[], [], 0⟩ from rfl, e1]
  simp only
  rw [e2]
  rfl

/-- The hypotheses are met by `( $a, *args , b = [1, (2)] +x,**kw)`. -/
example : (demo c!"f( $a, *args , b = [1, (2)] +x,**kw) z").defArgList demoSt false 1 =
    .ok ([(c!"a", none), (c!"*args", none), (c!"b", some c!"[1, (2)] +x"), (c!"**kw", none)], 35) := by decide +kernel

theorem simpleTok_bracket : ∀ o r, o ∈ c!"([{" → simpleTok (o :: r) = some 1 := by
  intro o r ho
  simp at ho
  rcases ho with rfl | rfl | rfl <;> rfl

example : Written simpleTok c!" z" [(c!"a", none), (c!"b", some c!"[1]+x")] c!" $a, b = [1]+x) z" :=
  .cons _ _ c!" b = [1]+x) z" _
    (.last _ _ (.dflt c!"b" c!" " c!" " c!"[1]+x" c!" [1]+x" _ false ⟨[], c!"b", rfl, by decide, rfl, by decide⟩ (by decide) (by decide)
      (.blank ' ' _ (by decide) (.group '[' ']' c!"1" c!"+x" .square
        (.token _ '1' [] [] rfl (by decide) (by decide) (.nil _)) (by decide)
        (.token '+' [] c!"x" (by decide) (by decide) (by decide) (.token 'x' [] [] (by decide) (by decide) (by decide) .nil))))
      (by decide +kernel) (by decide)))
    (.plain c!"a" c!" " [] _ true ⟨[], c!"a", rfl, by decide, rfl, by decide⟩ (by decide) (by decide))

/-- The signature the compiler generates reads back as the same arguments. -/
theorem C41_signature_partial (x : Px) (st : GenVar.Settings) (nm : Bool) (hb : x.bp = x.src.length) (hcfg : x.cfg = Cfg.std)
    (htok : ∀ o r, o ∈ c!"([{" → x.tok (o :: r) = some 1) (pre r : Str) (args : List (Str × Option Str))
    (hname : ∀ a ∈ args, ArgName a.1)
    (hdef : ∀ a ∈ args, ∀ d, a.2 = some d → d ≠ [] ∧ strip d = d ∧ ∀ u, u.head? = some ',' ∨ u.head? = some ')' → Default x.tok u d)
    (hsrc : x.src = pre ++ '(' :: (argString none args ++ ')' :: r)) :
    x.defArgList st nm pre.length = .ok (args, x.src.length - r.length - 1) := by
  refine C41_arguments_partial x st nm hb hcfg htok pre _ r args ?_ hsrc
  have hmap : argString none args = joinStr c!", " (args.map fun a => match a.2 with
      | some v => a.1 ++ c!"=" ++ v
      | none => a.1) := by
    unfold argString
    rw [← List.filterMap_eq_map]
    congr 2
    funext ⟨n, d⟩
    cases d <;> simp
  rw [hmap]
  clear hsrc hmap
  -- with white space in front
  suffices h : ∀ w : Str, (∀ c ∈ w, c ∈ c!" \t\x0c\r\n") → Written x.tok r args (w ++ (joinStr c!", " (args.map fun a => match a.2 with
      | some v => a.1 ++ c!"=" ++ v
      | none => a.1) ++ ')' :: r)) from h [] (by simp)
  have hone : ∀ a ∈ args, ∀ u w : Str, (u.head? = some ',' ∨ u.head? = some ')') → (∀ c ∈ w, c ∈ c!" \t\x0c\r\n") →
      One x.tok a u (w ++ ((match a.2 with
        | some v => a.1 ++ c!"=" ++ v
        | none => a.1) ++ u)) := by
    intro a ha u w hu hw
    obtain ⟨n, d⟩ := a
    cases d with
    | none =>
      have := One.plain (tok := x.tok) n w [] u false (hname _ ha) hw (by simp)
      simpa using this
    | some d =>
      obtain ⟨h1, h2, h3⟩ := hdef _ ha d rfl
      have := One.dflt (tok := x.tok) n w [] d d u false (hname _ ha) hw (by simp) (h3 u hu) h2 h1
      simpa using this
  clear hname hdef
  induction args with
  | nil => intro w hw; exact .nil w hw
  | cons a args ih =>
    intro w hw
    have ih := ih (fun b hb => hone b (by simp [hb]))
    cases args with
    | nil => exact .last _ _ (by simpa [joinStr] using hone a (by simp) (')' :: r) w (.inr rfl) hw)
    | cons b bs =>
      have := Written.cons (tok := x.tok) (r := r) a (b :: bs) _ _ (ih c!" " (by simp)) (hone a (by simp) _ w (.inl rfl) hw)
      simpa [joinStr] using this

/-- The hypotheses are met by `a, b=[1], **kw`. -/
example : (demo c!"f(a, b=[1], **kw) z").defArgList demoSt false 1 =
    .ok ([(c!"a", none), (c!"b", some c!"[1]"), (c!"**kw", none)], 16) :=
  C41_signature_partial (demo c!"f(a, b=[1], **kw) z") demoSt false rfl rfl simpleTok_bracket c!"f" c!" z"
    [(c!"a", none), (c!"b", some c!"[1]"), (c!"**kw", none)]
    (by
      intro a ha
      simp at ha
      rcases ha with rfl | rfl | rfl
      · exact ⟨[], c!"a", rfl, by decide, rfl, by decide⟩
      · exact ⟨[], c!"b", rfl, by decide, rfl, by decide⟩
      · exact ⟨c!"**", c!"kw", rfl, by decide, rfl, by decide⟩)
    (by
      intro a ha d hd
      simp at ha
      rcases ha with rfl | rfl | rfl <;> simp at hd
      subst hd
      refine ⟨by decide, by decide +kernel, fun u hu => ?_⟩
      refine .group '[' ']' c!"1" [] .square (.token _ '1' [] [] rfl (by decide) rfl (.nil _)) ?_ .nil
      intro d hd
      rw [List.nil_append] at hd
      rcases hu with hu | hu <;> (rw [hu] at hd; simp at hd; subst hd; decide))
    (by decide)

example : argString none [(c!"a", none), (c!"b", some c!"[1]"), (c!"**kw", none)] = c!"a, b=[1], **kw" := by decide

/-- A default is attached to the argument whose number is the number of commas before it: in `(a b=1)` it
goes to `a`. -/
theorem C41_missing_comma_counterexample :
    (demo c!"f(a b=1)").defArgList demoSt false 1 = .ok ([(c!"a", some c!"1"), (c!"b", none)], 7) := by decide +kernel

/-- Every `=` is dropped from a default value: `(a=1==2)` has the default `12`. -/
theorem C41_equals_counterexample :
    (demo c!"f(a=1==2)").defArgList demoSt false 1 = .ok ([(c!"a", some c!"12")], 8) := by decide +kernel

/-- A default value ends at a colon outside brackets: `(a=lambda: 1)` stops in the middle. -/
theorem C41_colon_counterexample :
    (demo c!"f(a=lambda: 1)").defArgList demoSt false 1 = .ok ([(c!"a", some c!"lambda")], 10) := by decide +kernel

/-- A default value without an argument is an IndexError, not a ParseError. -/
theorem C41_index_error_counterexample : (demo c!"f(=1)").defArgList demoSt false 1 = .error .index := by decide +kernel

end Cheetah.Parser
