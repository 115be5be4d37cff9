import Verif.Props.SourceText
/-
Placeholders: names with call arguments or a subscript, `${…}` with an expression in it, `$!…`.  Used for C70.
-/
namespace Cheetah.Parser

/-! ### Specification -/

/-- The look-up of a placeholder's name. -/
def lookUp (w : Str) : Str := c!"VFFSL(SL,\"" ++ w ++ c!"\",True)"

/-- A dotted name, or a dotted name with call arguments or a subscript, and any number of further ones behind dots: `a.b(1).c[2].d`.
More brackets may stand right behind a subscript: `a[1][2]`. -/
inductive Name where
  | plain (w : Str)
  | post (obj : Option Str) (m : Str) (o : Char) (inside groups : Ex)
  | chain (obj : Option Str) (m : Str) (o : Char) (inside groups : Ex) (more : Name)

def Name.src : Name → Str
  | .plain w => w
  | .post obj m o i gs => dottedPath obj m ++ o :: (i.src ++ closing o :: gs.src)
  | .chain obj m o i gs n => dottedPath obj m ++ o :: (i.src ++ closing o :: (gs.src ++ '.' :: n.src))

/-- The Python expression: every part of a chain is looked up in the value of the parts before it. -/
def Name.pyIn (v : Option Str) : Name → Str
  | .plain w => match v with | none => lookUp w | some v => lookIn v w false
  | .post obj m o i gs => linkPy v obj m o ++ o :: (i.py ++ closing o :: gs.py)
  | .chain obj m o i gs n => n.pyIn (some (linkPy v obj m o ++ o :: (i.py ++ closing o :: gs.py)))

def Name.py (n : Name) : Str := n.pyIn none

def Name.Ok (tok : Str → Option Nat) : Name → Prop
  | .plain w => Dotted w
  | .post obj m o i gs => (∀ u, obj = some u → Dotted u) ∧ Word m ∧ o ∈ c!"([" ∧
      (i.Ok tok (Mode.post o) (closing o) ∧ gs.Ok tok false (closing o) ∧ gs.Brackets ∧ (o = '(' → gs = .nil))
  | .chain obj m o i gs n => (∀ u, obj = some u → Dotted u) ∧ Word m ∧ o ∈ c!"([" ∧
      (i.Ok tok (Mode.post o) (closing o) ∧ gs.Ok tok false (closing o) ∧ gs.Brackets ∧ (o = '(' → gs = .nil)) ∧ n.Ok tok

/-- The name ends before the text `r`: a dot is a part of the name only if a letter follows. -/
def Name.Ends : Name → Str → Prop
  | _, [] => True
  | .plain _, c :: r => identChar c = false ∧ c ∉ c!"([" ∧ (c = '.' → ∀ d, r.head? = some d → ¬ Letter d)
  | .post _ _ o _ _, c :: r => ¬ Letter c ∧ (o = '[' → c ∉ c!"([{") ∧ (c = '.' → ∀ d, r.head? = some d → ¬ Letter d)
  | .chain _ _ _ _ _ n, c :: r => n.Ends (c :: r)

/-- `$name`, or `${name …}` with the rest of an expression. -/
inductive Place where
  | short (n : Name)
  | long (n : Name) (e : Ex)

/-- As written; `$!` for a placeholder that writes nothing if the name is not found. -/
def Place.src (silent : Bool) : Place → Str
  | .short n => '$' :: (if silent then c!"!" else []) ++ n.src
  | .long n e => '$' :: (if silent then c!"!" else []) ++ '{' :: (n.src ++ e.src ++ c!"}")

def Place.py : Place → Str
  | .short n => n.py
  | .long n e => n.py ++ e.py

/-- Well-formed before the text `r`. -/
def Place.Ok (tok : Str → Option Nat) : Place → Str → Prop
  | .short n, r => n.Ok tok ∧ n.Ends r
  | .long n e, r => n.Ok tok ∧ n.Ends (e.src ++ c!"}") ∧ e.Ok tok false '}' ∧ (∀ k s, e.src ≠ List.replicate k ' ' ++ ',' :: s) ∧
      (e.src ≠ [] → ∀ c, r.head? = some c → c ∉ c!"([{")

/-! ### Names -/

variable {x : Px}

theorem identifier_to (hx : Std x.toCx) {a w r : Str} (h : x.src = a ++ w ++ r) (hw : Word w) (hr : ∀ c, r.head? = some c → identChar c = false) :
    x.identifier a.length = .ok (w, (a ++ w).length) := by
  unfold Px.identifier
  rw [rest_after (b := w ++ r) (by rw [h]; simp), (takeWhile_stop hw.all hr).1]
  have hh : headIs identStart (w ++ r) = true := by
    obtain ⟨d, w', rfl, hd, _⟩ := hw
    exact hd
  rw [if_pos hh, ← List.length_append, goto_le hx (by rw [h]; simp)]
  simp only [bind, Except.bind]
  unfold Cx.slice
  rw [h, List.take_left' rfl, List.drop_left' rfl]

/-- A dotted name ends before `r`. -/
def NameEnd (r : Str) : Prop := ∀ c r', r = c :: r' → identChar c = false ∧ (c = '.' → ∀ d, r'.head? = some d → identStart d = false)

theorem dottedLoop_to (hx : Std x.toCx) {w : Str} (hw : Dotted w) {r : Str} (hr : NameEnd r) :
    ∀ (n : Nat) (a : Str), w.length ≤ n → x.src = a ++ w ++ r → x.dottedLoop n a.length = .ok (w, (a ++ w).length) := by
  have hr1 : ∀ c, r.head? = some c → identChar c = false := by
    intro c hc
    obtain ⟨r', rfl⟩ := List.head?_eq_some_iff.1 hc
    exact (hr c r' rfl).1
  induction hw with
  | one w hw =>
    intro n a hn h
    have hid := identifier_to hx h hw hr1
    obtain ⟨d, w', hw', hd', _⟩ := id hw
    obtain ⟨n, rfl⟩ : ∃ k, n = k + 1 := ⟨n - 1, by rw [hw', List.length_cons] at hn; omega⟩
    have hend : x.dottedLoop n (a ++ w).length = .ok ([], (a ++ w).length) := by
      cases n with
      | zero => rfl
      | succ n =>
        rw [Px.dottedLoop, peek_head hx h]
        cases r with
        | nil => rfl
        | cons c r =>
          obtain ⟨h1, h2⟩ := hr c r rfl
          simp only [List.head?_cons, h1, Bool.false_eq_true, if_false]
          rw [if_neg]
          rintro ⟨hc, hp⟩
          have hpk : x.peek ((a ++ w).length + 1) = r.head? := by
            rw [show (a ++ w).length + 1 = (a ++ w ++ [c]).length by simp; omega]
            exact peek_head hx (by rw [h]; simp)
          rw [hpk] at hp
          cases hh : r.head? with
          | none => rw [hh] at hp; cases hp
          | some d => rw [hh, Option.any_some, h2 hc d hh] at hp; cases hp
    rw [Px.dottedLoop, peek_head hx (b := w ++ r) (by rw [h]; simp), hw']
    simp only [List.cons_append, List.head?_cons, identStart_char hd', if_true]
    rw [← hw', hid]
    simp only [bind, Except.bind, hend, List.append_nil]
  | more u w hu hw ih =>
    intro n a hn h
    rw [List.length_append, List.length_cons] at hn
    have hdot : identChar '.' = false := by decide
    have h1 : x.src = a ++ u ++ '.' :: (w ++ r) := by rw [h]; simp
    have hid := identifier_word hx h1 hu hdot
    obtain ⟨d, u', hu', hd', _⟩ := id hu
    obtain ⟨n, rfl⟩ : ∃ k, n = k + 2 := ⟨n - 2, by rw [hu', List.length_cons] at hn; omega⟩
    have h2 : x.src = (a ++ u ++ c!".") ++ w ++ r := by rw [h]; simp
    have hrec := ih n (a ++ u ++ c!".") (by rw [hu', List.length_cons] at hn; omega) h2
    obtain ⟨e, w', hw', he⟩ := hw.head
    have hlen : (a ++ u).length + 1 = (a ++ u ++ c!".").length := by simp only [List.length_append, List.length_cons, List.length_nil]
    have hpk : x.peek (a ++ u ++ c!".").length = some e := by
      rw [peek_head hx (b := w ++ r) (by rw [h2]; simp), hw']
      rfl
    have hstep : x.dottedLoop (n + 1) (a ++ u).length = .ok ('.' :: w, (a ++ (u ++ '.' :: w)).length) := by
      rw [Px.dottedLoop, peek_head hx h1]
      simp only [List.head?_cons, hdot, Bool.false_eq_true, if_false, hpk, Option.any_some, he, and_self, if_true, hlen, hrec, bind, Except.bind]
      simp only [List.append_assoc, List.cons_append, List.nil_append]
    rw [Px.dottedLoop, peek_head hx (b := u ++ '.' :: (w ++ r)) (by rw [h1]; simp), hu']
    simp only [List.cons_append, List.head?_cons, identStart_char hd', if_true]
    simp only [hid, bind, Except.bind, hstep]
    rw [hu']
    simp

theorem dottedName_to (hx : Std x.toCx) {w : Str} (hw : Dotted w) {a r : Str} (hr : NameEnd r)
    (h : x.src = a ++ w ++ r) : x.dottedName a.length = .ok (w, (a ++ w).length) := by
  obtain ⟨e, w', hw', he⟩ := hw.head
  unfold Px.dottedName
  rw [peek!_head hx (c := e) (b := w' ++ r) (by rw [h, hw']; simp)]
  simp only [bind, Except.bind, he, if_true]
  exact dottedLoop_to hx hw hr _ a (by rw [hx.bp, h]; simp) h

/-- No further part of a name follows. -/
theorem nameChunks_end (hx : Std x.toCx) {a r : Str} (h : x.src = a ++ r) (st : GenVar.Settings) (n : Nat)
    (hr : ∀ c r', r = c :: r' → identStart c = false ∧ (c = '.' → ∀ d, r'.head? = some d → identStart d = false)) :
    x.nameChunks (n + 1) st a.length = .ok ([], a.length) := by
  rw [Px.nameChunks, peek_head hx h]
  cases r with
  | nil => rfl
  | cons c r =>
    obtain ⟨h1, h2⟩ := hr c r rfl
    simp only [List.head?_cons, h1]
    by_cases hc : c = '.'
    · subst hc
      have hpk : x.peek (a.length + 1) = r.head? := by
        rw [show a.length + 1 = (a ++ c!".").length by simp]
        exact peek_head hx (by rw [h]; simp)
      have : (x.peek (a.length + 1)).any identStart = false := by
        rw [hpk]
        cases hh : r.head? with
        | none => rfl
        | some d => simp [h2 rfl d hh]
      simp [this]
    · simp [hc]

theorem letter_false {c : Char} (h : ¬ Letter c) : identStart c = false := by
  cases hs : identStart c with
  | false => rfl
  | true => exact absurd ((identStart_iff c).1 hs) h

theorem Name.head {tok : Str → Option Nat} {n : Name} (hn : n.Ok tok) : ∃ d w, n.src = d :: w ∧ identStart d = true := by
  cases n with
  | plain w => exact Dotted.head hn
  | post obj m o i gs =>
    obtain ⟨d, w, hw, hd⟩ := (dottedPath_ok hn.1 hn.2.1).head
    exact ⟨d, _, by simp only [Name.src, hw]; rfl, hd⟩
  | chain obj m o i gs n =>
    obtain ⟨d, w, hw, hd⟩ := (dottedPath_ok hn.1 hn.2.1).head
    exact ⟨d, _, by simp only [Name.src, hw]; rfl, hd⟩

theorem Name.noBs {tok : Str → Option Nat} {n : Name} (hn : n.Ok tok) : NoBs n.src := by
  induction n with
  | plain w => exact Dotted.noBs hn
  | post obj m o i gs =>
    have e : (Name.post obj m o i gs).src = ((dottedPath obj m ++ o :: i.src) ++ [closing o]) ++ gs.src := by simp [Name.src]
    rw [e]
    exact NoBs.append (NoBs.snoc _ (closing_ne (by have := hn.2.2.1; simp at this ⊢; tauto)).1) (gs.noBs _ _ hn.2.2.2.2.1)
  | chain obj m o i gs n ih =>
    rw [Name.src, show dottedPath obj m ++ o :: (i.src ++ closing o :: (gs.src ++ '.' :: n.src)) = (dottedPath obj m ++ o :: (i.src ++ closing o :: gs.src) ++ ['.']) ++ n.src by simp]
    exact NoBs.append (NoBs.snoc _ (by decide)) (ih hn.2.2.2.2)

/-- A part with brackets. -/
theorem nameChunks_link (hx : Std x.toCx) (hT : TokBrackets x.tok) {obj : Option Str} {m : Str} {o : Char} {i gs : Ex} (hobj : ∀ u, obj = some u → Dotted u) (hm : Word m) (ho : o ∈ c!"([")
    (hok : i.Ok x.tok (Mode.post o) (closing o) ∧ gs.Ok x.tok false (closing o) ∧ gs.Brackets ∧ (o = '(' → gs = .nil)) {a r : Str} (h : x.src = a ++ (dottedPath obj m ++ o :: (i.src ++ closing o :: gs.src)) ++ r)
    (hr : o = '[' → ∀ c, r.head? = some c → c ∉ c!"([{")
    (k : Nat) (hk : 4 * (dottedPath obj m ++ o :: (i.src ++ closing o :: gs.src)).length ≤ k) :
    x.nameChunks (k + 1) fullSt a.length = (x.nameChunks k fullSt (a ++ (dottedPath obj m ++ o :: (i.src ++ closing o :: gs.src))).length) >>= fun (cs, q) =>
      .ok (GenVar.splitChunk (dottedPath obj m) (o :: (i.py ++ closing o :: gs.py)) ++ cs, q) := by
  have hsz := Ex.size_le _ _ _ _ hok.1
  have hsz2 := Ex.size_le _ _ _ _ hok.2.1
  obtain ⟨hi, hA, _⟩ := expr_main hx hT _ i (Nat.le_refl _)
  refine link_read hx hi hA (fun j _ => (expr_main hx hT _ j (Nat.le_refl _)).1) hobj hm ho hok h hr k ?_
  simp only [List.length_append, List.length_cons] at hk
  omega

/-- A name is read as a whole. -/
theorem nameChunks_all (hx : Std x.toCx) (hT : TokBrackets x.tok) {r : Str} (n : Name) : ∀ {a : Str}, n.Ok x.tok → x.src = a ++ n.src ++ r → n.Ends r →
    ∀ k, 4 * n.src.length + 4 ≤ k → ∃ cs, x.nameChunks k fullSt a.length = .ok (cs, (a ++ n.src).length) ∧ genVar fullSt false cs = .ok n.py ∧
      ∀ v, cs.foldl (GenVar.genMore fullSt) v = n.pyIn (some v) := by
  induction n with
  | plain w =>
    intro a hn h he k hk
    simp only [Name.src] at *
    have hne : NameEnd r := by
      rintro c r' rfl
      exact ⟨he.1, fun hc d hd => letter_false (he.2.2 hc d hd)⟩
    obtain ⟨k, rfl⟩ : ∃ j, k = j + 2 := ⟨k - 2, by omega⟩
    have hend := nameChunks_end hx h fullSt k (by
      rintro c r' rfl
      refine ⟨?_, (hne c r' rfl).2⟩
      cases hs : identStart c with
      | false => rfl
      | true => have := he.1; rw [identStart_char hs] at this; cases this)
    obtain ⟨e, w', hw', hes⟩ := Dotted.head hn
    have hdot : e ≠ '.' := by rintro rfl; exact absurd hes (by decide)
    have hpk : x.peek (a ++ w).length ≠ some '(' ∧ x.peek (a ++ w).length ≠ some '[' := by
      rw [peek_head hx h]
      cases r with
      | nil => simp
      | cons c r => have := he.2.1; simp at this ⊢; exact this
    refine ⟨_, ?_, genVar_var w, fun v => ?_⟩
    · rw [Px.nameChunks, peek_head hx (b := e :: (w' ++ r)) (by rw [h, hw']; simp)]
      simp only [List.head?_cons, hes, hdot, or_false, not_true, if_false, false_and, bind, Except.bind, dottedName_to hx hn hne h, hend,
        hpk.1, hpk.2, GenVar.splitChunk, if_true, List.append_nil]
    · simp [GenVar.genMore, fullSt, GenVar.reprBool, Name.pyIn, lookIn]
  | post obj m o i gs =>
    intro a hn h he k hk
    obtain ⟨hobj, hm, ho, hok⟩ := hn
    simp only [Name.src] at *
    obtain ⟨k, rfl⟩ : ∃ j, k = j + 2 := ⟨k - 2, by omega⟩
    refine ⟨_, ?_, genVar_post hobj hm _, fun v => gen_split hobj hm _ v⟩
    rw [nameChunks_link hx hT hobj hm ho hok h (fun ho' c hc => by
      obtain ⟨r', rfl⟩ := List.head?_eq_some_iff.1 hc
      exact he.2.1 ho') _ (by omega), nameChunks_end hx h fullSt k (by
        rintro c r' rfl
        exact ⟨letter_false he.1, fun hc d hd => letter_false (he.2.2 hc d hd)⟩)]
    simp [bind, Except.bind]
  | chain obj m o i gs n ih =>
    intro a hn h he k hk
    obtain ⟨hobj, hm, ho, hok, hn⟩ := hn
    simp only [Name.src] at *
    obtain ⟨k, rfl⟩ : ∃ j, k = j + 1 := ⟨k - 1, by omega⟩
    obtain ⟨d, w, hw, hd⟩ := Name.head hn
    have he' : n.Ends r := by cases r with
      | nil => cases n <;> trivial
      | cons => exact he
    have h1 : x.src = a ++ (dottedPath obj m ++ o :: (i.src ++ closing o :: gs.src)) ++ ('.' :: (n.src ++ r)) := by rw [h]; simp
    have h2 : x.src = (a ++ (dottedPath obj m ++ o :: (i.src ++ closing o :: gs.src))) ++ '.' :: d :: (w ++ r) := by rw [h1, hw]; simp
    have h3 : x.src = (a ++ (dottedPath obj m ++ o :: (i.src ++ closing o :: gs.src)) ++ c!".") ++ n.src ++ r := by rw [h1]; simp
    obtain ⟨cs, c1, c2, c3⟩ := ih hn h3 he' k (by simp at hk; omega)
    refine ⟨GenVar.splitChunk (dottedPath obj m) (o :: (i.py ++ closing o :: gs.py)) ++ cs, ?_, genVar_append (genVar_post hobj hm _) cs |>.trans ?_, fun v => ?_⟩
    · rw [nameChunks_link hx hT hobj hm ho hok h1 (fun _ c hc => by simp at hc; subst hc; decide) k (by simp at hk ⊢; omega), nameChunks_dot hx h2 hd, c1]
      simp [bind, Except.bind]
    · rw [c3]; rfl
    · rw [List.foldl_append, gen_split hobj hm, c3]; rfl

theorem nameChunks_name (hx : Std x.toCx) (hT : TokBrackets x.tok) {n : Name} (hn : n.Ok x.tok) {a r : Str} (h : x.src = a ++ n.src ++ r) (he : n.Ends r)
    (k : Nat) (hk : 4 * n.src.length + 4 ≤ k) :
    ∃ cs, x.nameChunks k fullSt a.length = .ok (cs, (a ++ n.src).length) ∧ genVar fullSt false cs = .ok n.py := by
  obtain ⟨cs, h1, h2, -⟩ := nameChunks_all hx hT n hn h he k hk
  exact ⟨cs, h1, h2⟩

/-! ### Placeholders -/

/-- `!` or nothing. -/
def bang (silent : Bool) : Str := if silent then c!"!" else []

theorem varStart_to (hx : Std x.toCx) {a r : Str} {d : Char} (h : x.src = a ++ '$' :: d :: r) (ha : NoBs a)
    (hd : identStart d = true ∨ isOpen d = true ∨ d = '!') : x.varStart false a.length = .ok (a ++ c!"$").length := by
  obtain ⟨ns, hcfg⟩ := hx.cfg
  unfold Px.varStart Cx.matchVarTok
  have : headIs (fun c => identStart c || c == '*' || c == '!' || isOpen c) (d :: r) = true := by
    rcases hd with hd | hd | hd <;> simp [headIs, hd]
  rw [if_pos ((unescaped_iff h).2 ha), rest_after h, hcfg]
  simp only [Bool.false_eq_true, if_false, Cfg.std, stripPrefix?, if_true, this]
  exact (goto_le hx (by rw [h]; simp)).trans (by simp)

theorem silentAndCache_to (hx : Std x.toCx) {a r : Str} {d : Char} (sl : Bool) (h : x.src = a ++ bang sl ++ d :: r) (hd : identStart d = true ∨ d = '{') :
    x.silentAndCache a.length = .ok (sl, .none, (a ++ bang sl).length) := by
  have hle : (a ++ bang sl).length ≤ x.bp := by rw [hx.bp, h]; simp
  have hsp : d ≠ '!' := by
    rcases hd with hd | rfl
    · exact letter_no_silence (c := d) (.inl ((identStart_iff d).1 hd))
    · decide
  have h1 : afterSilent (bang sl ++ d :: r) = d :: r := by
    cases sl with
    | true => rfl
    | false =>
      show afterSilent (d :: r) = _
      unfold afterSilent
      split
      · rename_i he; injection he with he; exact absurd he hsp
      · rfl
  have h2 : Interval.readToken (d :: r) = (.none, d :: r) := by
    have hstar : d ≠ '*' := by
      rintro rfl
      rcases hd with hd | hd
      · exact absurd hd (by decide)
      · exact absurd hd (by decide)
    unfold Interval.readToken Interval.matchRefresh
    split
    · rename_i he
      split at he
      · rename_i he2; injection he2 with he2; exact absurd he2 hstar
      · cases he
    · split
      · rename_i he2; injection he2 with he2; exact absurd he2 hstar
      · rfl
  unfold Px.silentAndCache
  simp only [rest_after (a := a) (b := bang sl ++ d :: r) (by rw [h]; simp), h1, h2]
  have hl : (bang sl ++ d :: r).length - (d :: r).length = (bang sl).length := by simp
  rw [hl, ← List.length_append, if_pos hle]
  cases sl <;> simp [bang]

/-- The bracket and what is in it. -/
theorem phRest_to (hx : Std x.toCx) (hT : TokBrackets x.tok) {e : Ex} (he : e.Ok x.tok false '}') (hs : ∀ g, e ≠ .sp g) {a r : Str} {p : Nat}
    (h : x.src = a ++ e.src ++ '}' :: r) (ha : NoBs a) (hcomma : ∀ s, e.src ≠ ',' :: s) (hr : e.src ≠ [] → ∀ c, r.head? = some c → c ∉ c!"([{") :
    x.phRest fullSt '{' [('{', p)] a.length = .ok ((e.py, none), (a ++ e.src ++ c!"}").length) := by
  have h2 : x.src = (a ++ e.src) ++ '}' :: r := h
  obtain ⟨r', hr'⟩ := nextChar_spec e.src '}' r
  have h1 : x.src = a ++ nextChar e.src '}' :: r' := by rw [h, List.append_assoc, hr']
  have hd : nextChar e.src '}' ≠ ',' := by
    intro hd
    cases hsrc : e.src with
    | nil => rw [hsrc] at hd; exact absurd hd (by decide)
    | cons c s =>
      rw [hsrc] at hd
      exact hcomma s (by rw [hsrc]; simpa [nextChar] using hd)
  have hlen : (a ++ e.src).length + 1 = (a ++ e.src ++ c!"}").length := by simp; omega
  unfold Px.phRest
  rw [peek!_head hx h1]
  simp only [bind, Except.bind, hd, and_false, if_false]
  by_cases hcl : nextChar e.src '}' = closeOf '{'
  · have hnil : e = .nil := by
      cases e with
      | nil => rfl
      | sp e => exact absurd rfl (hs e)
      | tok t e =>
        obtain ⟨f, t', ht, hf⟩ := he.1.start
        simp only [nextChar, Ex.src, ht, List.cons_append, List.headD_cons] at hcl
        subst hcl
        simp [closeOf] at hf
      | var w e => simp [nextChar, Ex.src, closeOf] at hcl
      | post u m o i gs e => simp [nextChar, Ex.src, closeOf] at hcl
      | link u m o i gs e => simp [nextChar, Ex.src, closeOf] at hcl
      | kw w k e => simp [nextChar, Ex.src, closeOf] at hcl
      | comp ns e => simp [nextChar, Ex.src, closeOf] at hcl
      | grp o i e =>
        have ho := he.1
        simp only [nextChar, Ex.src, List.headD_cons] at hcl
        subst hcl
        simp [closeOf] at ho
    subst hnil
    rw [if_pos hcl]
    simp only [Ex.src, List.append_nil, Ex.py] at hlen h ⊢
    rw [hlen, goto_le hx (by rw [h]; simp)]
  · rw [if_neg hcl]
    have hne : e.src ≠ [] := by
      intro h0
      rw [h0] at hcl
      exact hcl rfl
    have hsz := Ex.size_le _ _ _ _ he
    obtain ⟨n, ps, hn, hps, _, heq⟩ := (expr_main hx hT _ e (Nat.le_refl _)).1 false '}' a r true [] [('{', p)] (x.fuel a.length) he (by decide) h ha (by simp) (by simp)
      (by unfold Px.fuel; rw [hx.bp, h]; simp; omega)
    have hf : 4 * e.src.length + 8 ≤ x.fuel a.length := by unfold Px.fuel; rw [hx.bp, h]; simp; omega
    obtain ⟨n, rfl⟩ : ∃ j, n = j + 2 := ⟨n - 2, by omega⟩
    have h3 : x.src = (a ++ e.src ++ c!"}") ++ r := by rw [h]; simp
    have hstop : x.exprParts (n + 1) fullSt true [] [] (a ++ e.src ++ c!"}").length = .ok ([], (a ++ e.src ++ c!"}").length) := by
      cases r with
      | nil =>
        conv_lhs => unfold Px.exprParts
        rw [peek_head hx h3]
        rfl
      | cons c r =>
        have hc := hr hne c rfl
        exact exprParts_stop hx n h3 (by simp at hc; simp [isOpen, hc]) fullSt
    rw [exprParts_close (c := '}') (n + 1) (peek_head hx h2) (closing_pair (o := '{') (by simp)), hlen, hstop] at heq
    unfold Px.expression
    rw [heq]
    simp only [pre, bind, Except.bind]
    rw [if_neg (by simp)]
    simp only [dropClose, List.flatten_append, hps]
    simp [closeOf]

/-- A placeholder is read as written. -/
theorem placeholder_to (hx : Std x.toCx) (hT : TokBrackets x.tok) {n : Place} {sl : Bool} {a r : Str} (hn : n.Ok x.tok r) (h : x.src = a ++ n.src sl ++ r) (ha : NoBs a) :
    x.placeholder fullSt a.length = .ok (⟨n.py, n.src sl, none, .none, sl⟩, (a ++ n.src sl).length) := by
  have hslice : x.slice a.length (a ++ n.src sl).length = n.src sl := by
    unfold Cx.slice
    rw [h, List.take_left, List.drop_left]
  have hhead : ∀ {n : Name}, n.Ok x.tok → ∃ d w, n.src = d :: w ∧ identStart d = true := Name.head
  have hvs : ∀ {d : Char} {s : Str}, x.src = a ++ '$' :: (bang sl ++ d :: s) → (identStart d = true ∨ isOpen d = true) → x.varStart false a.length = .ok (a ++ c!"$").length := by
    intro d s hs hd
    cases sl with
    | true => exact varStart_to hx hs ha (.inr (.inr rfl))
    | false => exact varStart_to hx hs ha (by tauto)
  cases n with
  | short n =>
    obtain ⟨hn, he⟩ := hn
    obtain ⟨d, w', hw', hd⟩ := hhead hn
    have e0 : (Place.short n).src sl = '$' :: (bang sl ++ n.src) := rfl
    rw [e0] at h hslice ⊢
    have h1 : x.src = a ++ '$' :: (bang sl ++ d :: (w' ++ r)) := by rw [h, hw']; simp
    have h2 : x.src = (a ++ c!"$") ++ bang sl ++ d :: (w' ++ r) := by rw [h1]; simp
    have h3 : x.src = (a ++ c!"$" ++ bang sl) ++ n.src ++ r := by rw [h]; simp
    have hno : isOpen d = false := by
      have := identChar_special (identStart_char hd)
      cases ho : isOpen d with
      | false => rfl
      | true =>
        have := (isOpen_iff d).1 ho
        simp at *; tauto
    obtain ⟨cs, hcs, hgv⟩ := nameChunks_name hx hT hn h3 he (x.fuel (a ++ c!"$" ++ bang sl).length) (by unfold Px.fuel; rw [hx.bp, h3]; simp; omega)
    have hbody : x.phBody fullSt [] (a ++ c!"$" ++ bang sl).length = .ok ((n.py, none), (a ++ c!"$" ++ bang sl ++ n.src).length) := by
      unfold Px.phBody
      rw [rest_after h2]
      simp only [headIs, hd, if_true, hcs, bind, Except.bind, hgv]
    unfold Px.placeholder
    rw [hvs h1 (.inl hd)]
    simp only [bind, Except.bind, silentAndCache_to hx sl h2 (.inl hd), Px.phOpen, peek!_head hx h2, hno, Bool.false_eq_true, if_false, hbody]
    have e : a ++ c!"$" ++ bang sl ++ n.src = a ++ '$' :: (bang sl ++ n.src) := by simp
    rw [e, hslice]
    rfl
  | long n e =>
    obtain ⟨hn, hen, hok, hcomma, hr⟩ := hn
    obtain ⟨d, w', hw', hd⟩ := hhead hn
    have e0 : (Place.long n e).src sl = '$' :: (bang sl ++ '{' :: (n.src ++ e.src ++ c!"}")) := rfl
    rw [e0] at h hslice ⊢
    obtain ⟨k, f, f1, f2, f3, _, _, f6, _⟩ := e.peel
    have hf := f3 _ _ _ hok
    have hopen : isOpen '{' = true := by decide
    have h1 : x.src = a ++ '$' :: (bang sl ++ '{' :: (n.src ++ e.src ++ '}' :: r)) := by rw [h]; simp
    have h2 : x.src = (a ++ c!"$") ++ bang sl ++ '{' :: (n.src ++ e.src ++ '}' :: r) := by rw [h1]; simp
    have h3 : x.src = (a ++ c!"$" ++ bang sl ++ c!"{") ++ n.src ++ (e.src ++ '}' :: r) := by rw [h1]; simp
    have h4 : x.src = (a ++ c!"$" ++ bang sl ++ c!"{") ++ d :: (w' ++ (e.src ++ '}' :: r)) := by rw [h3, hw']; simp
    have h5 : x.src = (a ++ c!"$" ++ bang sl ++ c!"{" ++ n.src) ++ (List.replicate k ' ' ++ f.src) ++ '}' :: r := by rw [h3, f1]; simp
    have h6 : x.src = (a ++ c!"$" ++ bang sl ++ c!"{" ++ n.src ++ List.replicate k ' ') ++ f.src ++ '}' :: r := by rw [h5]; simp
    have hen' : n.Ends (e.src ++ '}' :: r) := by
      clear hw' hcomma hr hvs e0 h h1 h2 h3 h4 h5 h6 f1 hslice
      cases hsrc : e.src with
      | nil =>
        rw [hsrc] at hen
        induction n with
        | plain w => exact ⟨hen.1, hen.2.1, by simp⟩
        | post obj m o i gs => exact ⟨hen.1, hen.2.1, by simp⟩
        | chain obj m o i gs n ih => exact ih hn.2.2.2.2 hen
      | cons c s =>
        rw [hsrc] at hen
        have hnext : ∀ u, (s ++ '}' :: u).head? = (s ++ c!"}").head? := by intro u; cases s <;> rfl
        induction n with
        | chain obj m o i gs n ih => exact ih hn.2.2.2.2 hen
        | plain w => exact ⟨hen.1, hen.2.1, fun hc d hd => hen.2.2 hc d (by rw [← hd]; exact (hnext r).symm)⟩
        | post obj m o i gs => exact ⟨hen.1, hen.2.1, fun hc d hd => hen.2.2 hc d (by rw [← hd]; exact (hnext r).symm)⟩
    obtain ⟨cs, hcs, hgv⟩ := nameChunks_name hx hT hn h3 hen' (x.fuel (a ++ c!"$" ++ bang sl ++ c!"{").length) (by unfold Px.fuel; rw [hx.bp, h3]; simp; omega)
    have hskip : x.skip (a ++ c!"$" ++ bang sl ++ c!"{").length = (a ++ c!"$" ++ bang sl ++ c!"{").length :=
      skip_none hx h4 (by intro c hc; simp at hc; subst hc; exact identStart_ws hd)
    have hlen : (a ++ c!"$" ++ bang sl).length + 1 = (a ++ c!"$" ++ bang sl ++ c!"{").length := by simp; omega
    have hws := blanks_ws hx h5 hf f6 (by decide)
    have hnb : NoBs (a ++ c!"$" ++ bang sl ++ c!"{" ++ n.src ++ List.replicate k ' ') := by
      exact NoBs.append (NoBs.append (NoBs.snoc _ (by decide)) (Name.noBs hn)) (NoBs.blanks k)
    have hrest := phRest_to hx hT hf f6 (p := (a ++ c!"$" ++ bang sl).length) h6 hnb (fun s hs => hcomma k s (by rw [f1, hs]))
      (fun hne => hr (by rw [f1]; simp [hne]))
    have hbody : x.phBody fullSt [('{', (a ++ c!"$" ++ bang sl).length)] (a ++ c!"$" ++ bang sl ++ c!"{").length =
        .ok ((n.py ++ e.py, none), (a ++ c!"$" ++ bang sl ++ c!"{" ++ n.src ++ List.replicate k ' ' ++ f.src ++ c!"}").length) := by
      unfold Px.phBody
      rw [rest_after h4]
      simp only [headIs, hd, if_true, hcs, bind, Except.bind, hgv, hws]
      rw [← List.length_append, hrest, f2]
      simp
    have hgo : x.goto (a ++ c!"$" ++ bang sl ++ c!"{").length = .ok (a ++ c!"$" ++ bang sl ++ c!"{").length := goto_le hx (by rw [h4]; simp)
    unfold Px.placeholder
    rw [hvs h1 (.inr hopen)]
    simp only [bind, Except.bind, silentAndCache_to hx sl h2 (.inr rfl), Px.phOpen, peek!_head hx h2, hopen, if_true, hlen, hgo, hskip, hbody]
    have e1 : a ++ c!"$" ++ bang sl ++ c!"{" ++ n.src ++ List.replicate k ' ' ++ f.src ++ c!"}" = a ++ '$' :: (bang sl ++ '{' :: (n.src ++ e.src ++ c!"}")) := by
      rw [f1]; simp
    rw [e1, hslice]
    rfl

end Cheetah.Parser
