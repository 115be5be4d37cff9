import Verif.Props.SourceReach
import Verif.Props.Extends
/-
The directives at the top of a template: `#extends`, `#implements`, `#attr`, `#import`, `#from`, `#encoding`, `#shBang`,
`#transform`, `#errorCatcher`, `#super`. The commands that the parser gives for them.
-/
namespace Cheetah.Parser
open Reader (EndsLine)

/-! ### Specification -/

/-- A directive at the top of a template, on a line of its own. -/
inductive Top where
  | extends_ (kss : List (List Str))
  | implements_ (n : Str)
  | attr (v : Str) (e : Ex)
  | import_ (e : Ex)
  | from_ (e : Ex)
  | encoding (t : Str)
  | shBang (t : Str)
  | transform (n : Str)
  | errorCatcher (n : Str)
  | super

/-- The line without its `#` and its end. -/
def Top.line : Top → Str
  | .extends_ kss => c!"extends " ++ joinStr c!", " (kss.map Driver.dotted)
  | .implements_ n => c!"implements " ++ n
  | .attr v e => c!"attr $" ++ v ++ c!" = " ++ e.src
  | .import_ e => c!"import " ++ e.src
  | .from_ e => c!"from " ++ e.src
  | .encoding t => c!"encoding " ++ t
  | .shBang t => c!"shBang " ++ t
  | .transform n => c!"transform " ++ n
  | .errorCatcher n => c!"errorCatcher " ++ n
  | .super => c!"super"

/-- The line in the source. -/
def Top.src (t : Top) : Str := c!"#" ++ t.line ++ c!"\n"

/-- The commands for it. -/
def Top.cmds : Top → List Cmd
  | .extends_ kss => [.extends_ (joinStr c!", " (kss.map Driver.dotted)), .handleWS]
  | .implements_ n => [.implements_ n [], .handleWS]
  | .attr v e => [.attr v (c!" " ++ e.py), .handleWS]
  | .import_ e => [.handleWS, .simple c!"import" (c!"import " ++ e.py)]
  | .from_ e => [.handleWS, .simple c!"from" (c!"from " ++ e.py)]
  | .encoding t => [.encoding t]
  | .shBang t => [.shBang t]
  | .transform n => [.handleWS, .setTransform n false]
  | .errorCatcher n => [.handleWS, .errorCatcher n]
  | .super => [.handleWS, .super []]

/-- Names are identifiers, expressions are well formed, texts are on one line. -/
def Top.Ok (tok : Str → Option Nat) : Top → Prop
  | .extends_ kss => kss ≠ [] ∧ ∀ ks ∈ kss, ks ≠ [] ∧ ∀ k ∈ ks, Word k
  | .implements_ n => Word n
  | .attr v e => Word v ∧ (∀ r, tok ('=' :: ' ' :: r) = some 1) ∧ Tidy tok '\n' e
  | .import_ e => Tidy tok '\n' e
  | .from_ e => Tidy tok '\n' e
  | .encoding t | .shBang t => (∃ c r, t = c :: r ∧ isSpace c = false) ∧ (∀ c, t.getLast? = some c → isSpace c = false) ∧ OneLine t
  | .transform n => Word n
  | .errorCatcher n => Word n
  | .super => True

/-! ### Lemmas -/

variable {x : Px} {z : Char} {post : Str} {ws : List Cmd}

theorem peek_is (hx : Std x.toCx) {a r : Str} {c : Char} (h : x.src = a ++ c :: r) : x.peek a.length = some c := peek_head hx h

theorem commaLoop_word (hx : Std x.toCx) {a w r cur : Str} {c : Char} (h : x.src = a ++ w ++ c :: r) (hw : Word w) (hc : identChar c = false) (n : Nat) :
    x.commaLoop (n + 1) cur a.length = x.commaLoop n (cur ++ w) (a ++ w).length := by
  have hid := identifier_word hx h hw hc
  obtain ⟨d, w', hd', hd, _⟩ := id hw
  rw [Px.commaLoop, peek_is hx (c := d) (r := w' ++ c :: r) (by rw [h, hd']; simp)]
  simp only [identStart_char hd, if_true, bind, Except.bind, hid]

theorem commaLoop_dotted (hx : Std x.toCx) {c : Char} (hc : identChar c = false) : ∀ (ks : List Str) {a r cur : Str}, ks ≠ [] → (∀ k ∈ ks, Word k) →
    x.src = a ++ Driver.dotted ks ++ c :: r → ∀ m n, (Driver.dotted ks).length + m ≤ n →
    ∃ n', m ≤ n' ∧ x.commaLoop n cur a.length = x.commaLoop n' (cur ++ Driver.dotted ks) (a ++ Driver.dotted ks).length
  | [], _, _, _, h, _, _, _, _, _ => absurd rfl h
  | [k], a, r, cur, _, hk, h, m, n, hn => by
    have hw := hk k (by simp)
    have : 1 ≤ k.length := by obtain ⟨d, w', rfl, _⟩ := hw; simp
    simp only [Driver.dotted, joinStr] at h hn ⊢
    obtain ⟨n, rfl⟩ : ∃ j, n = j + 1 := ⟨n - 1, by omega⟩
    exact ⟨n, by omega, commaLoop_word hx h hw hc n⟩
  | k :: k2 :: ks, a, r, cur, _, hk, h, m, n, hn => by
    have hw := hk k (by simp)
    obtain ⟨d2, w2, hd2, hs2, _⟩ := id (hk k2 (by simp))
    have : 1 ≤ k.length := by obtain ⟨d, w', rfl, _⟩ := hw; simp
    have e : Driver.dotted (k :: k2 :: ks) = k ++ '.' :: Driver.dotted (k2 :: ks) := by simp [Driver.dotted, joinStr]
    have hd3 : ∃ q, Driver.dotted (k2 :: ks) = d2 :: q := by
      cases ks with
      | nil => exact ⟨w2, by simp [Driver.dotted, joinStr, hd2]⟩
      | cons k3 ks => exact ⟨w2 ++ c!"." ++ joinStr c!"." (k3 :: ks), by simp [Driver.dotted, joinStr, hd2]⟩
    obtain ⟨q, hq⟩ := hd3
    rw [e] at h hn ⊢
    simp only [List.length_append, List.length_cons] at hn
    obtain ⟨n, rfl⟩ : ∃ j, n = j + 2 := ⟨n - 2, by omega⟩
    have h1 : x.src = a ++ k ++ '.' :: (Driver.dotted (k2 :: ks) ++ c :: r) := by rw [h]; simp
    have h2 : x.src = (a ++ k ++ c!".") ++ d2 :: (q ++ c :: r) := by rw [h, hq]; simp
    have h3 : x.src = (a ++ k ++ c!".") ++ Driver.dotted (k2 :: ks) ++ c :: r := by rw [h]; simp
    rw [commaLoop_word hx h1 hw (by decide), Px.commaLoop, peek_is hx h1]
    have e1 : (a ++ k).length + 1 = (a ++ k ++ c!".").length := by rw [List.length_append (as := a ++ k)]; rfl
    simp only [e1, peek_is hx h2, Option.any_some, hs2, if_true, show identChar '.' = false by decide, Bool.false_eq_true, if_false]
    obtain ⟨n', g1, g2⟩ := commaLoop_dotted hx hc (k2 :: ks) (cur := cur ++ k ++ c!".") (by simp) (fun k hk' => hk k (by simp at hk' ⊢; tauto)) h3 m n (by omega)
    refine ⟨n', g1, ?_⟩
    rw [g2]
    simp

theorem commaLoop_list (hx : Std x.toCx) {z : Char} (hz : Stop z) : ∀ (kss : List (List Str)) {a r : Str}, kss ≠ [] → (∀ ks ∈ kss, ks ≠ [] ∧ ∀ k ∈ ks, Word k) →
    x.src = a ++ joinStr c!", " (kss.map Driver.dotted) ++ z :: r → ∀ n, (joinStr c!", " (kss.map Driver.dotted)).length < n →
    x.commaLoop n [] a.length = .ok (kss.map Driver.dotted, (a ++ joinStr c!", " (kss.map Driver.dotted)).length)
  | [], _, _, h, _, _, _, _ => absurd rfl h
  | [ks], a, r, _, hk, h, n, hn => by
    simp only [List.map_cons, List.map_nil, joinStr] at h hn ⊢
    obtain ⟨k1, k2⟩ := hk ks (by simp)
    obtain ⟨n', g1, g2⟩ := commaLoop_dotted hx (stop_facts hz).1 ks (cur := []) k1 k2 h 1 n (by omega)
    obtain ⟨n', rfl⟩ : ∃ j, n' = j + 1 := ⟨n' - 1, by omega⟩
    have hne : Driver.dotted ks ≠ [] := by
      cases ks with
      | nil => exact absurd rfl k1
      | cons k ks =>
        obtain ⟨d, w, rfl, _⟩ := k2 k (by simp)
        cases ks <;> simp [Driver.dotted, joinStr]
    rw [g2, Px.commaLoop, peek_is hx h]
    rcases hz with rfl | rfl <;> simp [identChar, Char.isAlphanum, Char.isAlpha, Char.isUpper, Char.isLower, Char.isDigit, hne]
  | ks :: ks2 :: kss, a, r, _, hk, h, n, hn => by
    have e : joinStr c!", " ((ks :: ks2 :: kss).map Driver.dotted) = Driver.dotted ks ++ c!", " ++ joinStr c!", " ((ks2 :: kss).map Driver.dotted) := rfl
    rw [e] at h hn ⊢
    obtain ⟨k1, k2⟩ := hk ks (by simp)
    have h1 : x.src = a ++ Driver.dotted ks ++ ',' :: (' ' :: (joinStr c!", " ((ks2 :: kss).map Driver.dotted) ++ z :: r)) := by rw [h]; simp
    have h2 : x.src = (a ++ Driver.dotted ks ++ c!",") ++ ' ' :: (joinStr c!", " ((ks2 :: kss).map Driver.dotted) ++ z :: r) := by rw [h]; simp
    have h3 : x.src = (a ++ Driver.dotted ks ++ c!", ") ++ joinStr c!", " ((ks2 :: kss).map Driver.dotted) ++ z :: r := by rw [h]; simp
    simp only [List.length_append, List.length_cons, List.length_nil] at hn
    obtain ⟨n', g1, g2⟩ := commaLoop_dotted hx (c := ',') (by decide) ks (cur := []) k1 k2 h1 ((joinStr c!", " ((ks2 :: kss).map Driver.dotted)).length + 3) n (by omega)
    obtain ⟨n', rfl⟩ : ∃ j, n' = j + 2 := ⟨n' - 2, by omega⟩
    have ih := commaLoop_list hx hz (ks2 :: kss) (by simp) (fun k hk' => hk k (by simp at hk' ⊢; tauto)) h3 n' (by omega)
    have e1 : (a ++ Driver.dotted ks).length + 1 = (a ++ Driver.dotted ks ++ c!",").length := by rw [List.length_append (as := a ++ Driver.dotted ks)]; rfl
    have e2 : (a ++ Driver.dotted ks ++ c!",").length + 1 = (a ++ Driver.dotted ks ++ c!", ").length := by
      rw [List.length_append (as := a ++ Driver.dotted ks), List.length_append (as := a ++ Driver.dotted ks)]; rfl
    rw [g2, Px.commaLoop, peek_is hx h1]
    simp only [show identChar ',' = false by decide, show ¬ (',' : Char) = '.' by decide, Bool.false_eq_true, if_false, if_true, e1]
    rw [Px.commaLoop, peek_is hx h2]
    simp only [show identChar ' ' = false by decide, show ¬ (' ' : Char) = '.' by decide, show ¬ (' ' : Char) = ',' by decide, Bool.false_eq_true, if_false, true_or, if_true, e2, ih, bind, Except.bind]
    simp

theorem classes_head : ∀ (kss : List (List Str)), kss ≠ [] → (∀ ks ∈ kss, ks ≠ [] ∧ ∀ k ∈ ks, Word k) → ∃ c r, joinStr c!", " (kss.map Driver.dotted) = c :: r ∧ identStart c = true
  | [], h, _ => absurd rfl h
  | ks :: kss, _, hk => by
    obtain ⟨k1, k2⟩ := hk ks (by simp)
    cases ks with
    | nil => exact absurd rfl k1
    | cons k ks =>
      obtain ⟨d, w, rfl, hd, _⟩ := k2 k (by simp)
      have : (joinStr c!", " ((((d :: w) :: ks) :: kss).map Driver.dotted)).head? = some d := by cases kss <;> cases ks <;> simp [Driver.dotted, joinStr]
      cases hj : joinStr c!", " ((((d :: w) :: ks) :: kss).map Driver.dotted) with
      | nil => rw [hj] at this; cases this
      | cons c r => rw [hj] at this; injection this with this; exact ⟨c, r, rfl, this ▸ hd⟩

/-- `#extends A, b.C` -/
theorem extends_ex {h : Env} (hx : h.exprExtends = false) {a b : Str} {kss : List (List Str)} (o : DLine x a (Top.extends_ kss).line z b post ws) (hne : kss ≠ []) (hk : ∀ ks ∈ kss, ks ≠ [] ∧ ∀ k ∈ ks, Word k) :
    x.directive h fullSt c!"extends" a.length = .ok (.go (.extends_ (joinStr c!", " (kss.map Driver.dotted)) :: ws) (a ++ c!"#" ++ (Top.extends_ kss).line ++ post).length) := by
  have hw : Word c!"extends" := word_of_ascii _ _ _ rfl (by decide) (by decide)
  have hdir : x.directive h fullSt c!"extends" a.length = x.extendsDirective h.exprExtends fullSt a.length := rfl
  obtain ⟨c, r, hcr, hc⟩ := classes_head kss hne hk
  have hs : x.src = (a ++ c!"#" ++ c!"extends" ++ c!" ") ++ joinStr c!", " (kss.map Driver.dotted) ++ z :: b := by rw [o.src]; simp [Top.line]
  have hs2 : x.src = (a ++ c!"#" ++ c!"extends" ++ c!" ") ++ c :: (r ++ z :: b) := by rw [hs, hcr]; simp
  have hrest := o.rest
  have hloop := commaLoop_list o.std o.stop kss hne hk hs (x.bp - (a ++ c!"#" ++ c!"extends" ++ c!" ").length + 1) (by
    rw [o.std.bp, hs]; simp; omega)
  have e1 : (a ++ c!"#" ++ c!"extends" ++ c!" " ++ joinStr c!", " (kss.map Driver.dotted)).length = (a ++ c!"#" ++ (Top.extends_ kss).line).length := by simp [Top.line]
  rw [hdir]
  unfold Px.extendsDirective Px.baseName Px.commaSymbols
  rw [o.afterName (n := c!"extends") (c := ' ') (r := joinStr c!", " (kss.map Driver.dotted)) hw (by simp [Top.line]), hx]
  simp only [bind, Except.bind, o.skip_name (n := c!"extends") (r := joinStr c!", " (kss.map Driver.dotted)) (by simp [Top.line]) (by
    rw [hcr]; intro d hd; injection hd with hd; subst hd; exact identStart_ws hc), Bool.false_eq_true, if_false, peek!_head o.std hs2, hc, if_true, hloop, Except.map, e1, o.rest]

/-- `#implements n` -/
theorem implements_ex {h : Env} {a b v : Str} (o : DLine x a (c!"implements " ++ v) z b post ws) (hv : Word v) :
    x.directive h fullSt c!"implements" a.length = .ok (.go (.implements_ v [] :: ws) (a ++ c!"#" ++ (c!"implements " ++ v) ++ post).length) := by
  have hw : Word c!"implements" := word_of_ascii _ _ _ rfl (by decide) (by decide)
  have hs : x.src = (a ++ c!"#" ++ c!"implements" ++ c!" ") ++ v ++ z :: b := by rw [o.src]; simp
  have hdir : x.directive h fullSt c!"implements" a.length = x.implementsDirective fullSt a.length := rfl
  have hid := identifier_word o.std hs hv (stop_facts o.stop).1
  obtain ⟨c, r, hcr, hc, _⟩ := id hv
  have e1 : (a ++ c!"#" ++ c!"implements" ++ c!" " ++ v).length = (a ++ c!"#" ++ (c!"implements " ++ v)).length := by simp
  have hexpr := o.expression2 (f := .nil) (n := c!"implements " ++ v) trivial (NoBs.append (by unfold NoBs; decide) (Dotted.one v hv).noBs) (by simp [Ex.src]) [] (by simp)
  have hpk : x.peek (a ++ c!"#" ++ (c!"implements " ++ v)).length = some z := by
    rw [← e1]; exact peek_is o.std hs
  have hz : some z ≠ some '(' := by rcases o.stop with rfl | rfl <;> decide
  rw [hdir]
  unfold Px.implementsDirective Px.optArgs'
  rw [o.afterName (n := c!"implements") (c := ' ') (r := v) hw (by simp)]
  simp only [bind, Except.bind, o.skip_name (n := c!"implements") (r := v) (by simp) (by
    rw [hcr]; intro d hd; injection hd with hd; subst hd; exact identStart_ws hc), hid, e1, hpk, if_neg hz, hexpr, o.rest]

/-- `#super` -/
theorem super_ex {h : Env} {a b : Str} (o : DLine x a c!"super" z b post ws) :
    x.directive h fullSt c!"super" a.length = .ok (.go (ws ++ [.super []]) (a ++ c!"#" ++ c!"super" ++ post).length) := by
  have hw : Word c!"super" := word_of_ascii _ _ _ rfl (by decide) (by decide)
  have hs : x.src = (a ++ c!"#" ++ c!"super") ++ z :: b := by rw [o.src]; simp
  have hdir : x.directive h fullSt c!"super" a.length = x.superDirective fullSt a.length := rfl
  have hexpr := o.expression2 (f := .nil) (n := c!"super") trivial (by unfold NoBs; decide) (by simp [Ex.src]) [] (by simp)
  have hz : some z ≠ some '(' := by rcases o.stop with rfl | rfl <;> decide
  have hsk : x.skip (a ++ c!"#" ++ c!"super").length = (a ++ c!"#" ++ c!"super").length := skip_none o.std hs (by rcases o.stop with rfl | rfl <;> simp)
  rw [hdir]
  unfold Px.superDirective Px.optArgs'
  rw [afterName_at o.std (n := c!"super") (c := z) (r := b) (by rw [o.src]) o.before hw]
  simp only [bind, Except.bind, hsk, peek_is o.std hs, if_neg hz, hexpr, o.rest]

/-- `#transform n` -/
theorem transform_ex {h : Env} {a b v : Str} (o : DLine x a (c!"transform " ++ v) z b post ws) (hv : Word v) :
    x.directive h fullSt c!"transform" a.length = .ok (.go (ws ++ [.setTransform v false]) (a ++ c!"#" ++ (c!"transform " ++ v) ++ post).length) := by
  have hw : Word c!"transform" := word_of_ascii _ _ _ rfl (by decide) (by decide)
  have hs : x.src = (a ++ c!"#" ++ c!"transform" ++ c!" ") ++ v ++ z :: b := by rw [o.src]; simp
  have hdir : x.directive h fullSt c!"transform" a.length = x.transformDirective fullSt a.length := rfl
  have hid := identifier_word o.std hs hv (stop_facts o.stop).1
  obtain ⟨c, r, hcr, hc, _⟩ := id hv
  have hm : x.matchVarStart (a ++ c!"#" ++ c!"transform" ++ c!" ").length = false :=
    varStart_false o.std (c := c) (r := r ++ z :: b) (by rintro rfl; exact absurd hc (by decide)) (by rw [hs, hcr]; simp)
  have e1 : (a ++ c!"#" ++ c!"transform" ++ c!" " ++ v).length = (a ++ c!"#" ++ (c!"transform " ++ v)).length := by simp
  have hsk : x.skip (a ++ c!"#" ++ c!"transform" ++ c!" " ++ v).length = (a ++ c!"#" ++ (c!"transform " ++ v)).length := by
    rw [skip_none o.std hs (by rcases o.stop with rfl | rfl <;> simp), e1]
  rw [hdir]
  unfold Px.transformDirective Px.filterName
  rw [o.afterName (n := c!"transform") (c := ' ') (r := v) hw (by simp)]
  simp only [bind, Except.bind, o.skip_name (n := c!"transform") (r := v) (by simp) (by
    rw [hcr]; intro d hd; injection hd with hd; subst hd; exact identStart_ws hc), hm, Bool.false_eq_true, if_false, hid, hsk, o.skipColon, o.rest]

/-- `#errorCatcher n` -/
theorem errorCatcher_ex {h : Env} {a b v : Str} (o : DLine x a (c!"errorCatcher " ++ v) z b post ws) (hv : Word v) :
    x.directive h fullSt c!"errorCatcher" a.length = .ok (.go (ws ++ [.errorCatcher v]) (a ++ c!"#" ++ (c!"errorCatcher " ++ v) ++ post).length) := by
  have hw : Word c!"errorCatcher" := word_of_ascii _ _ _ rfl (by decide) (by decide)
  have hs : x.src = (a ++ c!"#" ++ c!"errorCatcher" ++ c!" ") ++ v ++ z :: b := by rw [o.src]; simp
  have hdir : x.directive h fullSt c!"errorCatcher" a.length = x.errorCatcherDirective a.length := rfl
  have hid := identifier_word o.std hs hv (stop_facts o.stop).1
  obtain ⟨c, r, hcr, hc, _⟩ := id hv
  have e1 : (a ++ c!"#" ++ c!"errorCatcher" ++ c!" " ++ v).length = (a ++ c!"#" ++ (c!"errorCatcher " ++ v)).length := by simp
  rw [hdir]
  unfold Px.errorCatcherDirective
  rw [o.afterName (n := c!"errorCatcher") (c := ' ') (r := v) hw (by simp)]
  simp only [bind, Except.bind, o.skip_name (n := c!"errorCatcher") (r := v) (by simp) (by
    rw [hcr]; intro d hd; injection hd with hd; subst hd; exact identStart_ws hc), hid, e1, o.rest]

/-- `#attr $v = e` -/
theorem attr_ex {h : Env} {a b v : Str} {e : Ex} (o : DLine x a (c!"attr $" ++ v ++ c!" = " ++ e.src) z b post ws) (hv : Word v) (heq : ∀ r, x.tok ('=' :: ' ' :: r) = some 1) (he : Tidy x.tok z e) :
    x.directive h fullSt c!"attr" a.length = .ok (.go (.attr v (c!" " ++ e.py) :: ws) (a ++ c!"#" ++ (c!"attr $" ++ v ++ c!" = " ++ e.src) ++ post).length) := by
  have hw : Word c!"attr" := word_of_ascii _ _ _ rfl (by decide) (by decide)
  have hdir : x.directive h fullSt c!"attr" a.length = x.attrDirective fullSt a.length := rfl
  have s1 : x.src = (a ++ c!"#" ++ c!"attr" ++ c!" ") ++ '$' :: (v ++ (c!" = " ++ e.src ++ z :: b)) := by rw [o.src]; simp
  have s2 : x.src = (a ++ c!"#" ++ c!"attr" ++ c!" " ++ c!"$") ++ v ++ ' ' :: (c!"= " ++ e.src ++ z :: b) := by rw [o.src]; simp
  have s3 : x.src = (a ++ c!"#" ++ c!"attr" ++ c!" " ++ c!"$" ++ v) ++ c!" " ++ (c!"= " ++ e.src ++ z :: b) := by rw [o.src]; simp
  have s4 : x.src = (a ++ c!"#" ++ c!"attr" ++ c!" " ++ c!"$" ++ v ++ c!" ") ++ c!"=" ++ ' ' :: (e.src ++ z :: b) := by rw [o.src]; simp
  obtain ⟨c, r, hcr, hc, _⟩ := id hv
  have hm : x.matchVarStart (a ++ c!"#" ++ c!"attr" ++ c!" ").length = true := varStart_true o.std (.one v hv) s1 (NoBs.snoc _ (by decide))
  have hvs : x.varStart false (a ++ c!"#" ++ c!"attr" ++ c!" ").length = .ok (a ++ c!"#" ++ c!"attr" ++ c!" " ++ c!"$").length := by
    exact varStart_at o.std (d := c) (r := r ++ (c!" = " ++ e.src ++ z :: b)) (by rw [s1, hcr]; simp) (NoBs.snoc _ (by decide)) (.inl hc)
  have hid := identifier_word o.std s2 hv (by decide)
  have hsk : x.skip (a ++ c!"#" ++ c!"attr" ++ c!" " ++ c!"$" ++ v).length = (a ++ c!"#" ++ c!"attr" ++ c!" " ++ c!"$" ++ v ++ c!" ").length := by
    unfold Cx.skip
    rw [ws_at (w := c!" ") s3 o.std.bp (by simp) (by intro c hc; injection hc with hc; subst hc; decide)]
    simp only [List.length_append]
  have hass : x.assignOp (a ++ c!"#" ++ c!"attr" ++ c!" " ++ c!"$" ++ v ++ c!" ").length = .ok (c!"=", (a ++ c!"#" ++ (c!"attr $" ++ v ++ c!" =")).length) := by
    unfold Px.assignOp
    have htk := pyTok_at s4 o.std.bp (heq _)
    rw [htk]
    simp only [bind, Except.bind]
    rw [if_pos (by decide)]
    simp
    omega
  have hexpr := o.expression2 (f := .sp e) (n := c!"attr $" ++ v ++ c!" =") he.ok (by unfold NoBs; rw [getLast?_app (by simp)]; decide) (by simp [Ex.src]) [] (by simp)
  rw [hdir]
  unfold Px.attrDirective Px.skipVar
  rw [o.afterName (n := c!"attr") (c := ' ') (r := '$' :: v ++ c!" = " ++ e.src) hw (by simp)]
  simp only [bind, Except.bind, o.skip_name (n := c!"attr") (r := '$' :: v ++ c!" = " ++ e.src) (by simp) (by intro c hc; injection hc with hc; subst hc; decide), hm, if_true, hvs, hid, hsk, hass, hexpr, o.rest, Ex.py]
  rfl

/-- `#import e`, `#from e` -/
theorem import_ex {h : Env} {a b n : Str} {e : Ex} (o : DLine x a (n ++ c!" " ++ e.src) z b post ws) (he : Tidy x.tok z e) (hn : n = c!"import" ∨ n = c!"from") :
    x.directive h fullSt n a.length = .ok (.go (ws ++ [.simple n (n ++ c!" " ++ e.py)]) (a ++ c!"#" ++ (n ++ c!" " ++ e.src) ++ post).length) := by
  have hw : Word n ∧ n ∉ indentingNames ∧ n ∈ exprNames ∧ n ≠ c!"silent" ∧ n ≠ c!"echo" ∧ n ∉ closeable ∧ n ≠ c!"for" ∧ n ≠ c!"then" ∧
      (∀ r, (n ++ ' ' :: r).takeWhile (fun c => !isSpace c) = n) ∧ (∀ c, n.head? = some c → isSpace c = false) ∧ n ≠ [] := by
    rcases hn with rfl | rfl <;>
      exact ⟨word_of_ascii _ _ _ rfl (by decide) (by decide), by decide, by decide, by decide, by decide, by decide, by decide, by decide,
        fun r => (takeWhile_stop (t := ' ' :: r) (by decide +kernel) (by rintro _ ⟨⟩; decide +kernel)).1, by decide +kernel, by decide⟩
  obtain ⟨w1, w2, w3, w4, w5, w6, w7, w8, w9, w10, w11⟩ := hw
  have hL : n ++ c!" " ++ e.src = (Ex.tok n (.sp e)).src := by simp [Ex.src]
  have hexpr := o.expression (ok_named o.toks w1 ⟨w7, w8⟩ he.ok) hL [] (by simp)
  obtain ⟨d, r', p1, p2⟩ := he.py_head
  have hstrip : strip (n ++ ' ' :: e.py) = n ++ ' ' :: e.py := by
    refine strip_self ?_ ?_
    · intro c hc
      rw [List.head?_append] at hc
      cases hh : n.head? with
      | none => exact absurd (List.head?_eq_none_iff.1 hh) w11
      | some q => rw [hh] at hc; exact w10 c (hh.trans hc)
    · intro c hc
      rw [show n ++ ' ' :: e.py = (n ++ c!" ") ++ e.py by simp, getLast?_app (by rw [p1]; simp)] at hc
      exact (he.py_last c hc).1
  unfold Px.directive
  rw [if_neg w2, if_pos w3]
  unfold Px.simpleExpr Px.nameStart
  rw [if_neg (by simp [w4, w5]), o.dirStart (n := n) (r := c!" " ++ e.src) w1 (by simp)]
  simp only [bind, Except.bind, hexpr, Ex.py, hstrip, w9, if_neg w11, o.rest, if_neg w6]
  simp

theorem rstrip_eol {t : Str} (ht : ∀ c, t.getLast? = some c → isSpace c = false) : rstrip (t ++ c!"\n") = t := by
  induction t with
  | nil => decide +kernel
  | cons d t ih =>
    rw [List.cons_append, rstrip]
    have hh : rstrip (t ++ c!"\n") = t := by
      by_cases hn : t = []
      · subst hn; decide +kernel
      · exact ih fun c hc => ht c (by rw [show d :: t = [d] ++ t from rfl, getLast?_app hn]; exact hc)
    rw [hh]
    cases t with
    | nil => simp [ht d rfl]
    | cons => rfl

/-- `#encoding t`, `#shBang t` -/
theorem text_ex {n : Str} {mk : Str → Cmd} {a b t : Str} (o : DLine x a (n ++ c!" " ++ t) '\n' b c!"\n" [.handleWS]) (hw : Word n) (h1 : ∃ c r, t = c :: r ∧ isSpace c = false)
    (h2 : ∀ c, t.getLast? = some c → isSpace c = false) (h3 : OneLine t) :
    x.textDirective n mk a.length = .ok (.go [mk t] (a ++ c!"#" ++ (n ++ c!" " ++ t) ++ c!"\n").length) := by
  obtain ⟨c, r, hcr, hc⟩ := h1
  have hs : x.src = (a ++ c!"#" ++ n ++ c!" ") ++ t ++ '\n' :: b := by rw [o.src]; simp
  have heol := (eol_at (x := x.toCx) hs h3).2
  have e : (a ++ c!"#" ++ n ++ c!" " ++ t).length + 1 = (a ++ c!"#" ++ (n ++ c!" " ++ t) ++ c!"\n").length := by simp; omega
  have hsl : x.slice (a ++ c!"#" ++ n ++ c!" ").length (a ++ c!"#" ++ (n ++ c!" " ++ t) ++ c!"\n").length = t ++ c!"\n" := by
    unfold Cx.slice
    rw [show x.src = (a ++ c!"#" ++ (n ++ c!" " ++ t) ++ c!"\n") ++ b by rw [hs]; simp, List.take_left,
      show a ++ c!"#" ++ (n ++ c!" " ++ t) ++ c!"\n" = (a ++ c!"#" ++ n ++ c!" ") ++ (t ++ c!"\n") by simp, List.drop_left]
  have hst : strip (t ++ c!"\n") = t := by
    have hl : lstrip (t ++ c!"\n") = t ++ c!"\n" := by rw [hcr]; exact lstrip_eq_self (by simpa using hc)
    rw [strip, hl]
    exact rstrip_eol h2
  unfold Px.textDirective
  rw [o.afterName (n := n) (c := ' ') (r := t) hw (by simp)]
  simp only [bind, Except.bind, o.skip_name (n := n) (r := t) (by simp) (by
    rw [hcr]; intro d hd; injection hd with hd; subst hd; intro h; revert hc; simp at h; rcases h with rfl | rfl | rfl <;> decide +kernel), Cx.readToEOL, if_true, heol, e]
  rw [goto_le o.std (by rw [hs]; simp)]
  simp only [hsl, hst]

/-! ### Whole sources -/

/-- The name of the directive. -/
def Top.name : Top → Str
  | .extends_ _ => c!"extends"
  | .implements_ _ => c!"implements"
  | .attr _ _ => c!"attr"
  | .import_ _ => c!"import"
  | .from_ _ => c!"from"
  | .encoding _ => c!"encoding"
  | .shBang _ => c!"shBang"
  | .transform _ => c!"transform"
  | .errorCatcher _ => c!"errorCatcher"
  | .super => c!"super"

theorem classes_oneLine {kss : List (List Str)} (hk : ∀ ks ∈ kss, ks ≠ [] ∧ ∀ k ∈ ks, Word k) : OneLine (joinStr c!", " (kss.map Driver.dotted)) := by
  have join : ∀ (sep : Str) (l : List Str), OneLine sep → (∀ s ∈ l, OneLine s) → OneLine (joinStr sep l) := by
    intro sep l hs
    induction l with
    | nil => intro _; unfold OneLine; simp [joinStr]
    | cons s l ih =>
      intro h
      cases l with
      | nil => exact h s (by simp)
      | cons t l => exact ((h s (by simp)).append hs).append (ih fun u hu => h u (by simp at hu ⊢; tauto))
  refine join _ _ (by unfold OneLine; decide) fun s hs => ?_
  obtain ⟨ks, h1, rfl⟩ := List.mem_map.1 hs
  exact join _ _ (by unfold OneLine; decide) fun k hk' => ((hk ks h1).2 k hk').no_eol

theorem Top.facts {tok : Str → Option Nat} (t : Top) (hok : t.Ok tok) (b : Str) :
    OneLine t.line ∧ (∃ c r, t.line = c :: r ∧ identStart c = true) ∧ directiveOf stdNames (t.line ++ '\n' :: b) = some t.name := by
  cases t with
  | extends_ kss => exact ⟨OneLine.append (by unfold OneLine; decide) (classes_oneLine hok.2), ⟨'e', _, rfl, by decide⟩, rfl⟩
  | implements_ n => exact ⟨OneLine.append (by unfold OneLine; decide) (Word.no_eol hok), ⟨'i', _, rfl, by decide⟩, rfl⟩
  | attr v e =>
    exact ⟨((OneLine.append (by unfold OneLine; decide) hok.1.no_eol).append (by unfold OneLine; decide)).append (Ex.no_eol _ _ _ hok.2.2.ok), ⟨'a', _, rfl, by decide⟩, rfl⟩
  | import_ e => exact ⟨OneLine.append (by unfold OneLine; decide) (Ex.no_eol _ _ _ (Tidy.ok hok)), ⟨'i', _, rfl, by decide⟩, rfl⟩
  | from_ e => exact ⟨OneLine.append (by unfold OneLine; decide) (Ex.no_eol _ _ _ (Tidy.ok hok)), ⟨'f', _, rfl, by decide⟩, rfl⟩
  | encoding t => exact ⟨OneLine.append (by unfold OneLine; decide) hok.2.2, ⟨'e', _, rfl, by decide⟩, rfl⟩
  | shBang t => exact ⟨OneLine.append (by unfold OneLine; decide) hok.2.2, ⟨'s', _, rfl, by decide⟩, rfl⟩
  | transform n => exact ⟨OneLine.append (by unfold OneLine; decide) (Word.no_eol hok), ⟨'t', _, rfl, by decide⟩, rfl⟩
  | errorCatcher n => exact ⟨OneLine.append (by unfold OneLine; decide) (Word.no_eol hok), ⟨'e', _, rfl, by decide⟩, rfl⟩
  | super => exact ⟨by unfold OneLine; decide, ⟨'s', _, rfl, by decide⟩, rfl⟩

variable {h : Env}

theorem Top.reach (hp : Tame h) (hx : h.exprExtends = false) {a b : Str} {s : PS} {t : Top} (hs : h.src = a ++ t.src ++ b) (ha : EndsLine a) (hok : t.Ok h.tok)
    (hpos : s.pos = a.length) (hbp : s.bp = h.src.length) (hst : s.st = fullSt) :
    Reaches h s (s.emit t.cmds (a ++ t.src).length) := by
  obtain ⟨f1, f2, f3⟩ := t.facts hok b
  have hs' : h.src = a ++ '#' :: (t.line ++ '\n' :: b) := by rw [hs]; simp [Top.src]
  have o : DLine (h.px h.src.length) a t.line '\n' b c!"\n" [.handleWS] :=
    ⟨hp.std, names_std hp.toPlain, hp.toks, hp.brackets, hs', (EndsLine.clear ha).unescaped, f1, fun e => absurd e (by decide), (EndsLine.clear ha).close b⟩
  have e : a ++ t.src = a ++ c!"#" ++ t.line ++ c!"\n" := by simp [Top.src]
  rw [e]
  refine reach_dir hp (name := t.name) o f2 f3 hpos hbp hst (act := .go t.cmds (a ++ c!"#" ++ t.line ++ c!"\n").length) ?_ (fun k => by rw [Env.perform]) rfl
  cases t with
  | extends_ kss => exact extends_ex hx o hok.1 hok.2
  | implements_ n => exact implements_ex o hok
  | attr v e => exact attr_ex o hok.1 hok.2.1 hok.2.2
  | import_ e => exact import_ex (n := c!"import") o hok (.inl rfl)
  | from_ e => exact import_ex (n := c!"from") o hok (.inr rfl)
  | encoding t => exact text_ex (n := c!"encoding") o (word_of_ascii _ _ _ rfl (by decide) (by decide)) hok.1 hok.2.1 hok.2.2
  | shBang t => exact text_ex (n := c!"shBang") o (word_of_ascii _ _ _ rfl (by decide) (by decide)) hok.1 hok.2.1 hok.2.2
  | transform n => exact transform_ex o hok
  | errorCatcher n => exact errorCatcher_ex o hok
  | super => exact super_ex o

theorem Top.reach_all (hp : Tame h) (hx : h.exprExtends = false) : ∀ (ts : List Top) {a b : Str} {s : PS}, h.src = a ++ ts.flatMap Top.src ++ b → EndsLine a → (∀ t ∈ ts, t.Ok h.tok) →
    s.pos = a.length → s.bp = h.src.length → s.st = fullSt → Reaches h s (s.emit (ts.flatMap Top.cmds) (a ++ ts.flatMap Top.src).length) ∧ EndsLine (a ++ ts.flatMap Top.src)
  | [], a, b, s, hs, ha, _, hpos, _, _ => by
    have : s.emit [] a.length = s := by rw [← hpos]; simp [PS.emit]
    simp only [List.flatMap_nil, List.append_nil, this]
    exact ⟨Reaches.refl _ _, ha⟩
  | t :: ts, a, b, s, hs, ha, hok, hpos, hbp, hst => by
    have hs1 : h.src = a ++ t.src ++ (ts.flatMap Top.src ++ b) := by rw [hs]; simp
    have hs2 : h.src = (a ++ t.src) ++ ts.flatMap Top.src ++ b := by rw [hs]; simp
    have ha2 : EndsLine (a ++ t.src) := .inr ⟨a ++ c!"#" ++ t.line, '\n', by simp [Top.src], by decide⟩
    have r1 := Top.reach hp hx hs1 ha (hok t (by simp)) hpos hbp hst
    obtain ⟨r2, r3⟩ := Top.reach_all hp hx ts (s := s.emit t.cmds (a ++ t.src).length) hs2 ha2 (fun u hu => hok u (by simp [hu])) rfl hbp hst
    have := r1.trans r2
    rw [PS.emit_emit] at this
    simp only [List.flatMap_cons, ← List.append_assoc]
    exact ⟨this, r3⟩

/-- The commands for directives at the top and what follows them. -/
theorem parse_top (hp : Tame h) (hx : h.exprExtends = false) (ts : List Top) (hts : ∀ t ∈ ts, t.Ok h.tok) (d : Doc) (hok : d.Ok h.tok true none)
    (hs : h.src = ts.flatMap Top.src ++ d.src) : h.parse fullSt = .ok (ts.flatMap Top.cmds ++ d.cmds []) := by
  obtain ⟨r1, ha⟩ := Top.reach_all hp hx ts (a := []) (b := d.src) (s := { pos := 0, bp := h.src.length, st := fullSt }) (by simp [hs]) (.inl rfl) hts rfl rfl rfl
  rw [List.nil_append] at r1 ha
  have r2 := Doc.reach hp d (a := ts.flatMap Top.src) (i := []) (b := []) (s := PS.emit { pos := 0, bp := h.src.length, st := fullSt } (ts.flatMap Top.cmds) (ts.flatMap Top.src).length)
    hok (by simp [PS.emit]) (by simp [hs]) rfl rfl rfl (EndsLine.clear ha).unescaped (fun _ => ha) (by simp) ⟨rfl, rfl⟩
  have r := r1.trans r2
  rw [PS.emit_emit] at r
  obtain ⟨k, hk, he⟩ := r (3 * h.src.length + 4) (by show _ ≤ _ + 0; omega)
  have hpos : (PS.emit { pos := 0, bp := h.src.length, st := fullSt } (ts.flatMap Top.cmds ++ d.cmds []) (ts.flatMap Top.src ++ d.src ++ []).length).pos = h.src.length := by simp [PS.emit, hs]
  rw [hpos] at hk
  obtain ⟨k, rfl⟩ : ∃ j, k = j + 1 := ⟨k - 1, by omega⟩
  unfold Env.parse
  rw [he, Env.loop, if_pos (by simp [PS.emit, hs])]
  simp [PS.emit, bind, Except.bind]

end Cheetah.Parser
