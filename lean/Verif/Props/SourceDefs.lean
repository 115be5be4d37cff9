import Verif.Props.SourceParse
import Verif.Props.ParserNest
/-
What the parser makes of `#set global`, `#include`, definitions, `#slurp` and `#raw`.
-/
namespace Cheetah.Parser
open Reader (EndsLine)

variable {x : Px} {z : Char} {post : Str} {ws : List Cmd}

/-! ### `#set global` -/

theorem set_global_ex {h : Env} {a b v op : Str} {e : Ex} (o : DLine x a (c!"set global $" ++ v ++ c!" " ++ op ++ c!" " ++ e.src) z b post ws) (hop : op ∈ setOps) (heq : ∀ r, x.tok (op ++ ' ' :: r) = some op.length) (he : Tidy x.tok z e) (hv : Dotted v) :
    x.directive h fullSt c!"set" a.length = .ok (.go (ws ++ [.set v op (' ' :: e.py) 1]) (a ++ c!"#" ++ (c!"set global $" ++ v ++ c!" " ++ op ++ c!" " ++ e.src) ++ post).length) := by
  have hw : Word c!"set" := word_of_ascii _ _ _ rfl (by decide) (by decide)
  have hg : Word c!"global" := word_of_ascii _ _ _ rfl (by decide) (by decide)
  have s1 : x.src = (a ++ c!"#" ++ c!"set" ++ c!" ") ++ c!"global" ++ ' ' :: ('$' :: (v ++ ' ' :: (op ++ (' ' :: (e.src ++ z :: b))))) := by rw [o.src]; simp
  have s2 : x.src = (a ++ c!"#" ++ c!"set" ++ c!" " ++ c!"global") ++ c!" " ++ ('$' :: (v ++ ' ' :: (op ++ (' ' :: (e.src ++ z :: b))))) := by rw [o.src]; simp
  have s3 : x.src = (a ++ c!"#" ++ c!"set global" ++ c!" ") ++ ('$' :: (v ++ ' ' :: (op ++ (' ' :: (e.src ++ z :: b))))) := by rw [o.src]; simp
  have s4 : x.src = (a ++ c!"#" ++ c!"set global" ++ c!" " ++ '$' :: (v ++ c!" ")) ++ op ++ (' ' :: (e.src ++ z :: b)) := by rw [o.src]; simp
  have s5 : x.src = (a ++ c!"#" ++ c!"set global" ++ c!" " ++ '$' :: (v ++ c!" ") ++ op) ++ (Ex.sp e).src ++ z :: b := by rw [o.src]; simp [Ex.src]
  have hk : ∃ k, x.fuel (a ++ c!"#" ++ c!"set global" ++ c!" ").length = k + 4 := ⟨4 * (x.bp - (a ++ c!"#" ++ c!"set global" ++ c!" ").length), rfl⟩
  obtain ⟨k, hk⟩ := hk
  have htar := exprParts_target o.std (brk := assignOps) k s3 (NoBs.snoc _ (by decide)) hv (heq _) (setOps_head hop) (setOps_assign hop)
  have hl : x.expression plainSt false assignOps [] (a ++ c!"#" ++ c!"set global" ++ c!" ").length = .ok (v ++ c!" ", (a ++ c!"#" ++ c!"set global" ++ c!" " ++ '$' :: (v ++ c!" ")).length) := by
    unfold Px.expression
    rw [hk, htar]
    simp [bind, Except.bind]
  have hass : x.assignOp (a ++ c!"#" ++ c!"set global" ++ c!" " ++ '$' :: (v ++ c!" ")).length = .ok (op, (a ++ c!"#" ++ c!"set global" ++ c!" " ++ '$' :: (v ++ c!" ") ++ op).length) := by
    unfold Px.assignOp
    have htk := pyTok_at s4 o.std.bp (heq _)
    rw [← List.length_append] at htk
    rw [htk]
    simp [bind, Except.bind, setOps_assign hop]
  have hr := expression_ex o.std o.brackets o.stop (e := .sp e) he.ok s5 (setOps_noBs hop _) [] (by simp)
  have e1 : (a ++ c!"#" ++ c!"set global" ++ c!" " ++ '$' :: (v ++ c!" ") ++ op) ++ (Ex.sp e).src = a ++ c!"#" ++ (c!"set global $" ++ v ++ c!" " ++ op ++ c!" " ++ e.src) := by simp [Ex.src]
  rw [e1] at hr
  have hskip : x.skip (a ++ c!"#" ++ c!"set" ++ c!" " ++ c!"global").length = (a ++ c!"#" ++ c!"set global" ++ c!" ").length := by
    unfold Cx.skip
    rw [ws_at s2 o.std.bp (by simp) (by intro c hc; injection hc with hc; subst hc; decide)]
    simp
  have hstyle : x.setStyle (a ++ c!"#" ++ c!"set" ++ c!" ").length = .ok (1, (a ++ c!"#" ++ c!"set global" ++ c!" ").length) := by
    unfold Px.setStyle
    rw [rest_after (a := a ++ c!"#" ++ c!"set" ++ c!" ") (b := c!"global" ++ ' ' :: ('$' :: (v ++ ' ' :: (op ++ (' ' :: (e.src ++ z :: b)))))) (by rw [s1]; simp)]
    rw [if_neg (by simp [startsWith, stripPrefix?]), if_pos (by simp [startsWith, stripPrefix?]), identifier_word o.std s1 hg space_facts.1]
    simp only [bind, Except.bind, hskip]
  have hstrip : strip (v ++ c!" ") = v := strip_trail hv.no_space.1 hv.no_space.2
  have hst : ({ fullSt with useNameMapper := false } : GenVar.Settings) = plainSt := rfl
  have hdir : x.directive h fullSt c!"set" a.length = x.setDirective fullSt a.length := rfl
  rw [hdir]
  unfold Px.setDirective
  rw [o.afterName (n := c!"set") (c := ' ') (r := c!"global $" ++ v ++ c!" " ++ op ++ c!" " ++ e.src) hw (by simp)]
  simp only [bind, Except.bind, o.skip_name (n := c!"set") (r := c!"global $" ++ v ++ c!" " ++ op ++ c!" " ++ e.src) (by simp) (by intro c hc; injection hc with hc; subst hc; decide), hstyle, hst, hl, hass, hr, o.rest, hstrip, Ex.py]

/-! ### `#include` -/

theorem startsWith_line : ∀ {w s b : Str}, z ∉ w → startsWith s w = false → startsWith (s ++ z :: b) w = false
  | [], _, _, _, h => by simp [startsWith, stripPrefix?] at h
  | d :: w, [], b, hw, _ => by
    have : d ≠ z := by rintro rfl; simp at hw
    simp [startsWith, stripPrefix?, this]
  | d :: w, c :: s, b, hw, h => by
    have ih := startsWith_line (w := w) (s := s) (b := b) (by simp at hw; exact hw.2)
    simp only [startsWith, stripPrefix?, List.cons_append] at h ih ⊢
    split <;> rename_i hc
    · rw [if_pos hc] at h; exact ih h
    · rfl

theorem skip_blank (hx : Std x.toCx) {a r : Str} (h : x.src = a ++ ' ' :: r) (hr : ∀ c, r.head? = some c → c ∉ c!" \t\x0c") : x.skip a.length = (a ++ c!" ").length := by
  unfold Cx.skip
  rw [ws_at (w := c!" ") (r := r) (by rw [h]; simp) hx.bp (by simp) hr]
  simp

theorem include_ex {h : Env} {a b : Str} {raw source : Bool} {e : Ex} (o : DLine x a (Stm.include_ raw source e).line z b post ws) (he : Tidy x.tok z e)
    (hr : startsWith e.src c!"raw" = false) (hs : startsWith e.src c!"source" = false) :
    x.directive h fullSt c!"include" a.length = .ok (.go (ws ++ [.include_ e.py source raw]) (a ++ c!"#" ++ (Stm.include_ raw source e).line ++ post).length) := by
  have hw : Word c!"include" := word_of_ascii _ _ _ rfl (by decide) (by decide)
  have hsrc := o.src
  have hrest := o.rest
  obtain ⟨d, r', hd, hd2⟩ := he.head
  have hsrcOpt : ∀ p, x.src = p ++ ((if source then c!"source=" else []) ++ (e.src ++ z :: b)) → x.includeSource p.length = .ok (source, (p ++ (if source then c!"source=" else [])).length) := by
    intro p hp
    unfold Px.includeSource
    rw [rest_after hp]
    cases source with
    | true =>
      have h2 : x.src = (p ++ c!"source") ++ '=' :: (e.src ++ z :: b) := by rw [hp]; simp
      rw [if_pos (by simp [startsWith, stripPrefix?])]
      rw [show p.length + 6 = (p ++ c!"source").length by simp]
      simp only [bind, Except.bind, goto_le o.std (p := (p ++ c!"source").length) (by rw [h2]; simp), skip_none o.std h2 (by simp), peek!_head o.std h2, if_true]
      rw [show (p ++ c!"source").length + 1 = (p ++ c!"source=").length by simp, goto_le o.std (by rw [h2]; simp)]
    | false =>
      have : startsWith (e.src ++ z :: b) c!"source" = false := startsWith_line (by rcases o.stop with rfl | rfl <;> decide) hs
      simp only [Bool.false_eq_true, if_false, List.nil_append, this, List.append_nil]
  have hhead : ∀ c, ((if source then c!"source=" else []) ++ (e.src ++ z :: b)).head? = some c → c ∉ c!" \t\x0c" := by
    cases source with
    | true => intro c hc; injection hc with hc; subst hc; decide
    | false => exact he.head_ws _
  have hex : ∀ p, x.src = p ++ ((if source then c!"source=" else []) ++ (e.src ++ z :: b)) → NoBs p →
      x.expression fullSt false [] [] (p ++ (if source then c!"source=" else [])).length = .ok (e.py, (p ++ (if source then c!"source=" else []) ++ e.src).length) := by
    intro p hp hb
    refine expression_ex o.std o.brackets o.stop he.ok (r := b) (by rw [hp]; simp) (hb.append ?_) [] (by simp)
    cases source <;> (unfold NoBs; decide)
  have hdir : x.directive h fullSt c!"include" a.length = x.includeDirective fullSt a.length := rfl
  rw [hdir]
  unfold Px.includeDirective
  have hn : x.skip (a ++ c!"#" ++ c!"include").length = (a ++ c!"#" ++ c!"include" ++ c!" ").length := by
    refine skip_blank o.std (r := (if raw then c!"raw " else []) ++ ((if source then c!"source=" else []) ++ (e.src ++ z :: b))) (by rw [hsrc]; simp [Stm.line]) ?_
    cases raw with
    | true => intro c hc; injection hc with hc; subst hc; decide
    | false => exact hhead
  rw [o.afterName (n := c!"include") (c := ' ') (r := (if raw then c!"raw " else []) ++ (if source then c!"source=" else []) ++ e.src) hw (by simp [Stm.line])]
  simp only [bind, Except.bind, hn]
  cases raw with
  | true =>
    simp only [Stm.line, if_true] at hsrc hrest ⊢
    have h1 : x.src = (a ++ c!"#" ++ c!"include" ++ c!" ") ++ (c!"raw " ++ ((if source then c!"source=" else []) ++ (e.src ++ z :: b))) := by rw [hsrc]; simp
    have h2 : x.src = (a ++ c!"#" ++ c!"include" ++ c!" " ++ c!"raw") ++ ' ' :: ((if source then c!"source=" else []) ++ (e.src ++ z :: b)) := by rw [hsrc]; simp
    have h3 : x.src = (a ++ c!"#" ++ c!"include" ++ c!" " ++ c!"raw" ++ c!" ") ++ ((if source then c!"source=" else []) ++ (e.src ++ z :: b)) := by rw [hsrc]; simp
    have hsw : startsWith (c!"raw " ++ ((if source then c!"source=" else []) ++ (e.src ++ z :: b))) c!"raw" = true := by simp [startsWith, stripPrefix?]
    rw [rest_after h1, hsw]
    simp only [if_true]
    rw [show (a ++ c!"#" ++ c!"include" ++ c!" ").length + 3 = (a ++ c!"#" ++ c!"include" ++ c!" " ++ c!"raw").length by simp]
    have hE := hex _ h3 (NoBs.snoc _ (by decide))
    have hl : a ++ c!"#" ++ c!"include" ++ c!" " ++ c!"raw" ++ c!" " ++ (if source then c!"source=" else []) ++ e.src = a ++ c!"#" ++ (c!"include " ++ c!"raw " ++ (if source then c!"source=" else []) ++ e.src) := by simp
    rw [hl] at hE
    simp only [goto_le o.std (p := (a ++ c!"#" ++ c!"include" ++ c!" " ++ c!"raw").length) (by rw [h2]; simp), skip_blank o.std h2 hhead, hsrcOpt _ h3, hE, hrest]
  | false =>
    simp only [Stm.line, Bool.false_eq_true, if_false, List.append_nil] at hsrc hrest ⊢
    have h1 : x.src = (a ++ c!"#" ++ c!"include" ++ c!" ") ++ ((if source then c!"source=" else []) ++ (e.src ++ z :: b)) := by rw [hsrc]; simp
    have hsw : startsWith ((if source then c!"source=" else []) ++ (e.src ++ z :: b)) c!"raw" = false := by
      cases source with
      | true => simp [startsWith, stripPrefix?]
      | false => exact startsWith_line (by rcases o.stop with rfl | rfl <;> decide) hr
    rw [rest_after h1, hsw]
    simp only [Bool.false_eq_true, if_false]
    have hE := hex _ h1 (NoBs.snoc _ (by decide))
    have hl : a ++ c!"#" ++ c!"include" ++ c!" " ++ (if source then c!"source=" else []) ++ e.src = a ++ c!"#" ++ (c!"include " ++ (if source then c!"source=" else []) ++ e.src) := by simp
    rw [hl] at hE
    simp only [goto_le o.std (p := (a ++ c!"#" ++ c!"include" ++ c!" ").length) (by rw [h1]; simp), skip_none o.std h1 hhead, hsrcOpt _ h1, hE, hrest]

/-! ### Definitions -/

theorem dropSelf_same {as : List (Str × Option Str)} (h : ∀ a ∈ as, a.1 ≠ c!"self") : dropSelf as = as := by
  cases as with
  | nil => rfl
  | cons a as =>
    obtain ⟨n, d⟩ := a
    rw [dropSelf, if_neg (h (n, d) (by simp))]

theorem written_pos {tok : Str → Option Nat} {r t : Str} {as : List (Str × Option Str)} (h : Written tok r as t) : r.length < t.length := by
  induction h with
  | nil w _ => simp; omega
  | last a t ho =>
    obtain ⟨u, rfl⟩ := one_suffix ho
    simp; omega
  | cons a as t u _ ho ih =>
    obtain ⟨v, rfl⟩ := one_suffix ho
    simp; omega

theorem definition_ex {h : Env} {kind : DefKind} {a b n : Str} {sig : Sig} (hcfg : x.cfg = Cfg.std) (o : DLine x a (kind.name ++ c!" " ++ n ++ sig.src) '\n' b c!"\n" [.handleWS]) (hn : Word n) (hsig : sig.Ok x.tok) :
    x.directive h fullSt kind.name a.length = .ok (.defOpen kind n sig.as [.handleWS] (a ++ c!"#" ++ (kind.name ++ c!" " ++ n ++ sig.src) ++ c!"\n").length) := by
  have hw : Word kind.name := by cases kind <;> exact word_of_ascii _ _ _ rfl (by decide) (by decide)
  have hdir : x.directive h fullSt kind.name a.length = x.definition fullSt kind a.length := by cases kind <;> rfl
  rw [hdir]
  unfold Px.definition
  have hend := o.src_end
  have hexpr : x.expression fullSt false [] [] (a ++ c!"#" ++ (kind.name ++ c!" " ++ n ++ sig.src)).length = .ok ([], (a ++ c!"#" ++ (kind.name ++ c!" " ++ n ++ sig.src)).length) := by
    unfold Px.expression Px.fuel
    rw [exprParts_eol o.std fullSt _ hend]
    rfl
  have hrest : x.restTag (x.lineClear a.length) (x.eol (a ++ c!"#" ++ (kind.name ++ c!" " ++ n ++ sig.src)).length) (a ++ c!"#" ++ (kind.name ++ c!" " ++ n ++ sig.src)).length =
      .ok ([.handleWS], (a ++ c!"#" ++ (kind.name ++ c!" " ++ n ++ sig.src) ++ c!"\n").length) := by
    rw [o.clear]
    refine restTag_eol o.std hend (Nat.le_of_eq ?_)
    have := (eol_at (x := x.toCx) (a := a ++ c!"#" ++ (kind.name ++ c!" " ++ n ++ sig.src)) (t := []) (b := b) (by rw [hend]; simp) (by simp)).1
    rw [this, List.append_nil]
  have hnm : x.src = (a ++ c!"#" ++ kind.name ++ c!" ") ++ n ++ (sig.src ++ '\n' :: b) := by rw [o.src]; simp
  have hid : x.identifier (a ++ c!"#" ++ kind.name ++ c!" ").length = .ok (n, (a ++ c!"#" ++ kind.name ++ c!" " ++ n).length) := by
    cases sig with
    | bare => exact identifier_word o.std hnm hn newline_facts.1
    | args s as => exact identifier_word o.std (c := '(') (r := s ++ '\n' :: b) hnm hn (by decide)
  have hsk : x.skip (a ++ c!"#" ++ kind.name ++ c!" " ++ n).length = (a ++ c!"#" ++ kind.name ++ c!" " ++ n).length := by
    refine skip_none o.std hnm ?_
    cases sig with
    | bare => intro c hc; injection hc with hc; subst hc; decide
    | args s as => intro c hc; injection hc with hc; subst hc; decide
  have hargs : x.optArgs fullSt (a ++ c!"#" ++ kind.name ++ c!" " ++ n).length = .ok (sig.as, (a ++ c!"#" ++ (kind.name ++ c!" " ++ n ++ sig.src)).length) := by
    unfold Px.optArgs
    cases sig with
    | bare =>
      rw [peek!_head o.std (c := '\n') (b := b) (by rw [hnm]; rfl)]
      simp [bind, Except.bind, Sig.as, Sig.src]
    | args s as =>
      rw [peek!_head o.std (c := '(') (b := s ++ '\n' :: b) (by rw [hnm]; rfl)]
      simp only [bind, Except.bind, if_true]
      rw [C41_arguments_partial x fullSt false o.std.bp hcfg o.brackets (a ++ c!"#" ++ kind.name ++ c!" " ++ n) (s ++ '\n' :: b) ('\n' :: b) as (hsig.2.1 b) (by rw [hnm]; rfl)]
      have hs : 0 < s.length := by
        have := written_pos (hsig.2.1 b)
        simp at this
        omega
      have hl : x.src.length - ('\n' :: b).length - 1 + 1 = (a ++ c!"#" ++ (kind.name ++ c!" " ++ n ++ '(' :: s)).length := by
        rw [hnm]; simp [Sig.src]; omega
      simp only [hl]
      rw [goto_le o.std (by rw [hnm]; simp [Sig.src])]
      simp only [Sig.as, Sig.src]
      rw [dropSelf_same fun p hp => ?_]
      have := (hsig.2.2 p hp).2
      rintro hh
      rw [hh] at this
      exact this (by simp [ownNames])
  rw [o.afterName (n := kind.name) (c := ' ') (r := n ++ sig.src) hw (by simp)]
  have hsn := o.skip_name (n := kind.name) (r := n ++ sig.src) (by simp) (by
    intro c hc
    rw [List.append_assoc] at hc
    exact identStart_ws (hn.head _ c hc))
  simp only [bind, Except.bind, hsn, Px.skipVar, novar_word o.std hnm hn, Bool.false_eq_true, if_false, hid, hsk, hargs, o.colon, peek!_head o.std hend, Char.reduceEq, false_and, hexpr, hrest]

/-! ### `#raw` -/

/-- The search for `#end raw`, from any place in the text. -/
theorem endScan_raw (hx : Std x.toCx) (hns : x.cfg.names = stdNames) {A s j b : Str} (h : x.src = A ++ s ++ j ++ '#' :: (c!"end raw" ++ '\n' :: b)) (hA : EndsLine A) (hs : AtBol true s)
    (hn : ¬ ∃ u v, s = u ++ c!"#end" ++ v) (hj : Blanks j) :
    ∀ (w u : Str), s ++ j = u ++ w → ∀ n, w.length < n →
      x.endScan c!"raw" n (A ++ u).length = .ok ((A ++ s).length, (A ++ s ++ j ++ c!"#end raw").length, true) := by
  obtain ⟨ns, hcfg⟩ := id hx.cfg
  have hd : x.cfg.dir = c!"#" := by rw [hcfg]; rfl
  have hAs : EndsLine (A ++ s) := by
    rcases hs with ⟨rfl, _⟩ | hs
    · rwa [List.append_nil]
    · obtain ⟨u, rfl⟩ : ∃ u, s = u ++ c!"\n" := List.getLast?_eq_some_iff.1 hs
      rw [← List.append_assoc]
      exact .inr ⟨_, _, rfl, rfl⟩
  intro w
  induction w with
  | nil =>
    intro u hu n hn'
    rw [List.append_nil] at hu
    subst hu
    obtain ⟨n, rfl⟩ : ∃ m, n = m + 1 := ⟨n - 1, by simp at hn'; omega⟩
    have h' : x.src = (A ++ (s ++ j)) ++ '#' :: (c!"end" ++ ' ' :: (c!"raw" ++ '\n' :: b)) := by rw [h]; simp
    have hcl : Clear (A ++ (s ++ j)) := ⟨A ++ s, j, by simp, hAs, hj⟩
    have hend : Word c!"end" := word_of_ascii _ _ _ rfl (by decide) (by decide)
    have hname : directiveOf x.cfg.names (c!"end" ++ ' ' :: (c!"raw" ++ '\n' :: b)) = some c!"end" := by rw [hns]; rfl
    obtain ⟨e1, _⟩ := matchDirective_at hx h' hcl.unescaped ⟨'e', rfl, .inl ((identStart_iff _).1 (by decide))⟩ hname
    have hsp : x.src = (A ++ (s ++ j) ++ c!"#" ++ c!"end") ++ ' ' :: (c!"raw" ++ '\n' :: b) := by rw [h']; simp
    have hrw : x.src = (A ++ (s ++ j) ++ c!"#" ++ c!"end" ++ c!" ") ++ (c!"raw" ++ '\n' :: b) := by rw [h']; simp
    have hnl : x.src = (A ++ (s ++ j) ++ c!"#" ++ c!"end" ++ c!" " ++ c!"raw") ++ '\n' :: b := by rw [h']; simp
    have hbol : Reader.findBOL x.src (A ++ (s ++ j)).length = (A ++ s).length := by
      have := Reader.findBOL_eq (A ++ s) j ('#' :: (c!"end raw" ++ '\n' :: b)) hAs (fun c hc => by
        have := hj c hc
        simp only [List.mem_cons, List.not_mem_nil, or_false] at this
        rcases this with rfl | rfl | rfl <;> decide)
      rw [h, ← this]
      congr 1
      simp
      omega
    rw [Px.endScan, if_neg (by rw [hx.bp, h']; simp), if_pos (by rw [hd, h']; simp)]
    simp only [e1, bind, Except.bind, if_true, afterName_at hx h' hcl.unescaped hend]
    rw [skip_blank hx hsp (by intro c hc; injection hc with hc; subst hc; decide), rest_after hrw, if_pos (by simp [startsWith, stripPrefix?])]
    rw [show (A ++ (s ++ j) ++ c!"#" ++ c!"end" ++ c!" ").length + (c!"raw").length = (A ++ (s ++ j) ++ c!"#" ++ c!"end" ++ c!" " ++ c!"raw").length by simp; omega]
    rw [goto_le hx (by rw [hnl]; simp)]
    simp only [skip_none hx hnl (by simp), lineClear_at h' hcl, if_true, hbol]
    simp
  | cons c w ih =>
    intro u hu n hn'
    obtain ⟨n, rfl⟩ : ∃ m, n = m + 1 := ⟨n - 1, by simp at hn'; omega⟩
    have hnext := ih (u ++ [c]) (by rw [hu]; simp) n (by simp at hn'; omega)
    have e : (A ++ (u ++ [c])).length = (A ++ u).length + 1 := by simp; omega
    rw [e] at hnext
    have h' : x.src = (A ++ u) ++ c :: (w ++ '#' :: (c!"end raw" ++ '\n' :: b)) := by
      rw [h, List.append_assoc A, hu]; simp
    rw [Px.endScan, if_neg (by rw [hx.bp, h']; simp)]
    have hc : x.src[(A ++ u).length]? = some c := by rw [h']; simp
    rw [hc, hd]
    by_cases hc' : c = '#'
    · subst hc'
      obtain ⟨o, h1, h2⟩ := matchDirective_spec (x := x.toCx) hd (by rw [hcfg]; rfl) hx.bp h'
      have hne : o ≠ some c!"end" := by
        intro ho
        obtain ⟨_, r, hr, _, hdo⟩ := (h2 _).1 ho
        injection hr with _ hr
        obtain ⟨v, hv⟩ := directiveOf_prefix hdo
        -- the `#` stands in `s`
        obtain ⟨w1, rfl, rfl⟩ : ∃ w1, s = u ++ '#' :: w1 ∧ w = w1 ++ j := by
          rcases List.append_eq_append_iff.1 hu with ⟨m, e1, e2⟩ | ⟨m, e1, e2⟩
          · exfalso
            have := hj '#' (by rw [e2]; simp)
            simp at this
          · cases m with
            | nil =>
              exfalso
              have := hj '#' (by rw [List.nil_append] at e2; rw [← e2]; simp)
              simp at this
            | cons d m =>
              injection e2 with e2 e3
              subst e2
              exact ⟨m, e1, e3⟩
        have hl : ∃ w2, w1 = w2 ++ c!"\n" := by
          rcases hs with ⟨hs, _⟩ | hs
          · simp at hs
          · cases hw : w1 with
            | nil => rw [hw] at hs; simp at hs
            | cons d w3 =>
              rw [hw, show u ++ '#' :: d :: w3 = (u ++ c!"#") ++ (d :: w3) by simp, getLast?_app (by simp)] at hs
              exact List.getLast?_eq_some_iff.1 hs
        obtain ⟨w2, rfl⟩ := hl
        rw [hv] at hr
        match w2, hr with
        | [], hr => simp at hr
        | [_], hr => simp at hr
        | [_, _], hr => simp at hr
        | d1 :: d2 :: d3 :: w2, hr =>
          simp only [List.cons_append, List.cons.injEq] at hr
          obtain ⟨rfl, rfl, rfl, _⟩ := hr
          exact hn ⟨u, w2 ++ c!"\n", by simp⟩
      rw [if_pos (by simp)]
      simp only [h1, bind, Except.bind, if_neg hne]
      exact hnext
    · rw [if_neg (by simpa using hc')]
      exact hnext

theorem tagEnd_eol (hx : Std x.toCx) {a r : Str} (h : x.src = a ++ '\n' :: r) : x.tagEnd true false a.length = .ok (a ++ c!"\n").length := by
  obtain ⟨ns, hcfg⟩ := hx.cfg
  have hde : x.matchTok x.cfg.dirEnd a.length = none := matchTok_none h (by rw [hcfg]; simp [Cfg.std]) (by rw [hcfg]; simp [Cfg.std])
  have heol := (eol_at (x := x.toCx) (a := a) (t := []) (b := r) (by rw [h]; simp) (by simp)).2
  unfold Px.tagEnd
  rw [hde, peek_head hx h]
  simp only [Bool.false_eq_true, if_false, List.head?_cons, true_and, or_true, if_true, heol, List.append_nil]
  rw [goto_le hx (by rw [h]; simp)]
  simp

theorem raw_ex (hns : x.cfg.names = stdNames) {h : Env} {a s j b : Str} (o : DLine x a c!"raw" '\n' (s ++ j ++ '#' :: (c!"end raw" ++ '\n' :: b)) c!"\n" [.handleWS]) (hs : AtBol true s) (hn : ¬ ∃ u v, s = u ++ c!"#end" ++ v) (hj : Blanks j) :
    x.directive h fullSt c!"raw" a.length = .ok (.go [.handleWS, .handleWS, .raw s] (a ++ c!"#raw\n" ++ s ++ j ++ c!"#end raw\n").length) := by
  have hw : Word c!"raw" := word_of_ascii _ _ _ rfl (by decide) (by decide)
  have hsrc : x.src = (a ++ c!"#raw\n") ++ s ++ j ++ '#' :: (c!"end raw" ++ '\n' :: b) := by rw [o.src]; simp
  have hend : x.src = (a ++ c!"#raw\n" ++ s ++ j ++ c!"#end raw") ++ '\n' :: b := by rw [hsrc]; simp
  have hscan := endScan_raw o.std hns hsrc (.inr ⟨a ++ c!"#raw", '\n', by simp, rfl⟩) hs hn hj (s ++ j) [] rfl (x.bp - (a ++ c!"#raw\n").length + 1) (by rw [o.std.bp, hsrc]; simp; omega)
  rw [List.append_nil] at hscan
  have hto : x.toEnd c!"raw" (a ++ c!"#raw\n").length = .ok (s, [.handleWS], (a ++ c!"#raw\n" ++ s ++ j ++ c!"#end raw\n").length) := by
    unfold Px.toEnd
    rw [hscan]
    have e2 : (a ++ c!"#raw\n" ++ s ++ j ++ c!"#end raw" ++ c!"\n").length = (a ++ c!"#raw\n" ++ s ++ j ++ c!"#end raw\n").length := by simp
    have heol := (eol_at (x := x.toCx) (a := a ++ c!"#raw\n" ++ s ++ j ++ c!"#end raw") (t := []) (b := b) (by rw [hend]; simp) (by simp)).1
    simp only [bind, Except.bind, goto_le o.std (p := (a ++ c!"#raw\n" ++ s).length) (by rw [hsrc]; simp), goto_le o.std (p := (a ++ c!"#raw\n" ++ s ++ j ++ c!"#end raw").length) (by rw [hend]; simp),
      tagEnd_eol o.std hend, heol, e2]
    rw [if_pos (by simp)]
    have : x.slice (a ++ c!"#raw\n").length (a ++ c!"#raw\n" ++ s).length = s := by
      unfold Cx.slice
      rw [hsrc, List.append_assoc (a ++ c!"#raw\n" ++ s), List.take_left, List.drop_left]
    rw [this]
  have hdir : x.directive h fullSt c!"raw" a.length = x.rawDirective a.length := rfl
  rw [hdir]
  unfold Px.rawDirective
  have e1 : a ++ c!"#" ++ c!"raw" ++ c!"\n" = a ++ c!"#raw\n" := by simp
  have hrest := o.rest
  rw [e1] at hrest
  rw [afterName_at o.std (n := c!"raw") (c := '\n') (r := s ++ j ++ '#' :: (c!"end raw" ++ '\n' :: b)) o.src o.start.unescaped hw]
  simp only [bind, Except.bind, skip_none o.std o.src_end (by simp), o.colon, Bool.false_eq_true, if_false, o.skipColon, hrest, hto]
  rfl

end Cheetah.Parser
