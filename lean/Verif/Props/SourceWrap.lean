import Verif.Props.SourceParse
/-
What the parser makes of the directives that take the output of their body.  Used for C70 and C71.
-/
namespace Cheetah.Parser

variable {x : Px} {z : Char} {post : Str} {ws : List Cmd}

theorem stop_post {z : Char} (hz : Stop z) : z ∉ c!".([" := by
  rcases hz with rfl | rfl <;> decide

theorem genVar_nocall (w : Str) : genVar { fullSt with useAutocalling := false } false [⟨w, true, []⟩] = .ok (c!"VFFSL(SL,\"" ++ w ++ c!"\",False)") := by
  simp [genVar, GenVar.genCheetahVar, GenVar.genNameMapperVar, GenVar.genFirst, fullSt, GenVar.reprBool]

theorem varStart_true (hx : Std x.toCx) {w : Str} (hw : Dotted w) {a r : Str} (h : x.src = a ++ '$' :: (w ++ r)) (ha : NoBs a) : x.matchVarStart a.length = true := by
  obtain ⟨ns, hcfg⟩ := hx.cfg
  obtain ⟨e, w', hw', he⟩ := hw.head
  exact (matchVarStart_iff (by rw [hcfg]; rfl) h).2 ⟨ha, [], [], [], e, w' ++ r, .inl rfl, .none, .none, (identStart_iff e).1 he, by simp [hw']⟩

theorem varStart_false (hx : Std x.toCx) {a r : Str} {c : Char} (hc : c ≠ '$') (h : x.src = a ++ c :: r) : x.matchVarStart a.length = false := by
  obtain ⟨ns, hcfg⟩ := hx.cfg
  cases hm : x.matchVarStart a.length with
  | false => rfl
  | true =>
    obtain ⟨_, sil, mark, op, d, q, _, _, _, _, e⟩ := (matchVarStart_iff (by rw [hcfg]; rfl) h).1 hm
    injection e with e _
    exact absurd e hc

/-- `#capture v` -/
theorem capture_ex {h : Env} {a b v : Str} (o : DLine x a (c!"capture " ++ v) z b post ws) (hv : Word v) (hf : v ≠ c!"for" ∧ v ≠ c!"then") :
    x.directive h fullSt c!"capture" a.length = .ok (.opened c!"capture" (ws ++ [.startCapture v]) (a ++ c!"#" ++ (c!"capture " ++ v) ++ post).length) := by
  have hw : Word c!"capture" := word_of_ascii _ _ _ rfl (by decide) (by decide)
  have hexpr := o.expression2 (f := .tok v .nil) (n := c!"capture ") (ok_bare o.toks o.stop hv hf) (by unfold NoBs; decide) (by simp [Ex.src]) [c!":"] (by simp)
  have hdir : x.directive h fullSt c!"capture" a.length = x.captureDirective fullSt a.length := rfl
  have e1 : (a ++ c!"#" ++ c!"capture" ++ c!" ").length = (a ++ c!"#" ++ c!"capture ").length := by simp
  rw [hdir]
  unfold Px.captureDirective
  rw [o.afterName (n := c!"capture") (c := ' ') (r := v) hw (by simp)]
  simp only [bind, Except.bind, o.skip_name (n := c!"capture") (r := v) (by simp) (by
    obtain ⟨c, r, rfl, hc, _⟩ := hv
    intro d hd; injection hd with hd; subst hd; exact identStart_ws hc), e1, hexpr, o.colon, Bool.false_eq_true, if_false, o.skipColon, o.rest, Ex.py, List.append_nil]

/-- `#filter n` -/
theorem filter_ex {h : Env} {a b v : Str} (o : DLine x a (c!"filter " ++ v) z b post ws) (hv : Word v) :
    x.directive h fullSt c!"filter" a.length = .ok (.opened c!"filter" (ws ++ [.setFilter v false]) (a ++ c!"#" ++ (c!"filter " ++ v) ++ post).length) := by
  have hw : Word c!"filter" := word_of_ascii _ _ _ rfl (by decide) (by decide)
  have hs : x.src = (a ++ c!"#" ++ c!"filter" ++ c!" ") ++ v ++ z :: b := by rw [o.src]; simp
  have hdir : x.directive h fullSt c!"filter" a.length = x.filterDirective fullSt a.length := rfl
  have hid := identifier_word o.std hs hv (stop_facts o.stop).1
  obtain ⟨c, r, hcr, hc, _⟩ := id hv
  have hm : x.matchVarStart (a ++ c!"#" ++ c!"filter" ++ c!" ").length = false :=
    varStart_false o.std (c := c) (r := r ++ z :: b) (by rintro rfl; exact absurd hc (by decide)) (by rw [hs, hcr]; simp)
  have e1 : (a ++ c!"#" ++ c!"filter" ++ c!" " ++ v).length = (a ++ c!"#" ++ (c!"filter " ++ v)).length := by simp
  have hsk : x.skip (a ++ c!"#" ++ c!"filter" ++ c!" " ++ v).length = (a ++ c!"#" ++ (c!"filter " ++ v)).length := by
    rw [skip_none o.std hs (by rcases o.stop with rfl | rfl <;> simp), e1]
  rw [hdir]
  unfold Px.filterDirective Px.filterName
  rw [o.afterName (n := c!"filter") (c := ' ') (r := v) hw (by simp)]
  simp only [bind, Except.bind, o.skip_name (n := c!"filter") (r := v) (by simp) (by
    rw [hcr]; intro d hd; injection hd with hd; subst hd; exact identStart_ws hc), hm, Bool.false_eq_true, if_false, hid, hsk, o.colon, o.skipColon, o.rest]

/-- `#filter $k` -/
theorem klass_ex {h : Env} {a b v : Str} (o : DLine x a (c!"filter $" ++ v) z b post ws) (hv : Dotted v) :
    x.directive h fullSt c!"filter" a.length = .ok (.opened c!"filter" (ws ++ [.setFilter (c!"VFFSL(SL,\"" ++ v ++ c!"\",True)") true]) (a ++ c!"#" ++ (c!"filter $" ++ v) ++ post).length) := by
  have hw : Word c!"filter" := word_of_ascii _ _ _ rfl (by decide) (by decide)
  have hs : x.src = (a ++ c!"#" ++ c!"filter" ++ c!" ") ++ '$' :: (v ++ z :: b) := by rw [o.src]; simp
  have hdir : x.directive h fullSt c!"filter" a.length = x.filterDirective fullSt a.length := rfl
  have hm := varStart_true o.std hv hs (NoBs.snoc _ (by decide))
  have hok : (Ex.var v .nil).Ok x.tok true z := ⟨hv, (stop_facts o.stop).1, stop_post o.stop, by first | trivial | exact id | (intro h; exact absurd h (by simp)), trivial⟩
  have hexpr := o.expression2 (f := .var v .nil) (n := c!"filter ") hok (by unfold NoBs; decide) (by simp [Ex.src]) [c!":"] (by simp)
  have e1 : (a ++ c!"#" ++ c!"filter" ++ c!" ").length = (a ++ c!"#" ++ c!"filter ").length := by simp
  rw [hdir]
  unfold Px.filterDirective Px.filterName
  rw [o.afterName (n := c!"filter") (c := ' ') (r := '$' :: v) hw (by simp)]
  rw [e1] at hm
  simp only [bind, Except.bind, o.skip_name (n := c!"filter") (r := '$' :: v) (by simp) (by
    intro d hd; injection hd with hd; subst hd; decide), e1, hm, if_true, hexpr, o.colon, Bool.false_eq_true, if_false, o.skipColon, o.rest, Ex.py, List.append_nil]

theorem callName_at (hx : Std x.toCx) {w : Str} (hw : Dotted w) {a r : Str} {c : Char} (hc : identChar c = false) (hd : c ∉ c!".([")
    (h : x.src = a ++ '$' :: (w ++ c :: r)) (ha : NoBs a) :
    x.callName fullSt a.length = .ok (c!"VFFSL(SL,\"" ++ w ++ c!"\",False)", (a ++ '$' :: w).length) := by
  unfold Px.callName
  simp only [varStart_true hx hw h ha, if_true]
  have : x.fuel a.length = (4 * (x.bp - a.length) + 1) + 3 := by unfold Px.fuel; omega
  rw [this, cheetahVar_at hx hw hc hd h ha, genVar_nocall]
  rfl

/-- `#call $f` -/
theorem call_ex {h : Env} {a b v : Str} (o : DLine x a (c!"call $" ++ v) z b post ws) (hv : Dotted v) :
    x.directive h fullSt c!"call" a.length = .ok (.opened c!"call" (ws ++ [.startCall (c!"VFFSL(SL,\"" ++ v ++ c!"\",False)") []]) (a ++ c!"#" ++ (c!"call $" ++ v) ++ post).length) := by
  have hw : Word c!"call" := word_of_ascii _ _ _ rfl (by decide) (by decide)
  have hs : x.src = (a ++ c!"#" ++ c!"call" ++ c!" ") ++ '$' :: (v ++ z :: b) := by rw [o.src]; simp
  have hs2 : x.src = (a ++ c!"#" ++ c!"call" ++ c!" " ++ '$' :: v) ++ z :: b := by rw [o.src]; simp
  have hdir : x.directive h fullSt c!"call" a.length = x.callDirective fullSt a.length := rfl
  have hname := callName_at o.std hv (stop_facts o.stop).1 (stop_post o.stop) hs (NoBs.snoc _ (by decide))
  have e1 : (a ++ c!"#" ++ c!"call" ++ c!" " ++ '$' :: v).length = (a ++ c!"#" ++ (c!"call $" ++ v)).length := by simp
  have hsk : x.skip (a ++ c!"#" ++ c!"call" ++ c!" " ++ '$' :: v).length = (a ++ c!"#" ++ (c!"call $" ++ v)).length := by
    rw [skip_none o.std hs2 (by rcases o.stop with rfl | rfl <;> simp), e1]
  have hexpr := o.expression2 (f := .nil) (n := c!"call $" ++ v) trivial (NoBs.append (by unfold NoBs; decide) hv.noBs) (by simp [Ex.src]) [c!":"] (by simp)
  rw [hdir]
  unfold Px.callDirective
  rw [o.afterName (n := c!"call") (c := ' ') (r := '$' :: v) hw (by simp)]
  simp only [bind, Except.bind, o.skip_name (n := c!"call") (r := '$' :: v) (by simp) (by
    intro d hd; injection hd with hd; subst hd; decide), hname, hsk, hexpr, o.colon, Bool.false_eq_true, if_false, o.skipColon, o.rest, Ex.py]
  simp [strip, lstrip, rstrip]

/-- `#call $f e` -/
theorem call_args_ex {h : Env} {a b v : Str} {e : Ex} (o : DLine x a (c!"call $" ++ v ++ c!" " ++ e.src) z b post ws) (hv : Dotted v) (he : Tidy x.tok z e) :
    x.directive h fullSt c!"call" a.length = .ok (.opened c!"call" (ws ++ [.startCall (c!"VFFSL(SL,\"" ++ v ++ c!"\",False)") e.py])
      (a ++ c!"#" ++ (c!"call $" ++ v ++ c!" " ++ e.src) ++ post).length) := by
  have hw : Word c!"call" := word_of_ascii _ _ _ rfl (by decide) (by decide)
  have hs : x.src = (a ++ c!"#" ++ c!"call" ++ c!" ") ++ '$' :: (v ++ ' ' :: (e.src ++ z :: b)) := by rw [o.src]; simp
  have hdir : x.directive h fullSt c!"call" a.length = x.callDirective fullSt a.length := rfl
  have hname := callName_at o.std hv space_facts.1 (by decide) hs (NoBs.snoc _ (by decide))
  have e0 : (a ++ c!"#" ++ c!"call" ++ c!" " ++ '$' :: v).length = (a ++ c!"#" ++ (c!"call $" ++ v)).length := by simp
  have hsk := o.skip_name (n := c!"call $" ++ v) (r := e.src) (by simp) (he.head_ws _)
  have e1 : (a ++ c!"#" ++ (c!"call $" ++ v) ++ c!" ").length = (a ++ c!"#" ++ (c!"call $" ++ v ++ c!" ")).length := by simp
  have hexpr := o.expression2 (f := e) (n := c!"call $" ++ v ++ c!" ") he.ok (NoBs.snoc _ (by decide)) (by simp) [c!":"] (by simp)
  rw [hdir]
  unfold Px.callDirective
  rw [o.afterName (n := c!"call") (c := ' ') (r := '$' :: v ++ c!" " ++ e.src) hw (by simp)]
  simp only [bind, Except.bind, o.skip_name (n := c!"call") (r := '$' :: v ++ c!" " ++ e.src) (by simp) (by
    intro d hd; injection hd with hd; subst hd; decide), hname, e0, hsk, e1, hexpr, o.colon, Bool.false_eq_true, if_false, o.skipColon, o.rest, he.strip]

/-- `#arg n` -/
theorem arg_ex {h : Env} {a b v : Str} (o : DLine x a (c!"arg " ++ v) z b post ws) (hv : Word v) :
    x.directive h fullSt c!"arg" a.length = .ok (.go (.callArg v :: ws) (a ++ c!"#" ++ (c!"arg " ++ v) ++ post).length) := by
  have hw : Word c!"arg" := word_of_ascii _ _ _ rfl (by decide) (by decide)
  have hs : x.src = (a ++ c!"#" ++ c!"arg" ++ c!" ") ++ v ++ z :: b := by rw [o.src]; simp
  have hdir : x.directive h fullSt c!"arg" a.length = x.argDirective a.length := rfl
  have hid := identifier_word o.std hs hv (stop_facts o.stop).1
  obtain ⟨c, r, hcr, hc, _⟩ := id hv
  have e1 : (a ++ c!"#" ++ c!"arg" ++ c!" " ++ v).length = (a ++ c!"#" ++ (c!"arg " ++ v)).length := by simp
  have hsk : x.skip (a ++ c!"#" ++ c!"arg" ++ c!" " ++ v).length = (a ++ c!"#" ++ (c!"arg " ++ v)).length := by
    rw [skip_none o.std hs (by rcases o.stop with rfl | rfl <;> simp), e1]
  have hpk : x.peek! (a ++ c!"#" ++ (c!"arg " ++ v)).length = .ok z := by
    rw [← e1]; exact peek!_head o.std hs
  have hz : z ≠ ':' := by rcases o.stop with rfl | rfl <;> decide
  rw [hdir]
  unfold Px.argDirective
  rw [o.afterName (n := c!"arg") (c := ' ') (r := v) hw (by simp)]
  simp only [bind, Except.bind, o.skip_name (n := c!"arg") (r := v) (by simp) (by
    rw [hcr]; intro d hd; injection hd with hd; subst hd; exact identStart_ws hc), hid, hsk, hpk, hz, if_false, o.rest]

end Cheetah.Parser
