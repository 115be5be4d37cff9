import Verif.Hooks
import Verif.Props.Restrict
/-!
# C80: expression filter hooks see the code of a template
-/
namespace Cheetah.Parser

/-! ### Specification -/

/-- What the hooks must have been shown, and let pass, before a command is given to the compiler: the Python code in it, under
the type of the directive. (For `simple` directives the type is the first word of the expression.) -/
def Cmd.shows : Cmd → List Shown
  | .placeholder e r _ _ _ => [.expr c!"placeholder" e (some r)]
  | .psp s => [.expr c!"psp" s none]
  | .indenting name e => [.expr name e none]
  | .reindenting name e _ => [.expr name e none]
  | .simple _ e => [.expr (e.takeWhile fun c => !isSpace c) e none]
  | .set l op r _ => [.expr c!"set" (l ++ c!" " ++ op ++ c!" " ++ strip r) none]
  | .include_ e _ _ => [.expr c!"include" e none]
  | .callArg n => [.expr c!"arg" n none]
  | .startCapture e => [.expr c!"capture" e none]
  | .startCache as => [.args as]
  | .setFilter f _ => [.expr c!"filter" f none]
  | .setTransform f _ => [.expr c!"transform" f none]
  | .errorCatcher n => [.expr c!"errorcatcher" n none]
  | .attr _ e => [.expr c!"attr" e none]
  | .decorator e => [.expr c!"decorator" e none]
  | .extends_ e => [.expr c!"extends" e none]
  | .shBang s => [.expr c!"shbang" s none]
  | .encoding s => [.expr c!"encoding" s none]
  | .ternary _ _ _ => []
  | .startCall _ _ => []
  | .startMethod _ _ => []
  | .addClosure _ _ => []
  | .implements_ _ _ => []
  | .super _ => []
  | .raw _ => []
  | .errorCatcherOff => []
  | .closeDef => []
  | .closeBlock => []
  | .endCall => []
  | .endCapture => []
  | .endCache => []
  | .closeFilter => []
  | .dedent => []
  | .strConst _ => []
  | .comment _ => []
  | .handleWS => []
  | .commit => []

/-- A piece of code that is put together from pieces of an expression the hooks let pass. -/
def PiecesOf (ok : Shown → Bool) (type : Str) (t : Str) : Prop := ∃ e, ok (.expr type e none) = true ∧ t.Sublist e

/-- What is required of a command: its code was shown; the three parts of `#if .. then .. else ..` are pieces of what was shown. -/
def Cmd.Vetted (ok : Shown → Bool) : Cmd → Prop
  | .ternary a b c => PiecesOf ok c!"if" (strip a) ∧ PiecesOf ok c!"if" (strip b) ∧ PiecesOf ok c!"if" (strip c)
  | c => ∀ s ∈ c.shows, ok s = true

/-! ### Proofs -/

theorem ok_bind {α β : Type} (a : α) (f : α → Except Err β) : ((Except.ok a : Except Err α) >>= f) = f a := rfl


theorem Cmd.Quiet.vetted {ok : Shown → Bool} {c : Cmd} (h : c.Quiet) : c.Vetted ok := by
  rcases h with rfl | rfl | ⟨s, rfl⟩ <;> (intro s hs; cases hs)

theorem quiet_vetted {ok : Shown → Bool} {cs : List Cmd} (h : ∀ c ∈ cs, c.Quiet) : ∀ c ∈ cs, c.Vetted ok := fun c hc => (h c hc).vetted

theorem vetted_append {ok : Shown → Bool} {cs ds : List Cmd} (h1 : ∀ c ∈ cs, c.Vetted ok) (h2 : ∀ c ∈ ds, c.Vetted ok) :
    ∀ c ∈ cs ++ ds, c.Vetted ok := by
  intro c hc
  rcases List.mem_append.1 hc with hc | hc
  · exact h1 c hc
  · exact h2 c hc

theorem vetted_one {ok : Shown → Bool} {d : Cmd} (h : d.Vetted ok) : ∀ c ∈ [d], c.Vetted ok := by
  intro c hc
  simp at hc
  subst hc
  exact h

/-- The commands of an action. -/
def Act.All (P : Cmd → Prop) : Act → Prop
  | .go cs _ => ∀ c ∈ cs, P c
  | .opened _ cs _ => ∀ c ∈ cs, P c
  | .closed _ cs _ => ∀ c ∈ cs, P c
  | .stop => True
  | .line b _ _ a => (∀ c ∈ b, P c) ∧ ∀ c ∈ a, P c
  | .defOpen _ _ _ cs _ => ∀ c ∈ cs, P c
  | .defLine _ _ _ _ _ _ _ => True
  | .decorated cs _ => ∀ c ∈ cs, P c

theorem nothing_vetted {ok : Shown → Bool} {cs : List Cmd} (h : ∀ c ∈ cs, c.shows = [] ∧ ∀ a b d, c ≠ .ternary a b d) : ∀ c ∈ cs, c.Vetted ok := by
  intro c hc
  obtain ⟨h1, h2⟩ := h c hc
  cases c <;> first | (exact absurd rfl (h2 _ _ _)) | (intro s hs; rw [h1] at hs; cases hs)

theorem simpleExpr_vetted {x : Px} {st : GenVar.Settings} {name : Str} {p : Nat} {a : Act} {ok : Shown → Bool} (h : x.simpleExpr st name p = .ok a)
    (hs : (x.simpleExprShown st name p).all ok = true) : a.All (Cmd.Vetted ok) := by
  unfold Px.simpleExpr at h
  obtain ⟨q, h1, h⟩ := bind_ok h
  obtain ⟨⟨e, r⟩, h2, h⟩ := bind_ok h
  simp only [Px.simpleExprShown, h1, h2, ok_bind, seen, id, List.all_cons, List.all_nil, Bool.and_true] at hs
  dsimp only at h
  split at h
  · cases h
  · obtain ⟨⟨cs, r⟩, hr, h⟩ := bind_ok h
    cases h
    have := vetted_append (quiet_vetted (restTag_quiet hr)) (vetted_one (ok := ok) (d := .simple name (strip e)) (by simpa [Cmd.Vetted, Cmd.shows] using hs))
    split <;> exact this

theorem simpleIndenting_vetted {x : Px} {st : GenVar.Settings} {name : Str} {p : Nat} {a : Act} {ok : Shown → Bool}
    (h : x.simpleIndenting st name p = .ok a) (hs : (x.simpleIndentingShown st name p).all ok = true) : a.All (Cmd.Vetted ok) := by
  unfold Px.simpleIndenting at h
  obtain ⟨q, h1, h⟩ := bind_ok h
  obtain ⟨⟨e, r⟩, h2, h⟩ := bind_ok h
  simp only [Px.simpleIndentingShown, h1, h2, ok_bind, seen, id, List.all_cons, List.all_nil, Bool.and_true] at hs
  obtain ⟨col, _, h⟩ := bind_ok h
  dsimp only at h
  split at h
  · obtain ⟨r, _, h⟩ := bind_ok h
    cases h
    refine ⟨?_, nothing_vetted (by simp [Cmd.shows])⟩
    split <;> exact vetted_one (by simpa [Cmd.Vetted, Cmd.shows] using hs)
  · obtain ⟨r, _, h⟩ := bind_ok h
    obtain ⟨⟨cs, r⟩, hr, h⟩ := bind_ok h
    dsimp only at h
    split at h <;> cases h <;> exact vetted_append (quiet_vetted (restTag_quiet hr)) (vetted_one (by simpa [Cmd.Vetted, Cmd.shows] using hs))

theorem endDirective_vetted {x : Px} {st : GenVar.Settings} {p : Nat} {a : Act} {ok : Shown → Bool} (h : x.endDirective st p = .ok a) :
    a.All (Cmd.Vetted ok) := by
  unfold Px.endDirective at h
  obtain ⟨q, _, h⟩ := bind_ok h
  dsimp only at h
  split at h
  · cases h
  · obtain ⟨⟨e, r⟩, _, h⟩ := bind_ok h
    obtain ⟨⟨cs, r⟩, hr, h⟩ := bind_ok h
    dsimp only at h
    split at h <;> cases h
    · exact quiet_vetted (restTag_quiet hr)
    · exact vetted_append (quiet_vetted (restTag_quiet hr)) (nothing_vetted (by simp [Cmd.shows]))

theorem sublist_dropWhile {f : Char → Bool} {a b : Str} (h : a.Sublist b) : (a.dropWhile f).Sublist (b.dropWhile f) := by
  induction h with
  | slnil => exact .slnil
  | cons c h ih =>
    rename_i l1 l2
    rw [List.dropWhile_cons]
    split
    · exact ih
    · exact (List.dropWhile_sublist f).trans (h.trans (List.sublist_cons_self _ _))
  | cons_cons c h ih =>
    rw [List.dropWhile_cons, List.dropWhile_cons]
    split
    · exact ih
    · exact h.cons_cons c

theorem rstrip_cons (c : Char) (t : Str) : rstrip (c :: t) = if rstrip t = [] ∧ isSpace c = true then [] else c :: rstrip t := by
  conv => lhs; unfold rstrip
  cases h : rstrip t with
  | nil => simp
  | cons d ds => simp

theorem sublist_rstrip {a b : Str} (h : a.Sublist b) : (rstrip a).Sublist (rstrip b) := by
  induction h with
  | slnil => exact List.Sublist.refl _
  | cons c h ih =>
    rename_i l1 l2
    rw [rstrip_cons]
    split
    · rename_i h'
      rw [h'.1] at ih
      exact ih
    · exact ih.trans (List.sublist_cons_self _ _)
  | cons_cons c h ih =>
    rename_i l1 l2
    rw [rstrip_cons, rstrip_cons]
    split
    · exact List.nil_sublist _
    · rename_i h1
      split
      · rename_i h2
        rw [h2.1] at ih
        exact absurd ⟨List.sublist_nil.1 ih, h2.2⟩ h1
      · exact ih.cons_cons c

theorem sublist_strip {a b : Str} (h : a.Sublist b) : (strip a).Sublist (strip b) :=
  sublist_rstrip (sublist_dropWhile h)

theorem ternary_sublist (n : Nat) (ws : List Str) :
    (ternaryParts n ws).1.Sublist ws.flatten ∧ (ternaryParts n ws).2.1.Sublist ws.flatten ∧ (ternaryParts n ws).2.2.Sublist ws.flatten := by
  induction ws generalizing n with
  | nil => simp [ternaryParts]
  | cons w ws ih =>
    have up : ∀ {t : Str}, t.Sublist ws.flatten → t.Sublist (w :: ws).flatten := fun h => by
      rw [List.flatten_cons]; exact h.trans (List.sublist_append_right _ _)
    have ext : ∀ {t : Str}, t.Sublist ws.flatten → (w ++ t).Sublist (w :: ws).flatten := fun h => by
      rw [List.flatten_cons]; exact (List.Sublist.refl w).append h
    unfold ternaryParts
    split
    · exact ⟨up (ih 1).1, up (ih 1).2.1, up (ih 1).2.2⟩
    · split
      · exact ⟨up (ih 2).1, up (ih 2).2.1, up (ih 2).2.2⟩
      · dsimp only
        split
        · exact ⟨ext (ih n).1, up (ih n).2.1, up (ih n).2.2⟩
        · split
          · exact ⟨up (ih n).1, ext (ih n).2.1, up (ih n).2.2⟩
          · exact ⟨up (ih n).1, up (ih n).2.1, ext (ih n).2.2⟩

theorem ifDirective_vetted {x : Px} {st : GenVar.Settings} {p : Nat} {a : Act} {ok : Shown → Bool} (h : x.ifDirective st p = .ok a)
    (hs : (x.ifShown st p).all ok = true) : a.All (Cmd.Vetted ok) := by
  unfold Px.ifDirective at h
  obtain ⟨q, h1, h⟩ := bind_ok h
  obtain ⟨⟨ws, r⟩, h2, h⟩ := bind_ok h
  simp only [Px.ifShown, h1, h2, ok_bind, seen, id, List.all_cons, List.all_nil, Bool.and_true] at hs
  dsimp only at h
  split at h
  · obtain ⟨⟨cs, r⟩, hr, h⟩ := bind_ok h
    cases h
    obtain ⟨t1, t2, t3⟩ := ternary_sublist 0 ws
    exact vetted_append (quiet_vetted (restTag_quiet hr))
      (vetted_one (d := .ternary _ _ _) ⟨⟨_, hs, sublist_strip t1⟩, ⟨_, hs, sublist_strip t2⟩, ⟨_, hs, sublist_strip t3⟩⟩)
  · obtain ⟨col, _, h⟩ := bind_ok h
    split at h
    · obtain ⟨r, _, h⟩ := bind_ok h
      cases h
      exact ⟨vetted_one (by simpa [Cmd.Vetted, Cmd.shows] using hs), nothing_vetted (by simp [Cmd.shows])⟩
    · obtain ⟨r, _, h⟩ := bind_ok h
      obtain ⟨⟨cs, r⟩, hr, h⟩ := bind_ok h
      cases h
      exact vetted_append (quiet_vetted (restTag_quiet hr)) (vetted_one (by simpa [Cmd.Vetted, Cmd.shows] using hs))

theorem setDirective_vetted {x : Px} {st : GenVar.Settings} {p : Nat} {a : Act} {ok : Shown → Bool} (h : x.setDirective st p = .ok a)
    (hs : (x.setShown st p).all ok = true) : a.All (Cmd.Vetted ok) := by
  unfold Px.setDirective at h
  obtain ⟨q, h1, h⟩ := bind_ok h
  obtain ⟨⟨sty, q⟩, h2, h⟩ := bind_ok h
  obtain ⟨⟨l, q⟩, h3, h⟩ := bind_ok h
  obtain ⟨⟨op, q⟩, h4, h⟩ := bind_ok h
  obtain ⟨⟨r, q⟩, h5, h⟩ := bind_ok h
  simp only [Px.setShown, h1, h2, h3, h4, h5, ok_bind, seen, id, List.all_cons, List.all_nil, Bool.and_true] at hs
  obtain ⟨⟨cs, q⟩, hr, h⟩ := bind_ok h
  cases h
  exact vetted_append (quiet_vetted (restTag_quiet hr)) (vetted_one (by simpa [Cmd.Vetted, Cmd.shows] using hs))

theorem definition_vetted {x : Px} {st : GenVar.Settings} {kind : DefKind} {p : Nat} {a : Act} {ok : Shown → Bool} (h : x.definition st kind p = .ok a) :
    a.All (Cmd.Vetted ok) := by
  unfold Px.definition at h
  obtain ⟨q, _, h⟩ := bind_ok h
  obtain ⟨q, _, h⟩ := bind_ok h
  obtain ⟨⟨name, q⟩, _, h⟩ := bind_ok h
  obtain ⟨⟨as, q⟩, _, h⟩ := bind_ok h
  obtain ⟨col, _, h⟩ := bind_ok h
  dsimp only at h
  split at h
  · obtain ⟨q, _, h⟩ := bind_ok h
    obtain ⟨r, _, h⟩ := bind_ok h
    cases h
    trivial
  · obtain ⟨c, _, h⟩ := bind_ok h
    obtain ⟨⟨e, q⟩, _, h⟩ := bind_ok h
    obtain ⟨⟨cs, q⟩, hr, h⟩ := bind_ok h
    cases h
    exact quiet_vetted (restTag_quiet hr)

theorem decorator_vetted {x : Px} {st : GenVar.Settings} {p : Nat} {a : Act} {ok : Shown → Bool} (h : x.decorator st p = .ok a)
    (hs : (x.decoratorShown st p).all ok = true) : a.All (Cmd.Vetted ok) := by
  unfold Px.decorator at h
  obtain ⟨q, h1, h⟩ := bind_ok h
  obtain ⟨⟨e, q⟩, h2, h⟩ := bind_ok h
  simp only [Px.decoratorShown, h1, h2, ok_bind, seen, id, List.all_cons, List.all_nil, Bool.and_true] at hs
  obtain ⟨⟨cs, r⟩, hr, h⟩ := bind_ok h
  obtain ⟨d, _, h⟩ := bind_ok h
  split at h
  · split at h
    · cases h
      exact vetted_append (vetted_one (d := .decorator e) (by simpa [Cmd.Vetted, Cmd.shows] using hs)) (quiet_vetted (restTag_quiet hr))
    · cases h
  · cases h

theorem callDirective_vetted {x : Px} {st : GenVar.Settings} {p : Nat} {a : Act} {ok : Shown → Bool} (h : x.callDirective st p = .ok a) :
    a.All (Cmd.Vetted ok) := by
  unfold Px.callDirective at h
  obtain ⟨q, _, h⟩ := bind_ok h
  obtain ⟨⟨f, q⟩, _, h⟩ := bind_ok h
  obtain ⟨⟨e, q⟩, _, h⟩ := bind_ok h
  obtain ⟨col, _, h⟩ := bind_ok h
  dsimp only at h
  split at h
  · obtain ⟨r, _, h⟩ := bind_ok h
    cases h
    exact ⟨nothing_vetted (by simp [Cmd.shows]), nothing_vetted (by simp [Cmd.shows])⟩
  · obtain ⟨r, _, h⟩ := bind_ok h
    obtain ⟨⟨cs, r⟩, hr, h⟩ := bind_ok h
    cases h
    exact vetted_append (quiet_vetted (restTag_quiet hr)) (nothing_vetted (by simp [Cmd.shows]))

theorem argDirective_vetted {x : Px} {p : Nat} {a : Act} {ok : Shown → Bool} (h : x.argDirective p = .ok a)
    (hs : (x.argShown p).all ok = true) : a.All (Cmd.Vetted ok) := by
  unfold Px.argDirective at h
  obtain ⟨q, h1, h⟩ := bind_ok h
  obtain ⟨⟨f, q⟩, h2, h⟩ := bind_ok h
  simp only [Px.argShown, h1, h2, ok_bind, seen, id, List.all_cons, List.all_nil, Bool.and_true] at hs
  obtain ⟨c, _, h⟩ := bind_ok h
  split at h
  · cases h
    exact vetted_one (by simpa [Cmd.Vetted, Cmd.shows] using hs)
  · obtain ⟨⟨cs, r⟩, hr, h⟩ := bind_ok h
    cases h
    exact vetted_append (vetted_one (d := .callArg f) (by simpa [Cmd.Vetted, Cmd.shows] using hs)) (quiet_vetted (restTag_quiet hr))

theorem captureDirective_vetted {x : Px} {st : GenVar.Settings} {p : Nat} {a : Act} {ok : Shown → Bool} (h : x.captureDirective st p = .ok a)
    (hs : (x.captureShown st p).all ok = true) : a.All (Cmd.Vetted ok) := by
  unfold Px.captureDirective at h
  obtain ⟨q, h1, h⟩ := bind_ok h
  obtain ⟨⟨e, q⟩, h2, h⟩ := bind_ok h
  simp only [Px.captureShown, h1, h2, ok_bind, seen, id, List.all_cons, List.all_nil, Bool.and_true] at hs
  obtain ⟨col, _, h⟩ := bind_ok h
  dsimp only at h
  split at h
  · obtain ⟨r, _, h⟩ := bind_ok h
    cases h
    exact ⟨vetted_one (by simpa [Cmd.Vetted, Cmd.shows] using hs), nothing_vetted (by simp [Cmd.shows])⟩
  · obtain ⟨r, _, h⟩ := bind_ok h
    obtain ⟨⟨cs, r⟩, hr, h⟩ := bind_ok h
    cases h
    exact vetted_append (quiet_vetted (restTag_quiet hr)) (vetted_one (by simpa [Cmd.Vetted, Cmd.shows] using hs))

theorem cacheDirective_vetted {x : Px} {st : GenVar.Settings} {p : Nat} {a : Act} {ok : Shown → Bool} (h : x.cacheDirective st p = .ok a)
    (hs : (x.cacheShown st p).all ok = true) : a.All (Cmd.Vetted ok) := by
  unfold Px.cacheDirective at h
  obtain ⟨q, h1, h⟩ := bind_ok h
  obtain ⟨⟨e, q⟩, h2, h⟩ := bind_ok h
  simp only [Px.cacheShown, h1, h2, ok_bind, seen, id, List.all_cons, List.all_nil, Bool.and_true] at hs
  obtain ⟨col, _, h⟩ := bind_ok h
  dsimp only at h
  split at h
  · obtain ⟨r, _, h⟩ := bind_ok h
    cases h
    exact ⟨vetted_one (by simpa [Cmd.Vetted, Cmd.shows] using hs), nothing_vetted (by simp [Cmd.shows])⟩
  · obtain ⟨r, _, h⟩ := bind_ok h
    obtain ⟨⟨cs, r⟩, hr, h⟩ := bind_ok h
    cases h
    exact vetted_append (quiet_vetted (restTag_quiet hr)) (vetted_one (by simpa [Cmd.Vetted, Cmd.shows] using hs))

theorem filterDirective_vetted {x : Px} {st : GenVar.Settings} {p : Nat} {a : Act} {ok : Shown → Bool} (h : x.filterDirective st p = .ok a)
    (hs : (x.filterShown st c!"filter" p).all ok = true) : a.All (Cmd.Vetted ok) := by
  unfold Px.filterDirective at h
  obtain ⟨q, h1, h⟩ := bind_ok h
  obtain ⟨⟨f, k, q⟩, h2, h⟩ := bind_ok h
  simp only [Px.filterShown, h1, h2, ok_bind, seen, id, List.all_cons, List.all_nil, Bool.and_true] at hs
  obtain ⟨col, _, h⟩ := bind_ok h
  dsimp only at h
  split at h
  · obtain ⟨r, _, h⟩ := bind_ok h
    cases h
    exact ⟨vetted_one (by simpa [Cmd.Vetted, Cmd.shows] using hs), nothing_vetted (by simp [Cmd.shows])⟩
  · obtain ⟨r, _, h⟩ := bind_ok h
    obtain ⟨⟨cs, r⟩, hr, h⟩ := bind_ok h
    cases h
    exact vetted_append (quiet_vetted (restTag_quiet hr)) (vetted_one (by simpa [Cmd.Vetted, Cmd.shows] using hs))

theorem transformDirective_vetted {x : Px} {st : GenVar.Settings} {p : Nat} {a : Act} {ok : Shown → Bool} (h : x.transformDirective st p = .ok a)
    (hs : (x.filterShown st c!"transform" p).all ok = true) : a.All (Cmd.Vetted ok) := by
  unfold Px.transformDirective at h
  obtain ⟨q, h1, h⟩ := bind_ok h
  obtain ⟨⟨f, k, q⟩, h2, h⟩ := bind_ok h
  simp only [Px.filterShown, h1, h2, ok_bind, seen, id, List.all_cons, List.all_nil, Bool.and_true] at hs
  obtain ⟨r, _, h⟩ := bind_ok h
  obtain ⟨⟨cs, r⟩, hr, h⟩ := bind_ok h
  cases h
  exact vetted_append (quiet_vetted (restTag_quiet hr)) (vetted_one (by simpa [Cmd.Vetted, Cmd.shows] using hs))

theorem errorCatcherDirective_vetted {x : Px} {p : Nat} {a : Act} {ok : Shown → Bool} (h : x.errorCatcherDirective p = .ok a)
    (hs : (x.errorCatcherShown p).all ok = true) : a.All (Cmd.Vetted ok) := by
  unfold Px.errorCatcherDirective at h
  obtain ⟨q, h1, h⟩ := bind_ok h
  obtain ⟨⟨f, q⟩, h2, h⟩ := bind_ok h
  simp only [Px.errorCatcherShown, h1, h2, ok_bind, seen, id, List.all_cons, List.all_nil, Bool.and_true] at hs
  obtain ⟨⟨cs, r⟩, hr, h⟩ := bind_ok h
  cases h
  exact vetted_append (quiet_vetted (restTag_quiet hr)) (vetted_one (by simpa [Cmd.Vetted, Cmd.shows] using hs))

theorem includeDirective_vetted {x : Px} {st : GenVar.Settings} {p : Nat} {a : Act} {ok : Shown → Bool} (h : x.includeDirective st p = .ok a)
    (hs : (x.includeShown st p).all ok = true) : a.All (Cmd.Vetted ok) := by
  unfold Px.includeDirective at h
  obtain ⟨q, h1, h⟩ := bind_ok h
  obtain ⟨q', h2, h⟩ := bind_ok h
  obtain ⟨⟨f, q2⟩, h3, h⟩ := bind_ok h
  obtain ⟨⟨e, q3⟩, h4, h⟩ := bind_ok h
  simp only [Px.includeShown, h1, h2, h3, h4, ok_bind, seen, id, List.all_cons, List.all_nil, Bool.and_true] at hs
  obtain ⟨⟨cs, r⟩, hr, h⟩ := bind_ok h
  cases h
  exact vetted_append (quiet_vetted (restTag_quiet hr)) (vetted_one (by simpa [Cmd.Vetted, Cmd.shows] using hs))

theorem rawDirective_vetted {x : Px} {p : Nat} {a : Act} {ok : Shown → Bool} (h : x.rawDirective p = .ok a) : a.All (Cmd.Vetted ok) := by
  unfold Px.rawDirective at h
  obtain ⟨q, _, h⟩ := bind_ok h
  obtain ⟨col, _, h⟩ := bind_ok h
  dsimp only at h
  split at h
  · obtain ⟨r, _, h⟩ := bind_ok h
    obtain ⟨⟨s, q⟩, _, h⟩ := bind_ok h
    cases h
    exact nothing_vetted (by simp [Cmd.shows])
  · obtain ⟨r, _, h⟩ := bind_ok h
    obtain ⟨⟨cs, r⟩, hr, h⟩ := bind_ok h
    obtain ⟨⟨t, ds, r⟩, ht, h⟩ := bind_ok h
    cases h
    exact vetted_append (vetted_append (quiet_vetted (restTag_quiet hr)) (quiet_vetted (toEnd_quiet ht))) (nothing_vetted (by simp [Cmd.shows]))

theorem attrDirective_vetted {x : Px} {st : GenVar.Settings} {p : Nat} {a : Act} {ok : Shown → Bool} (h : x.attrDirective st p = .ok a)
    (hs : (x.attrShown st p).all ok = true) : a.All (Cmd.Vetted ok) := by
  unfold Px.attrDirective at h
  obtain ⟨q, h1, h⟩ := bind_ok h
  obtain ⟨q, h2, h⟩ := bind_ok h
  obtain ⟨⟨name, q⟩, h3, h⟩ := bind_ok h
  obtain ⟨⟨op, q⟩, h4, h⟩ := bind_ok h
  obtain ⟨⟨e, q⟩, h5, h⟩ := bind_ok h
  simp only [Px.attrShown, h1, h2, h3, h4, h5, ok_bind, seen, id, List.all_cons, List.all_nil, Bool.and_true] at hs
  obtain ⟨⟨cs, r⟩, hr, h⟩ := bind_ok h
  cases h
  exact vetted_append (vetted_one (d := .attr name e) (by simpa [Cmd.Vetted, Cmd.shows] using hs)) (quiet_vetted (restTag_quiet hr))

theorem extendsDirective_vetted {x : Px} {b : Bool} {st : GenVar.Settings} {p : Nat} {a : Act} {ok : Shown → Bool} (h : x.extendsDirective b st p = .ok a)
    (hs : (x.extendsShown b st p).all ok = true) : a.All (Cmd.Vetted ok) := by
  unfold Px.extendsDirective at h
  obtain ⟨q, h1, h⟩ := bind_ok h
  obtain ⟨⟨e, q⟩, h2, h⟩ := bind_ok h
  simp only [Px.extendsShown, h1, h2, ok_bind, seen, id, List.all_cons, List.all_nil, Bool.and_true] at hs
  obtain ⟨⟨cs, r⟩, hr, h⟩ := bind_ok h
  cases h
  exact vetted_append (vetted_one (d := .extends_ e) (by simpa [Cmd.Vetted, Cmd.shows] using hs)) (quiet_vetted (restTag_quiet hr))

theorem implementsDirective_vetted {x : Px} {st : GenVar.Settings} {p : Nat} {a : Act} {ok : Shown → Bool} (h : x.implementsDirective st p = .ok a) :
    a.All (Cmd.Vetted ok) := by
  unfold Px.implementsDirective at h
  obtain ⟨q, _, h⟩ := bind_ok h
  obtain ⟨⟨name, q⟩, _, h⟩ := bind_ok h
  obtain ⟨⟨as, q⟩, _, h⟩ := bind_ok h
  obtain ⟨⟨e, q⟩, _, h⟩ := bind_ok h
  obtain ⟨⟨cs, r⟩, hr, h⟩ := bind_ok h
  cases h
  exact vetted_append (cs := [.implements_ name as]) (nothing_vetted (by simp [Cmd.shows])) (quiet_vetted (restTag_quiet hr))

theorem superDirective_vetted {x : Px} {st : GenVar.Settings} {p : Nat} {a : Act} {ok : Shown → Bool} (h : x.superDirective st p = .ok a) :
    a.All (Cmd.Vetted ok) := by
  unfold Px.superDirective at h
  obtain ⟨q, _, h⟩ := bind_ok h
  obtain ⟨⟨as, q⟩, _, h⟩ := bind_ok h
  obtain ⟨⟨e, q⟩, _, h⟩ := bind_ok h
  obtain ⟨⟨cs, r⟩, hr, h⟩ := bind_ok h
  cases h
  exact vetted_append (quiet_vetted (restTag_quiet hr)) (nothing_vetted (by simp [Cmd.shows]))

theorem textDirective_vetted {x : Px} {name type : Str} {mk : Str → Cmd} {ok : Shown → Bool} (hm : ∀ s, ok (.expr type s none) = true → (mk s).Vetted ok) {p : Nat} {a : Act}
    (h : x.textDirective name mk p = .ok a) (hs : (x.textShown name type p).all ok = true) : a.All (Cmd.Vetted ok) := by
  unfold Px.textDirective at h
  obtain ⟨q, h1, h⟩ := bind_ok h
  obtain ⟨⟨s, q⟩, h2, h⟩ := bind_ok h
  simp only [Px.textShown, h1, h2, ok_bind, seen, id, List.all_cons, List.all_nil, Bool.and_true] at hs
  cases h
  exact vetted_one (hm _ hs)

theorem shown_ite {c : Prop} [Decidable c] {P : Prop} {α : Type} {r s : Except Err α} {l m : List Shown} {a : α} {ok : Shown → Bool}
    (h : (if c then r else s) = .ok a) (hs : (if c then l else m).all ok = true)
    (h1 : c → r = .ok a → l.all ok = true → P) (h2 : s = .ok a → m.all ok = true → P) : P := by
  by_cases hc : c
  · rw [if_pos hc] at h hs
    exact h1 hc h hs
  · rw [if_neg hc] at h hs
    exact h2 h hs

theorem directive_vetted {x : Px} {h : Env} {st : GenVar.Settings} {name : Str} {p : Nat} {a : Act} {ok : Shown → Bool}
    (ha : x.directive h st name p = .ok a) (hs : (x.shown h st name p).all ok = true) : a.All (Cmd.Vetted ok) := by
  have hend : c!"end" = name → (x.shown h st name p) = [] := by rintro rfl; rfl
  unfold Px.directive at ha
  unfold Px.shown at hs
  refine shown_ite ha hs (fun _ ha hs => simpleIndenting_vetted ha hs) fun ha hs => ?_
  refine shown_ite ha hs (fun _ ha hs => simpleExpr_vetted ha hs) fun ha hs => ?_
  refine shown_ite ha hs (fun _ ha hs => ifDirective_vetted ha hs) fun ha hs => ?_
  refine ite_ok ha (fun _ ha => endDirective_vetted ha) fun ha => ?_
  refine shown_ite ha hs (fun _ ha hs => setDirective_vetted ha hs) fun ha hs => ?_
  refine shown_ite ha hs (fun _ ha hs => definition_vetted ha) fun ha hs => ?_
  refine shown_ite ha hs (fun _ ha hs => definition_vetted ha) fun ha hs => ?_
  refine shown_ite ha hs (fun _ ha hs => definition_vetted ha) fun ha hs => ?_
  refine shown_ite ha hs (fun _ ha hs => decorator_vetted ha hs) fun ha hs => ?_
  refine shown_ite ha hs (fun _ ha hs => callDirective_vetted ha) fun ha hs => ?_
  refine shown_ite ha hs (fun _ ha hs => argDirective_vetted ha hs) fun ha hs => ?_
  refine shown_ite ha hs (fun _ ha hs => captureDirective_vetted ha hs) fun ha hs => ?_
  refine shown_ite ha hs (fun _ ha hs => cacheDirective_vetted ha hs) fun ha hs => ?_
  refine shown_ite ha hs (fun e ha hs => filterDirective_vetted ha (e ▸ hs)) fun ha hs => ?_
  refine shown_ite ha hs (fun e ha hs => transformDirective_vetted ha (e ▸ hs)) fun ha hs => ?_
  refine shown_ite ha hs (fun _ ha hs => errorCatcherDirective_vetted ha hs) fun ha hs => ?_
  refine shown_ite ha hs (fun _ ha hs => includeDirective_vetted ha hs) fun ha hs => ?_
  refine ite_ok ha (fun _ ha => rawDirective_vetted ha) fun ha => ?_
  refine ite_ok ha (fun _ ha => ?_) fun ha => ?_
  · cases hs : x.slurp p with
    | error e => rw [hs] at ha; cases ha
    | ok r =>
      rw [hs] at ha
      cases ha
      exact quiet_vetted (slurp_quiet hs)
  refine shown_ite ha hs (fun _ ha hs => attrDirective_vetted ha hs) fun ha hs => ?_
  refine shown_ite ha hs (fun _ ha hs => extendsDirective_vetted ha hs) fun ha hs => ?_
  refine shown_ite ha hs (fun _ ha hs => implementsDirective_vetted ha) fun ha hs => ?_
  refine shown_ite ha hs (fun _ ha hs => superDirective_vetted ha) fun ha hs => ?_
  refine shown_ite ha hs (fun _ ha hs => textDirective_vetted (fun s h => by simpa [Cmd.Vetted, Cmd.shows] using h) ha hs) fun ha hs => ?_
  refine shown_ite ha hs (fun _ ha hs => textDirective_vetted (fun s h => by simpa [Cmd.Vetted, Cmd.shows] using h) ha hs) fun ha hs => ?_
  refine ite_ok ha (fun e ha => ?_) fun ha => ?_
  · cases ha; trivial
  · cases ha

theorem simple_vetted {x : Px} {h : Env} {st : GenVar.Settings} {p : Nat} {t : Option Tag} {cs : List Cmd} {q : Nat} {ok : Shown → Bool}
    (hs : x.simple h st p t = .ok (cs, q)) (ho : (simpleShown cs).all ok = true) : ∀ c ∈ cs, c.Vetted ok := by
  unfold Px.simple at hs
  split at hs
  · exact quiet_vetted (eatComment_quiet hs)
  · exact quiet_vetted (eatMlComment_quiet hs)
  · split at hs
    · cases hs
    · unfold Cx.eatPsp at hs
      split at hs
      · cases hs
      · obtain ⟨a, _, hs⟩ := bind_ok hs
        dsimp only at hs
        split at hs
        · cases hs
        · obtain ⟨b, _, hs⟩ := bind_ok hs
          cases hs
          exact vetted_one (by simpa [Cmd.Vetted, Cmd.shows, simpleShown] using ho)
  · exact quiet_vetted (slurp_quiet hs)
  · cases hp : x.eatPlainText p with
    | error e => rw [hp] at hs; cases hs
    | ok r => rw [hp] at hs; cases hs; exact nothing_vetted (by simp [Cmd.shows])
  · cases hp : x.placeholder st p with
    | error e => rw [hp] at hs; cases hs
    | ok r => rw [hp] at hs; cases hs; exact vetted_one (by simpa [Cmd.Vetted, Cmd.shows, simpleShown] using ho)

theorem marker_vetted (h : Env) (kind : DefKind) (name : Str) {ok : Shown → Bool} : ∀ c ∈ h.marker kind name, c.Vetted ok := by
  unfold Env.marker
  split <;> exact nothing_vetted (by simp [Cmd.shows])

theorem openDef_vetted {h : Env} {s : PS} {kind : DefKind} {name : Str} {as : List (Str × Option Str)} {ok : Shown → Bool}
    {cs : List Cmd} {p : Nat} (h1 : ∀ c ∈ s.cmds, c.Vetted ok) (h2 : ∀ c ∈ cs, c.Vetted ok) :
    ∀ c ∈ (h.openDef s kind name as cs p).cmds, c.Vetted ok := by
  unfold Env.openDef
  dsimp only
  split
  · refine vetted_append h1 (vetted_append h2 ?_)
    intro c hc
    rcases List.mem_cons.1 hc with rfl | hc
    · intro s hs; cases hs
    · exact marker_vetted h kind name c hc
  · exact vetted_append h1 (vetted_append h2 (nothing_vetted (by simp [Cmd.shows])))

theorem startLine_vetted {h : Env} {s : PS} {kind : DefKind} {name : Str} {as : List (Str × Option Str)} {ok : Shown → Bool}
    {p bp : Nat} (h1 : ∀ c ∈ s.cmds, c.Vetted ok) : ∀ c ∈ (h.startLine s kind name as p bp).cmds, c.Vetted ok := by
  unfold Env.startLine
  split <;> exact vetted_append h1 (nothing_vetted (by simp [Cmd.shows]))

theorem endLine_vetted (h : Env) (kind : DefKind) (name : Str) (b : Bool) {ok : Shown → Bool} : ∀ c ∈ h.endLine kind name b, c.Vetted ok := by
  unfold Env.endLine
  split
  · split <;> exact nothing_vetted (by simp [Cmd.shows])
  · exact vetted_append (marker_vetted h _ name) (nothing_vetted (by simp [Cmd.shows]))
  · exact nothing_vetted (by simp [Cmd.shows])

theorem endBlock_vetted {h : Env} {s t : PS} {name : Str} {ok : Shown → Bool} (h1 : ∀ c ∈ s.cmds, c.Vetted ok) (ht : h.endBlock s name = .ok t) :
    ∀ c ∈ t.cmds, c.Vetted ok := by
  have key : ∀ (u : PS) (ds : List Cmd), u.cmds = s.cmds ++ ds → (∀ c ∈ ds, c.shows = [] ∧ ∀ a b d, c ≠ .ternary a b d) → ∀ c ∈ u.cmds, c.Vetted ok := by
    intro u ds hu hd
    rw [hu]
    exact vetted_append h1 (nothing_vetted hd)
  unfold Env.endBlock at ht
  dsimp only at ht
  repeat' split at ht
  all_goals first
    | (cases ht; exact key _ _ rfl (by simp [Cmd.shows]))
    | cases ht

theorem run_vetted (h : Env) (ok : Shown → Bool) (n : Nat) :
    (∀ s t, h.loopF ok n s = .ok t → (∀ c ∈ s.cmds, c.Vetted ok) → ∀ c ∈ t.cmds, c.Vetted ok) ∧
    (∀ s t, h.eatDirectiveF ok n s = .ok t → (∀ c ∈ s.cmds, c.Vetted ok) → ∀ c ∈ t.cmds, c.Vetted ok) ∧
    (∀ s a t, a.All (Cmd.Vetted ok) → h.performF ok n s a = .ok t → (∀ c ∈ s.cmds, c.Vetted ok) → ∀ c ∈ t.cmds, c.Vetted ok) := by
  induction n with
  | zero =>
    refine ⟨fun s t ht => ?_, fun s t ht => ?_, fun s a t _ ht => ?_⟩
    · unfold Env.loopF at ht; cases ht
    · unfold Env.eatDirectiveF at ht; cases ht
    · unfold Env.performF at ht; cases ht
  | succ n ih =>
    obtain ⟨ih1, ih2, ih3⟩ := ih
    refine ⟨fun s t ht hs => ?_, fun s t ht hs => ?_, fun s a t ha ht hs => ?_⟩
    · unfold Env.loopF at ht
      split at ht
      · cases ht; exact hs
      · obtain ⟨tag, _, ht⟩ := bind_ok ht
        split at ht
        · obtain ⟨u, hu, ht⟩ := bind_ok ht
          exact ih1 _ _ ht (ih2 _ _ hu hs)
        · obtain ⟨⟨cs, q⟩, hc, ht⟩ := bind_ok ht
          dsimp only at ht
          split at ht
          · rename_i ho
            exact ih1 _ _ ht (vetted_append hs (simple_vetted hc ho))
          · cases ht
    · unfold Env.eatDirectiveF at ht
      split at ht
      · cases ht
      · cases ht
      · split at ht
        · cases ht
        · split at ht
          · rename_i ho
            obtain ⟨a, ha, ht⟩ := bind_ok ht
            exact ih3 _ _ _ (directive_vetted ha ho) ht hs
          · cases ht
    · unfold Env.performF at ht
      split at ht
      · cases ht
        exact vetted_append hs ha
      · cases ht
        exact vetted_append hs ha
      · obtain ⟨u, hu, ht⟩ := bind_ok ht
        exact endBlock_vetted (vetted_append hs ha) ht
      · cases ht; exact hs
      · obtain ⟨u, hu, ht⟩ := bind_ok ht
        cases ht
        exact vetted_append (ih1 _ _ hu (vetted_append hs ha.1)) ha.2
      · cases ht
        exact openDef_vetted hs ha
      · obtain ⟨u, hu, ht⟩ := bind_ok ht
        obtain ⟨v, hv, ht⟩ := bind_ok ht
        obtain ⟨⟨cs, q⟩, hr, ht⟩ := bind_ok ht
        cases ht
        have hu' := ih1 _ _ hu (startLine_vetted hs)
        have hv' : v.cmds = u.cmds := by
          unfold restoreLine at hv
          split at hv
          · split at hv
            · cases hv
            · cases hv; rfl
          · cases hv; rfl
        exact vetted_append (vetted_append (hv' ▸ hu') (endLine_vetted h _ _ _)) (quiet_vetted (restTag_quiet hr))
      · exact ih2 _ _ ht (vetted_append hs ha)

/-- C80. Whatever is accepted was vetted: for every source, all settings and every hook that lets some expressions pass and raises an
exception for the others, the Python code in each command given to the compiler was shown to the hook, under the type of its
directive, and the hook let it pass. What is missing: the code in the commands with nothing in `Cmd.shows`, of which the hook sees
the source text or nothing. -/
theorem C80_code_is_shown_partial (h : Env) (ok : Shown → Bool) (st : GenVar.Settings) (cs : List Cmd) (hp : h.parseF ok st = .ok cs) :
    ∀ c ∈ cs, c.Vetted ok := by
  unfold Env.parseF at hp
  obtain ⟨s, hs, hp⟩ := bind_ok hp
  split at hp
  · cases hp
    exact (run_vetted h ok _).1 _ _ hs (by simp)
  · cases hp

/-! ### Hooks only refuse -/

/-- The parser with hooks gives the same, or an exception for something the hooks refuse. -/
def Refuses (ok : Shown → Bool) {α : Type} (r u : Except Err α) : Prop :=
  r = u ∨ ∃ p s, r = .error (.parse p .other) ∧ ok s = false

theorem Refuses.bind {ok : Shown → Bool} {α β : Type} {r u : Except Err α} {f g : α → Except Err β} (h1 : Refuses ok r u)
    (h2 : ∀ a, Refuses ok (f a) (g a)) : Refuses ok (r >>= f) (u >>= g) := by
  rcases h1 with rfl | ⟨p, name, rfl, h3⟩
  · cases r with
    | error e => exact Or.inl rfl
    | ok a => exact h2 a
  · exact Or.inr ⟨p, name, rfl, h3⟩

theorem Refuses.ite {ok : Shown → Bool} {α : Type} {l : List Shown} {r u : Except Err α} {p : Nat} (h1 : Refuses ok r u) :
    Refuses ok (if l.all ok = true then r else .error (.parse p .other)) u := by
  split
  · exact h1
  · rename_i h
    simp only [List.all_eq_true, not_forall] at h
    obtain ⟨s, _, hs⟩ := h
    exact Or.inr ⟨p, s, rfl, by simpa using hs⟩

theorem run_refuses (h : Env) (ok : Shown → Bool) (n : Nat) :
    (∀ s, Refuses ok (h.loopF ok n s) (h.loop n s)) ∧ (∀ s, Refuses ok (h.eatDirectiveF ok n s) (h.eatDirective n s)) ∧
    (∀ s a, Refuses ok (h.performF ok n s a) (h.perform n s a)) := by
  induction n with
  | zero =>
    refine ⟨fun s => Or.inl ?_, fun s => Or.inl ?_, fun s a => Or.inl ?_⟩
    · unfold Env.loop Env.loopF; rfl
    · unfold Env.eatDirective Env.eatDirectiveF; rfl
    · unfold Env.perform Env.performF; rfl
  | succ n ih =>
    obtain ⟨ih1, ih2, ih3⟩ := ih
    refine ⟨fun s => ?_, fun s => ?_, fun s a => ?_⟩
    · unfold Env.loop Env.loopF
      split
      · exact Or.inl rfl
      · refine Refuses.bind (Or.inl rfl) fun t => ?_
        dsimp only
        split
        · exact Refuses.bind (ih2 s) fun u => ih1 u
        · exact Refuses.bind (Or.inl rfl) fun u => Refuses.ite (ih1 _)
    · unfold Env.eatDirective Env.eatDirectiveF
      cases hm : (h.px s.bp).matchDirective s.pos with
      | error e => exact Or.inl rfl
      | ok d =>
        cases d with
        | none => exact Or.inl rfl
        | some name =>
          dsimp only
          split
          · exact Or.inl rfl
          · exact Refuses.ite (Refuses.bind (Or.inl rfl) fun a => ih3 s a)
    · unfold Env.perform Env.performF
      cases a with
      | go cs p => exact Or.inl rfl
      | opened name cs p => exact Or.inl rfl
      | closed name cs p => exact Or.inl rfl
      | stop => exact Or.inl rfl
      | line b p bp a => exact Refuses.bind (ih1 _) fun u => Or.inl rfl
      | defOpen kind name as cs p => exact Or.inl rfl
      | defLine kind name as p bp cl e => exact Refuses.bind (ih1 _) fun u => Or.inl rfl
      | decorated cs p => exact ih2 _

/-- C80. Hooks do nothing but refuse: the result is the one without hooks, or an exception for something a hook refuses. -/
theorem C80_only_refuses (h : Env) (ok : Shown → Bool) (st : GenVar.Settings) :
    h.parseF ok st = h.parse st ∨ ∃ p s, h.parseF ok st = .error (.parse p .other) ∧ ok s = false := by
  unfold Env.parseF Env.parse
  exact Refuses.bind ((run_refuses h ok _).1 _) fun s => Or.inl rfl

/-- C80. A hook that refuses nothing changes nothing, and whatever is accepted is accepted without hooks, with the same meaning. -/
theorem C80_accepted_unchanged (h : Env) (ok : Shown → Bool) (st : GenVar.Settings) :
    ((∀ s, ok s = true) → h.parseF ok st = h.parse st) ∧ ∀ cs, h.parseF ok st = .ok cs → h.parse st = .ok cs := by
  constructor
  · intro hk
    rcases C80_only_refuses h ok st with h' | ⟨p, s, _, hs⟩
    · exact h'
    · rw [hk] at hs; cases hs
  · intro cs hc
    rcases C80_only_refuses h ok st with h' | ⟨p, s, h', _⟩
    · rw [← h', hc]
    · rw [hc] at h'; cases h'

/-! ### Forbidding a word -/

/-- A hook that looks for a word in what it is given. -/
def without (w : Str) : Shown → Bool
  | .expr _ e raw => !(decide (w <:+: e) || match raw with | none => false | some r => decide (w <:+: r))
  | .args as => as.all fun (n, v) => !(decide (w <:+: n) || match v with | none => false | some v => decide (w <:+: v))

/-- The Python code in the commands whose code is shown as such. -/
def Cmd.code : Cmd → List Str
  | .placeholder e _ _ _ _ => [e]
  | .psp s => [s]
  | .indenting _ e => [e]
  | .reindenting _ e _ => [e]
  | .simple _ e => [e]
  | .set l op r _ => [l, op, strip r]
  | .include_ e _ _ => [e]
  | .callArg n => [n]
  | .startCapture e => [e]
  | .startCache as => as.flatMap fun (n, v) => n :: v.toList
  | .setFilter f _ => [f]
  | .setTransform f _ => [f]
  | .errorCatcher n => [n]
  | .attr _ e => [e]
  | .decorator e => [e]
  | .extends_ e => [e]
  | .shBang s => [s]
  | .encoding s => [s]
  | _ => []

/-- C80. A hook that refuses whatever contains a word keeps the word out of the code of all these commands. What is missing: the
commands for which `Cmd.code` is empty, see the counterexamples. -/
theorem C80_word_partial (h : Env) (w : Str) (st : GenVar.Settings) (cs : List Cmd) (hp : h.parseF (without w) st = .ok cs) (c : Cmd) (hc : c ∈ cs)
    (e : Str) (he : e ∈ c.code) : ¬ w <:+: e := by
  have hv := C80_code_is_shown_partial h _ st cs hp c hc
  intro hw
  have infix_l : ∀ {a b : Str}, w <:+: a → w <:+: a ++ b := fun h => h.trans (List.prefix_append _ _).isInfix
  have infix_r : ∀ {a b : Str}, w <:+: b → w <:+: a ++ b := fun h => h.trans (List.suffix_append _ _).isInfix
  cases c <;> simp only [Cmd.code, List.not_mem_nil, List.mem_cons, or_false, List.mem_flatMap] at he
  all_goals simp only [Cmd.Vetted, Cmd.shows, List.mem_singleton, forall_eq, without, Bool.not_eq_true', Bool.or_eq_false_iff, decide_eq_false_iff_not,
    List.all_eq_true, and_true] at hv
  all_goals first
    | (subst he; exact hv hw)
    | (subst he; exact hv.1 hw)
    | (rcases he with rfl | rfl | rfl
       · exact hv (infix_l (infix_l (infix_l (infix_l hw))))
       · exact hv (infix_l (infix_l (infix_r hw)))
       · exact hv (infix_r hw))
    | (obtain ⟨⟨n, v⟩, hm, he⟩ := he
       have := hv _ hm
       rcases he with rfl | he
       · exact this.1 hw
       · cases v with
         | none => cases he
         | some v => simp at he; subst he; simp only [decide_eq_false_iff_not] at this; exact this.2 hw)

/-- A hook that forbids `__`: the first template is accepted as ever, the others are refused, wherever the code stands. -/
example : (demoEnv c!"a$x\n#if $y\nb\n#end if\n").parseF (without c!"__") demoSt = (demoEnv c!"a$x\n#if $y\nb\n#end if\n").parse demoSt ∧
    ((demoEnv c!"a$x\n#if $y\nb\n#end if\n").parseF (without c!"__") demoSt).isOk = true ∧
    (demoEnv c!"a$x.__class__").parseF (without c!"__") demoSt = .error (.parse 1 .other) ∧
    (demoEnv c!"#if $y: $x[$y.__class__]\n").parseF (without c!"__") demoSt = .error (.parse 8 .other) ∧
    (demoEnv c!"#set $x = y.__class__\n").parseF (without c!"__") demoSt = .error (.parse 0 .other) ∧
    (demoEnv c!"#def f(x=y.__class__)\n#end def\n").parseF (without c!"__") demoSt = .error (.parse 0 .other) ∧
    (demoEnv c!"<% y.__class__ %>").parseF (without c!"__") demoSt = .error (.parse 0 .other) := by
  decide +kernel

/-- C80, a violation. The arguments of `#call` are read after the hooks were asked and are never shown to them: a template with
forbidden code there is accepted, whatever the hooks do with it. -/
theorem C80_call_arguments_counterexample :
    (demoEnv c!"#call f x.__class__\n#end call\n").parseF (without c!"__") demoSt =
      .ok [.handleWS, .startCall c!"f" c!"x.__class__", .handleWS, .endCall] ∧
    (demoEnv c!"#call f x.__class__\n#end call\n").parseF (fun s => decide (s = .expr c!"call" c!" f" none)) demoSt =
      .ok [.handleWS, .startCall c!"f" c!"x.__class__", .handleWS, .endCall] := by
  decide +kernel

/-- C80, a violation. The arguments for the filter in `${x, a=..}` are in no expression that is shown, only in the source text given
beside it: a hook that looks at the expression alone lets them pass. -/
theorem C80_filter_arguments_counterexample :
    (demoEnv c!"${x, a=y.__class__}").parseF (fun s => match s with | .expr _ e _ => !decide (c!"__" <:+: e) | _ => true) demoSt =
      .ok [.placeholder c!"x" c!"${x, a=y.__class__}" (some c!", a=y.__class__") .none false] := by
  decide +kernel

/-- C80, a violation. A second `then` in `#if .. then .. else ..` goes on with the first value: the code `x. evil()` is put together
from two pieces that do not stand together in what is shown. -/
theorem C80_ternary_counterexample :
    (demoEnv c!"#if 1 then x.else 0 then evil()\n").parseF (fun s => decide (s = .expr c!"if" c!"if 1 then x.else 0 then evil()" none)) demoSt =
      .ok [.handleWS, .ternary c!"if 1 " c!" x. evil()" c!" 0 "] := by
  decide +kernel

/-- C80, what the type of an expression is: for `#silent` and `#echo` it is not the name of the directive but the first word of the
expression, so that a hook that looks for `silent` never finds it. -/
theorem C80_type_counterexample :
    (demoEnv c!"#silent f( 1)\n").parseF (fun s => decide (s = .expr c!"f(" c!"f( 1)" none)) demoSt = .ok [.handleWS, .simple c!"silent" c!"f( 1)"] ∧
    (demoEnv c!"#silent f( 1)\n").parseF (fun s => match s with | .expr t _ _ => !decide (t = c!"silent") | _ => true) demoSt =
      .ok [.handleWS, .simple c!"silent" c!"f( 1)"] := by
  decide +kernel

end Cheetah.Parser
