import Verif.Restrict
import Verif.Props.ParserHigh
import Verif.Props.Driver
/-!
# C79: a forbidden directive has no effect
-/
namespace Cheetah.Parser

/-! ### Specification -/

/-- The directives that can give a command: one of them stands in the source wherever the command is given. `psp` is
`<% ... %>`. Nothing for text, comments and placeholders, and for the ends of blocks. -/
def Cmd.tags : Cmd → List Str
  | .psp _ => [c!"psp"]
  | .indenting name _ => [name]
  | .reindenting name _ _ => [name]
  | .ternary _ _ _ => [c!"if"]
  | .simple name _ => [name]
  | .set _ _ _ _ => [c!"set"]
  | .raw _ => [c!"raw"]
  | .include_ _ _ _ => [c!"include"]
  | .startCall _ _ => [c!"call"]
  | .callArg _ => [c!"arg"]
  | .startCapture _ => [c!"capture"]
  | .startCache _ => [c!"cache"]
  | .setFilter _ _ => [c!"filter"]
  | .setTransform _ _ => [c!"transform"]
  | .errorCatcher _ => [c!"errorCatcher"]
  | .errorCatcherOff => [c!"end"]
  | .startMethod _ _ => [c!"def", c!"block"]
  | .addClosure _ _ => [c!"def", c!"closure"]
  | .attr _ _ => [c!"attr"]
  | .decorator _ => [c!"@"]
  | .extends_ _ => [c!"extends"]
  | .implements_ _ _ => [c!"implements"]
  | .super _ => [c!"super"]
  | .shBang _ => [c!"shBang"]
  | .encoding _ => [c!"encoding"]
  | .closeDef => []
  | .closeBlock => []
  | .endCall => []
  | .endCapture => []
  | .endCache => []
  | .closeFilter => []
  | .dedent => []
  | .strConst _ => []
  | .comment _ => []
  | .handleWS => []
  | .commit => []
  | .placeholder _ _ _ _ _ => []

/-- At a place of the source there is a directive of that name, or `<%` if the name is `psp`. -/
def Env.At (h : Env) (p : Nat) (name : Str) : Prop :=
  ∃ bp, (h.px bp).matchDirective p = .ok (some name) ∨ (name = c!"psp" ∧ (h.px bp).tagAt p = .ok (some .psp))

/-- The same parser without restrictions. -/
def Env.free (h : Env) : Env := { h with disabled := fun _ => false }

/-! ### Commands of a directive -/

/-- A command that needs no directive, or the one of that name. -/
def Cmd.By (name : Str) (c : Cmd) : Prop := c.tags = [] ∨ name ∈ c.tags

/-- White space or a comment. -/
def Cmd.Quiet (c : Cmd) : Prop := c = .handleWS ∨ c = .commit ∨ ∃ s, c = .comment s

theorem Cmd.Quiet.tags {c : Cmd} (h : c.Quiet) : c.tags = [] := by
  rcases h with rfl | rfl | ⟨s, rfl⟩ <;> rfl

theorem eatComment_quiet {x : Px} {p : Nat} {cs : List Cmd} {q : Nat} (h : x.eatComment p = .ok (cs, q)) : ∀ c ∈ cs, c.Quiet := by
  unfold Cx.eatComment at h
  split at h
  · cases h
  · obtain ⟨a, _, h⟩ := bind_ok h
    obtain ⟨⟨s, r⟩, _, h⟩ := bind_ok h
    cases h
    intro c hc
    split at hc <;> simp at hc <;> rcases hc with rfl | rfl <;> simp [Cmd.Quiet]

theorem afterMl_quiet {x : Px} {cl : Bool} {e : Nat} {m : Str} {p : Nat} {cs : List Cmd} {q : Nat} (h : x.afterMl cl e m p = .ok (cs, q)) :
    ∀ c ∈ cs, c.Quiet := by
  unfold Cx.afterMl at h
  split at h
  · obtain ⟨a, _, h⟩ := bind_ok h
    have key : ∀ q', (Except.ok ((if (cl && (decide (x.bp ≤ q') || decide (e < q'))) = true then [Cmd.handleWS] else []) ++ [Cmd.comment m], q') :
        Except Err (List Cmd × Nat)) = .ok (cs, q) → ∀ c ∈ cs, c.Quiet := by
      intro q' h
      cases h
      intro c hc
      split at hc <;> simp at hc
      · rcases hc with rfl | rfl <;> simp [Cmd.Quiet]
      · subst hc; simp [Cmd.Quiet]
    dsimp only at h
    split at h
    · obtain ⟨r, _, h⟩ := bind_ok h
      exact key _ h
    · exact key _ h
  · cases h
    simp [Cmd.Quiet]

theorem eatMlComment_quiet {x : Px} {p : Nat} {cs : List Cmd} {q : Nat} (h : x.eatMlComment p = .ok (cs, q)) : ∀ c ∈ cs, c.Quiet := by
  unfold Cx.eatMlComment at h
  split at h
  · cases h
  · obtain ⟨a, _, h⟩ := bind_ok h
    obtain ⟨e, _, h⟩ := bind_ok h
    dsimp only at h
    split at h
    · split at h
      · cases h
      · obtain ⟨r, _, h⟩ := bind_ok h
        exact afterMl_quiet h
    · exact afterMl_quiet h

theorem restTag_quiet {x : Px} {cl : Bool} {e p : Nat} {cs : List Cmd} {q : Nat} (h : x.restTag cl e p = .ok (cs, q)) : ∀ c ∈ cs, c.Quiet := by
  unfold Px.restTag at h
  obtain ⟨⟨ds, com, r⟩, hd, h⟩ := bind_ok h
  obtain ⟨r', _, h⟩ := bind_ok h
  cases h
  have hds : ∀ c ∈ ds, c.Quiet := by
    unfold Px.tagComment at hd
    split at hd
    · cases hd; simp
    · obtain ⟨a, _, hd⟩ := bind_ok hd
      obtain ⟨d, _, hd⟩ := bind_ok hd
      dsimp only at hd
      split at hd
      · cases hd; simp
      · obtain ⟨⟨es, t⟩, he, hd⟩ := bind_ok hd
        cases hd
        exact eatComment_quiet he
  intro c hc
  rcases List.mem_append.1 hc with hc | hc
  · exact hds c hc
  · split at hc <;> simp at hc
    subst hc; simp [Cmd.Quiet]

theorem toEnd_quiet {x : Px} {n : Str} {p : Nat} {t : Str} {cs : List Cmd} {q : Nat} (h : x.toEnd n p = .ok (t, cs, q)) : ∀ c ∈ cs, c.Quiet := by
  unfold Px.toEnd at h
  obtain ⟨⟨e, q, cl⟩, _, h⟩ := bind_ok h
  obtain ⟨e', _, h⟩ := bind_ok h
  obtain ⟨q', _, h⟩ := bind_ok h
  obtain ⟨r, _, h⟩ := bind_ok h
  cases h
  intro c hc
  split at hc <;> simp at hc
  subst hc; simp [Cmd.Quiet]

theorem slurp_quiet {x : Px} {p : Nat} {cs : List Cmd} {q : Nat} (h : x.slurp p = .ok (cs, q)) : ∀ c ∈ cs, c.Quiet := by
  unfold Px.slurp at h
  obtain ⟨⟨e, q⟩, _, h⟩ := bind_ok h
  cases h
  intro c hc
  split at hc <;> simp at hc
  · rcases hc with rfl | rfl <;> simp [Cmd.Quiet]
  · subst hc; simp [Cmd.Quiet]

/-- The commands of an action are those of the directive. -/
def Act.By (name : Str) : Act → Prop
  | .go cs _ => ∀ c ∈ cs, c.By name
  | .opened _ cs _ => ∀ c ∈ cs, c.By name
  | .closed _ cs _ => ∀ c ∈ cs, c.By name
  | .stop => True
  | .line b _ _ a => (∀ c ∈ b, c.By name) ∧ ∀ c ∈ a, c.By name
  | .defOpen kind _ _ cs _ => kind.name = name ∧ ∀ c ∈ cs, c.By name
  | .defLine kind _ _ _ _ _ _ => kind.name = name
  | .decorated cs _ => ∀ c ∈ cs, c.By name

theorem by_of_nil {name : Str} {cs : List Cmd} (h : ∀ c ∈ cs, c.tags = []) : ∀ c ∈ cs, c.By name := fun c hc => Or.inl (h c hc)

theorem by_of_quiet {name : Str} {cs : List Cmd} (h : ∀ c ∈ cs, c.Quiet) : ∀ c ∈ cs, c.By name := fun c hc => Or.inl (h c hc).tags

theorem by_append {name : Str} {cs ds : List Cmd} (h : ∀ c ∈ cs, c.By name) (h' : ∀ c ∈ ds, c.By name) : ∀ c ∈ cs ++ ds, c.By name := by
  intro c hc
  rcases List.mem_append.1 hc with hc | hc
  · exact h c hc
  · exact h' c hc

theorem by_one {name : Str} {d : Cmd} (h : name ∈ d.tags) : ∀ c ∈ [d], c.By name := by
  intro c hc
  simp at hc
  subst hc
  exact Or.inr h

theorem simpleExpr_by {x : Px} {st : GenVar.Settings} {name : Str} {p : Nat} {a : Act} (h : x.simpleExpr st name p = .ok a) : a.By name := by
  unfold Px.simpleExpr at h
  obtain ⟨q, _, h⟩ := bind_ok h
  obtain ⟨⟨e, r⟩, _, h⟩ := bind_ok h
  dsimp only at h
  split at h
  · cases h
  · obtain ⟨⟨cs, r⟩, hr, h⟩ := bind_ok h
    cases h
    have := by_append (by_of_quiet (name := name) (restTag_quiet hr)) (by_one (d := .simple name (strip e)) (List.mem_singleton.2 rfl))
    split <;> exact this

theorem simpleIndenting_by {x : Px} {st : GenVar.Settings} {name : Str} {p : Nat} {a : Act} (h : x.simpleIndenting st name p = .ok a) : a.By name := by
  unfold Px.simpleIndenting at h
  obtain ⟨q, _, h⟩ := bind_ok h
  obtain ⟨⟨e, r⟩, _, h⟩ := bind_ok h
  obtain ⟨col, _, h⟩ := bind_ok h
  dsimp only at h
  split at h
  · obtain ⟨r, _, h⟩ := bind_ok h
    cases h
    refine ⟨?_, by_of_nil (by simp [Cmd.tags])⟩
    split <;> exact by_one (List.mem_singleton.2 rfl)
  · obtain ⟨r, _, h⟩ := bind_ok h
    obtain ⟨⟨cs, r⟩, hr, h⟩ := bind_ok h
    dsimp only at h
    split at h <;> cases h <;> exact by_append (by_of_quiet (restTag_quiet hr)) (by_one (List.mem_singleton.2 rfl))

theorem endDirective_by {x : Px} {st : GenVar.Settings} {p : Nat} {a : Act} (h : x.endDirective st p = .ok a) : a.By c!"end" := by
  unfold Px.endDirective at h
  obtain ⟨q, _, h⟩ := bind_ok h
  dsimp only at h
  split at h
  · cases h
  · obtain ⟨⟨e, r⟩, _, h⟩ := bind_ok h
    obtain ⟨⟨cs, r⟩, hr, h⟩ := bind_ok h
    dsimp only at h
    split at h <;> cases h
    · exact by_of_quiet (restTag_quiet hr)
    · exact by_append (by_of_quiet (restTag_quiet hr)) (by_one (List.mem_singleton.2 rfl))

theorem ifDirective_by {x : Px} {st : GenVar.Settings} {p : Nat} {a : Act} (h : x.ifDirective st p = .ok a) : a.By c!"if" := by
  unfold Px.ifDirective at h
  obtain ⟨q, _, h⟩ := bind_ok h
  obtain ⟨⟨ws, r⟩, _, h⟩ := bind_ok h
  dsimp only at h
  split at h
  · obtain ⟨⟨cs, r⟩, hr, h⟩ := bind_ok h
    cases h
    exact by_append (by_of_quiet (restTag_quiet hr)) (by_one (List.mem_singleton.2 rfl))
  · obtain ⟨col, _, h⟩ := bind_ok h
    split at h
    · obtain ⟨r, _, h⟩ := bind_ok h
      cases h
      exact ⟨by_one (List.mem_singleton.2 rfl), by_of_nil (by simp [Cmd.tags])⟩
    · obtain ⟨r, _, h⟩ := bind_ok h
      obtain ⟨⟨cs, r⟩, hr, h⟩ := bind_ok h
      cases h
      exact by_append (by_of_quiet (restTag_quiet hr)) (by_one (List.mem_singleton.2 rfl))

theorem setDirective_by {x : Px} {st : GenVar.Settings} {p : Nat} {a : Act} (h : x.setDirective st p = .ok a) : a.By c!"set" := by
  unfold Px.setDirective at h
  obtain ⟨q, _, h⟩ := bind_ok h
  obtain ⟨⟨sty, q⟩, _, h⟩ := bind_ok h
  obtain ⟨⟨l, q⟩, _, h⟩ := bind_ok h
  obtain ⟨⟨op, q⟩, _, h⟩ := bind_ok h
  obtain ⟨⟨r, q⟩, _, h⟩ := bind_ok h
  obtain ⟨⟨cs, q⟩, hr, h⟩ := bind_ok h
  cases h
  exact by_append (by_of_quiet (restTag_quiet hr)) (by_one (List.mem_singleton.2 rfl))

theorem definition_by {x : Px} {st : GenVar.Settings} {kind : DefKind} {p : Nat} {a : Act} (h : x.definition st kind p = .ok a) : a.By kind.name := by
  unfold Px.definition at h
  obtain ⟨q, _, h⟩ := bind_ok h
  obtain ⟨q, _, h⟩ := bind_ok h
  obtain ⟨⟨name, q⟩, _, h⟩ := bind_ok h
  obtain ⟨⟨as, q⟩, _, h⟩ := bind_ok h
  obtain ⟨col, _, h⟩ := bind_ok h
  dsimp only at h
  split at h
  · obtain ⟨q, _, h⟩ := bind_ok h
    obtain ⟨r, _, h⟩ := bind_ok h
    cases h
    rfl
  · obtain ⟨c, _, h⟩ := bind_ok h
    obtain ⟨⟨e, q⟩, _, h⟩ := bind_ok h
    obtain ⟨⟨cs, q⟩, hr, h⟩ := bind_ok h
    cases h
    exact ⟨rfl, by_of_quiet (restTag_quiet hr)⟩

theorem decorator_by {x : Px} {st : GenVar.Settings} {p : Nat} {a : Act} (h : x.decorator st p = .ok a) : a.By c!"@" := by
  unfold Px.decorator at h
  obtain ⟨q, _, h⟩ := bind_ok h
  obtain ⟨⟨e, q⟩, _, h⟩ := bind_ok h
  obtain ⟨⟨cs, r⟩, hr, h⟩ := bind_ok h
  obtain ⟨d, _, h⟩ := bind_ok h
  split at h
  · split at h
    · cases h
      exact by_append (by_one (d := .decorator e) (List.mem_singleton.2 rfl)) (by_of_quiet (restTag_quiet hr))
    · cases h
  · cases h

theorem callDirective_by {x : Px} {st : GenVar.Settings} {p : Nat} {a : Act} (h : x.callDirective st p = .ok a) : a.By c!"call" := by
  unfold Px.callDirective at h
  obtain ⟨q, _, h⟩ := bind_ok h
  obtain ⟨⟨f, q⟩, _, h⟩ := bind_ok h
  obtain ⟨⟨e, q⟩, _, h⟩ := bind_ok h
  obtain ⟨col, _, h⟩ := bind_ok h
  dsimp only at h
  split at h
  · obtain ⟨r, _, h⟩ := bind_ok h
    cases h
    exact ⟨by_one (List.mem_singleton.2 rfl), by_of_nil (by simp [Cmd.tags])⟩
  · obtain ⟨r, _, h⟩ := bind_ok h
    obtain ⟨⟨cs, r⟩, hr, h⟩ := bind_ok h
    cases h
    exact by_append (by_of_quiet (restTag_quiet hr)) (by_one (List.mem_singleton.2 rfl))

theorem argDirective_by {x : Px} {p : Nat} {a : Act} (h : x.argDirective p = .ok a) : a.By c!"arg" := by
  unfold Px.argDirective at h
  obtain ⟨q, _, h⟩ := bind_ok h
  obtain ⟨⟨f, q⟩, _, h⟩ := bind_ok h
  obtain ⟨c, _, h⟩ := bind_ok h
  split at h
  · cases h
    exact by_one (List.mem_singleton.2 rfl)
  · obtain ⟨⟨cs, r⟩, hr, h⟩ := bind_ok h
    cases h
    exact by_append (by_one (d := .callArg f) (List.mem_singleton.2 rfl)) (by_of_quiet (restTag_quiet hr))

theorem captureDirective_by {x : Px} {st : GenVar.Settings} {p : Nat} {a : Act} (h : x.captureDirective st p = .ok a) : a.By c!"capture" := by
  unfold Px.captureDirective at h
  obtain ⟨q, _, h⟩ := bind_ok h
  obtain ⟨⟨e, q⟩, _, h⟩ := bind_ok h
  obtain ⟨col, _, h⟩ := bind_ok h
  split at h
  · obtain ⟨r, _, h⟩ := bind_ok h
    cases h
    exact ⟨by_one (List.mem_singleton.2 rfl), by_of_nil (by simp [Cmd.tags])⟩
  · obtain ⟨r, _, h⟩ := bind_ok h
    obtain ⟨⟨cs, r⟩, hr, h⟩ := bind_ok h
    cases h
    exact by_append (by_of_quiet (restTag_quiet hr)) (by_one (List.mem_singleton.2 rfl))

theorem cacheDirective_by {x : Px} {st : GenVar.Settings} {p : Nat} {a : Act} (h : x.cacheDirective st p = .ok a) : a.By c!"cache" := by
  unfold Px.cacheDirective at h
  obtain ⟨q, _, h⟩ := bind_ok h
  obtain ⟨⟨e, q⟩, _, h⟩ := bind_ok h
  obtain ⟨col, _, h⟩ := bind_ok h
  dsimp only at h
  split at h
  · obtain ⟨r, _, h⟩ := bind_ok h
    cases h
    exact ⟨by_one (List.mem_singleton.2 rfl), by_of_nil (by simp [Cmd.tags])⟩
  · obtain ⟨r, _, h⟩ := bind_ok h
    obtain ⟨⟨cs, r⟩, hr, h⟩ := bind_ok h
    cases h
    exact by_append (by_of_quiet (restTag_quiet hr)) (by_one (List.mem_singleton.2 rfl))

theorem filterDirective_by {x : Px} {st : GenVar.Settings} {p : Nat} {a : Act} (h : x.filterDirective st p = .ok a) : a.By c!"filter" := by
  unfold Px.filterDirective at h
  obtain ⟨q, _, h⟩ := bind_ok h
  obtain ⟨⟨f, k, q⟩, _, h⟩ := bind_ok h
  obtain ⟨col, _, h⟩ := bind_ok h
  dsimp only at h
  split at h
  · obtain ⟨r, _, h⟩ := bind_ok h
    cases h
    exact ⟨by_one (List.mem_singleton.2 rfl), by_of_nil (by simp [Cmd.tags])⟩
  · obtain ⟨r, _, h⟩ := bind_ok h
    obtain ⟨⟨cs, r⟩, hr, h⟩ := bind_ok h
    cases h
    exact by_append (by_of_quiet (restTag_quiet hr)) (by_one (List.mem_singleton.2 rfl))

theorem transformDirective_by {x : Px} {st : GenVar.Settings} {p : Nat} {a : Act} (h : x.transformDirective st p = .ok a) : a.By c!"transform" := by
  unfold Px.transformDirective at h
  obtain ⟨q, _, h⟩ := bind_ok h
  obtain ⟨⟨f, k, q⟩, _, h⟩ := bind_ok h
  obtain ⟨r, _, h⟩ := bind_ok h
  obtain ⟨⟨cs, r⟩, hr, h⟩ := bind_ok h
  cases h
  exact by_append (by_of_quiet (restTag_quiet hr)) (by_one (List.mem_singleton.2 rfl))

theorem errorCatcherDirective_by {x : Px} {p : Nat} {a : Act} (h : x.errorCatcherDirective p = .ok a) : a.By c!"errorCatcher" := by
  unfold Px.errorCatcherDirective at h
  obtain ⟨q, _, h⟩ := bind_ok h
  obtain ⟨⟨f, q⟩, _, h⟩ := bind_ok h
  obtain ⟨⟨cs, r⟩, hr, h⟩ := bind_ok h
  cases h
  exact by_append (by_of_quiet (restTag_quiet hr)) (by_one (List.mem_singleton.2 rfl))

theorem includeDirective_by {x : Px} {st : GenVar.Settings} {p : Nat} {a : Act} (h : x.includeDirective st p = .ok a) : a.By c!"include" := by
  unfold Px.includeDirective at h
  obtain ⟨q, _, h⟩ := bind_ok h
  obtain ⟨q, _, h⟩ := bind_ok h
  obtain ⟨⟨f, q⟩, _, h⟩ := bind_ok h
  obtain ⟨⟨e, q⟩, _, h⟩ := bind_ok h
  obtain ⟨⟨cs, r⟩, hr, h⟩ := bind_ok h
  cases h
  exact by_append (by_of_quiet (restTag_quiet hr)) (by_one (List.mem_singleton.2 rfl))

theorem rawDirective_by {x : Px} {p : Nat} {a : Act} (h : x.rawDirective p = .ok a) : a.By c!"raw" := by
  unfold Px.rawDirective at h
  obtain ⟨q, _, h⟩ := bind_ok h
  obtain ⟨col, _, h⟩ := bind_ok h
  dsimp only at h
  split at h
  · obtain ⟨r, _, h⟩ := bind_ok h
    obtain ⟨⟨s, q⟩, _, h⟩ := bind_ok h
    cases h
    exact by_one (List.mem_singleton.2 rfl)
  · obtain ⟨r, _, h⟩ := bind_ok h
    obtain ⟨⟨cs, r⟩, hr, h⟩ := bind_ok h
    obtain ⟨⟨t, ds, r⟩, ht, h⟩ := bind_ok h
    cases h
    exact by_append (by_append (by_of_quiet (restTag_quiet hr)) (by_of_quiet (toEnd_quiet ht))) (by_one (List.mem_singleton.2 rfl))

theorem attrDirective_by {x : Px} {st : GenVar.Settings} {p : Nat} {a : Act} (h : x.attrDirective st p = .ok a) : a.By c!"attr" := by
  unfold Px.attrDirective at h
  obtain ⟨q, _, h⟩ := bind_ok h
  obtain ⟨q, _, h⟩ := bind_ok h
  obtain ⟨⟨name, q⟩, _, h⟩ := bind_ok h
  obtain ⟨⟨op, q⟩, _, h⟩ := bind_ok h
  obtain ⟨⟨e, q⟩, _, h⟩ := bind_ok h
  obtain ⟨⟨cs, r⟩, hr, h⟩ := bind_ok h
  cases h
  exact by_append (by_one (d := .attr name e) (List.mem_singleton.2 rfl)) (by_of_quiet (restTag_quiet hr))

theorem extendsDirective_by {x : Px} {b : Bool} {st : GenVar.Settings} {p : Nat} {a : Act} (h : x.extendsDirective b st p = .ok a) : a.By c!"extends" := by
  unfold Px.extendsDirective at h
  obtain ⟨q, _, h⟩ := bind_ok h
  obtain ⟨⟨e, q⟩, _, h⟩ := bind_ok h
  obtain ⟨⟨cs, r⟩, hr, h⟩ := bind_ok h
  cases h
  exact by_append (by_one (d := .extends_ e) (List.mem_singleton.2 rfl)) (by_of_quiet (restTag_quiet hr))

theorem implementsDirective_by {x : Px} {st : GenVar.Settings} {p : Nat} {a : Act} (h : x.implementsDirective st p = .ok a) : a.By c!"implements" := by
  unfold Px.implementsDirective at h
  obtain ⟨q, _, h⟩ := bind_ok h
  obtain ⟨⟨name, q⟩, _, h⟩ := bind_ok h
  obtain ⟨⟨as, q⟩, _, h⟩ := bind_ok h
  obtain ⟨⟨e, q⟩, _, h⟩ := bind_ok h
  obtain ⟨⟨cs, r⟩, hr, h⟩ := bind_ok h
  cases h
  exact by_append (by_one (d := .implements_ name as) (List.mem_singleton.2 rfl)) (by_of_quiet (restTag_quiet hr))

theorem superDirective_by {x : Px} {st : GenVar.Settings} {p : Nat} {a : Act} (h : x.superDirective st p = .ok a) : a.By c!"super" := by
  unfold Px.superDirective at h
  obtain ⟨q, _, h⟩ := bind_ok h
  obtain ⟨⟨as, q⟩, _, h⟩ := bind_ok h
  obtain ⟨⟨e, q⟩, _, h⟩ := bind_ok h
  obtain ⟨⟨cs, r⟩, hr, h⟩ := bind_ok h
  cases h
  exact by_append (by_of_quiet (restTag_quiet hr)) (by_one (List.mem_singleton.2 rfl))

theorem textDirective_by {x : Px} {name : Str} {mk : Str → Cmd} (hm : ∀ s, name ∈ (mk s).tags) {p : Nat} {a : Act}
    (h : x.textDirective name mk p = .ok a) : a.By name := by
  unfold Px.textDirective at h
  obtain ⟨q, _, h⟩ := bind_ok h
  obtain ⟨⟨s, q⟩, _, h⟩ := bind_ok h
  cases h
  exact by_one (hm _)

theorem ite_ok {α : Type} {P c : Prop} [Decidable c] {r s : Except Err α} {a : α} (h : (if c then r else s) = .ok a) (h1 : c → r = .ok a → P)
    (h2 : s = .ok a → P) : P := by
  split at h
  · exact h1 (by assumption) h
  · exact h2 h

theorem directive_by {x : Px} {h : Env} {st : GenVar.Settings} {name : Str} {p : Nat} {a : Act} (ha : x.directive h st name p = .ok a) : a.By name := by
  unfold Px.directive at ha
  refine ite_ok ha (fun _ ha => simpleIndenting_by ha) fun ha => ?_
  refine ite_ok ha (fun _ ha => simpleExpr_by ha) fun ha => ?_
  refine ite_ok ha (fun e ha => e ▸ ifDirective_by ha) fun ha => ?_
  refine ite_ok ha (fun e ha => e ▸ endDirective_by ha) fun ha => ?_
  refine ite_ok ha (fun e ha => e ▸ setDirective_by ha) fun ha => ?_
  refine ite_ok ha (fun e ha => e ▸ definition_by (kind := .def_) ha) fun ha => ?_
  refine ite_ok ha (fun e ha => e ▸ definition_by (kind := .block) ha) fun ha => ?_
  refine ite_ok ha (fun e ha => e ▸ definition_by (kind := .closure) ha) fun ha => ?_
  refine ite_ok ha (fun e ha => e ▸ decorator_by ha) fun ha => ?_
  refine ite_ok ha (fun e ha => e ▸ callDirective_by ha) fun ha => ?_
  refine ite_ok ha (fun e ha => e ▸ argDirective_by ha) fun ha => ?_
  refine ite_ok ha (fun e ha => e ▸ captureDirective_by ha) fun ha => ?_
  refine ite_ok ha (fun e ha => e ▸ cacheDirective_by ha) fun ha => ?_
  refine ite_ok ha (fun e ha => e ▸ filterDirective_by ha) fun ha => ?_
  refine ite_ok ha (fun e ha => e ▸ transformDirective_by ha) fun ha => ?_
  refine ite_ok ha (fun e ha => e ▸ errorCatcherDirective_by ha) fun ha => ?_
  refine ite_ok ha (fun e ha => e ▸ includeDirective_by ha) fun ha => ?_
  refine ite_ok ha (fun e ha => e ▸ rawDirective_by ha) fun ha => ?_
  refine ite_ok ha (fun e ha => ?_) fun ha => ?_
  · cases hs : x.slurp p with
    | error e => rw [hs] at ha; cases ha
    | ok r =>
      rw [hs] at ha
      cases ha
      exact by_of_quiet (slurp_quiet hs)
  refine ite_ok ha (fun e ha => e ▸ attrDirective_by ha) fun ha => ?_
  refine ite_ok ha (fun e ha => e ▸ extendsDirective_by ha) fun ha => ?_
  refine ite_ok ha (fun e ha => e ▸ implementsDirective_by ha) fun ha => ?_
  refine ite_ok ha (fun e ha => e ▸ superDirective_by ha) fun ha => ?_
  refine ite_ok ha (fun e ha => textDirective_by (fun _ => e ▸ List.mem_singleton.2 rfl) ha) fun ha => ?_
  refine ite_ok ha (fun e ha => textDirective_by (fun _ => e ▸ List.mem_singleton.2 rfl) ha) fun ha => ?_
  refine ite_ok ha (fun e ha => ?_) fun ha => ?_
  · cases ha; trivial
  · cases ha

/-! ### The loop -/

/-- A command is text, or comes from a directive that is not forbidden. -/
def Env.Permits (h : Env) (c : Cmd) : Prop := c.tags = [] ∨ ∃ n ∈ c.tags, h.disabled n = false

theorem Cmd.By.permits {h : Env} {name : Str} (hn : h.disabled name = false) {c : Cmd} (hc : c.By name) : h.Permits c := by
  rcases hc with hc | hc
  · exact Or.inl hc
  · exact Or.inr ⟨name, hc, hn⟩

theorem permits_append {h : Env} {cs ds : List Cmd} (h1 : ∀ c ∈ cs, h.Permits c) (h2 : ∀ c ∈ ds, h.Permits c) : ∀ c ∈ cs ++ ds, h.Permits c := by
  intro c hc
  rcases List.mem_append.1 hc with hc | hc
  · exact h1 c hc
  · exact h2 c hc

theorem permits_by {h : Env} {name : Str} (hn : h.disabled name = false) {cs : List Cmd} (h1 : ∀ c ∈ cs, c.By name) : ∀ c ∈ cs, h.Permits c :=
  fun c hc => (h1 c hc).permits hn

theorem simple_permits {x : Px} {h : Env} {st : GenVar.Settings} {p : Nat} {t : Option Tag} {cs : List Cmd} {q : Nat}
    (hs : x.simple h st p t = .ok (cs, q)) : ∀ c ∈ cs, h.Permits c := by
  unfold Px.simple at hs
  split at hs
  · exact fun c hc => Or.inl (eatComment_quiet hs c hc).tags
  · exact fun c hc => Or.inl (eatMlComment_quiet hs c hc).tags
  · split at hs
    · cases hs
    · rename_i hd
      unfold Cx.eatPsp at hs
      split at hs
      · cases hs
      · obtain ⟨a, _, hs⟩ := bind_ok hs
        dsimp only at hs
        split at hs
        · cases hs
        · obtain ⟨b, _, hs⟩ := bind_ok hs
          cases hs
          intro c hc
          simp at hc
          subst hc
          exact Or.inr ⟨_, List.mem_singleton.2 rfl, by simpa using hd⟩
  · exact fun c hc => Or.inl (slurp_quiet hs c hc).tags
  · cases hp : x.eatPlainText p with
    | error e => rw [hp] at hs; cases hs
    | ok r => rw [hp] at hs; cases hs; simp [Env.Permits, Cmd.tags]
  · cases hp : x.placeholder st p with
    | error e => rw [hp] at hs; cases hs
    | ok r => rw [hp] at hs; cases hs; simp [Env.Permits, Cmd.tags]

theorem marker_permits (h : Env) (kind : DefKind) (name : Str) : ∀ c ∈ h.marker kind name, h.Permits c := by
  unfold Env.marker
  split <;> simp [Env.Permits, Cmd.tags]

theorem start_permits {h : Env} {kind : DefKind} {b : Bool} (hk : h.disabled kind.name = false) (name : Str) (as : List (Str × Option Str)) :
    (asMethod kind b = true → h.Permits (.startMethod name as)) ∧ (¬ asMethod kind b = true → h.Permits (.addClosure name as)) := by
  refine ⟨fun hm => Or.inr ⟨kind.name, ?_, hk⟩, fun hm => Or.inr ⟨kind.name, ?_, hk⟩⟩ <;>
    cases kind <;> simp_all [asMethod, Cmd.tags, DefKind.name]

theorem openDef_permits {h : Env} {s : PS} {kind : DefKind} (hk : h.disabled kind.name = false) {name : Str} {as : List (Str × Option Str)}
    {cs : List Cmd} {p : Nat} (h1 : ∀ c ∈ s.cmds, h.Permits c) (h2 : ∀ c ∈ cs, h.Permits c) :
    ∀ c ∈ (h.openDef s kind name as cs p).cmds, h.Permits c := by
  unfold Env.openDef
  dsimp only
  split
  · rename_i hm
    refine permits_append h1 (permits_append h2 ?_)
    intro c hc
    rcases List.mem_cons.1 hc with rfl | hc
    · exact (start_permits hk name as).1 hm
    · exact marker_permits h kind name c hc
  · rename_i hm
    refine permits_append h1 (permits_append h2 ?_)
    intro c hc
    simp at hc
    subst hc
    exact (start_permits hk name as).2 hm

theorem startLine_permits {h : Env} {s : PS} {kind : DefKind} (hk : h.disabled kind.name = false) {name : Str} {as : List (Str × Option Str)}
    {p bp : Nat} (h1 : ∀ c ∈ s.cmds, h.Permits c) : ∀ c ∈ (h.startLine s kind name as p bp).cmds, h.Permits c := by
  unfold Env.startLine
  split
  · rename_i hm
    refine permits_append h1 ?_
    intro c hc
    simp at hc
    subst hc
    exact (start_permits hk name as).1 hm
  · rename_i hm
    refine permits_append h1 ?_
    intro c hc
    simp at hc
    subst hc
    exact (start_permits hk name as).2 hm

theorem endLine_permits (h : Env) (kind : DefKind) (name : Str) (b : Bool) : ∀ c ∈ h.endLine kind name b, h.Permits c := by
  unfold Env.endLine
  split
  · split <;> simp [Env.Permits, Cmd.tags]
  · exact permits_append (marker_permits h _ name) (by simp [Env.Permits, Cmd.tags])
  · simp [Env.Permits, Cmd.tags]

theorem endBlock_permits {h : Env} {s t : PS} {name : Str} (h1 : ∀ c ∈ s.cmds, h.Permits c) (ht : h.endBlock s name = .ok t) :
    ∀ c ∈ t.cmds, h.Permits c := by
  have key : ∀ (u : PS) (ds : List Cmd), u.cmds = s.cmds ++ ds → (∀ c ∈ ds, c.tags = []) → ∀ c ∈ u.cmds, h.Permits c := by
    intro u ds hu hd
    rw [hu]
    exact permits_append h1 (fun c hc => Or.inl (hd c hc))
  unfold Env.endBlock at ht
  dsimp only at ht
  repeat' split at ht
  all_goals first
    | (cases ht; exact key _ _ rfl (by simp [Cmd.tags]))
    | cases ht

theorem run_permits (h : Env) (n : Nat) :
    (∀ s t, h.loop n s = .ok t → (∀ c ∈ s.cmds, h.Permits c) → ∀ c ∈ t.cmds, h.Permits c) ∧
    (∀ s t, h.eatDirective n s = .ok t → (∀ c ∈ s.cmds, h.Permits c) → ∀ c ∈ t.cmds, h.Permits c) ∧
    (∀ s a name t, a.By name → h.disabled name = false → h.perform n s a = .ok t → (∀ c ∈ s.cmds, h.Permits c) → ∀ c ∈ t.cmds, h.Permits c) := by
  induction n with
  | zero =>
    refine ⟨fun s t ht => ?_, fun s t ht => ?_, fun s a name t _ _ ht => ?_⟩
    · unfold Env.loop at ht; cases ht
    · unfold Env.eatDirective at ht; cases ht
    · unfold Env.perform at ht; cases ht
  | succ n ih =>
    obtain ⟨ih1, ih2, ih3⟩ := ih
    refine ⟨fun s t ht hs => ?_, fun s t ht hs => ?_, fun s a name t ha hn ht hs => ?_⟩
    · unfold Env.loop at ht
      split at ht
      · cases ht; exact hs
      · obtain ⟨tag, _, ht⟩ := bind_ok ht
        split at ht
        · obtain ⟨u, hu, ht⟩ := bind_ok ht
          exact ih1 _ _ ht (ih2 _ _ hu hs)
        · obtain ⟨⟨cs, q⟩, hc, ht⟩ := bind_ok ht
          exact ih1 _ _ ht (permits_append hs (simple_permits hc))
    · unfold Env.eatDirective at ht
      split at ht
      · cases ht
      · cases ht
      · split at ht
        · cases ht
        · rename_i name _ hd
          obtain ⟨a, ha, ht⟩ := bind_ok ht
          exact ih3 _ _ _ _ (directive_by ha) (by simpa using hd) ht hs
    · unfold Env.perform at ht
      split at ht
      · cases ht
        exact permits_append hs (permits_by hn ha)
      · cases ht
        exact permits_append hs (permits_by hn ha)
      · obtain ⟨u, hu, ht⟩ := bind_ok ht
        exact endBlock_permits (permits_append hs (permits_by hn ha)) ht
      · cases ht; exact hs
      · obtain ⟨u, hu, ht⟩ := bind_ok ht
        cases ht
        exact permits_append (ih1 _ _ hu (permits_append hs (permits_by hn ha.1))) (permits_by hn ha.2)
      · cases ht
        exact openDef_permits (ha.1 ▸ hn) hs (permits_by hn ha.2)
      · obtain ⟨u, hu, ht⟩ := bind_ok ht
        obtain ⟨v, hv, ht⟩ := bind_ok ht
        obtain ⟨⟨cs, q⟩, hr, ht⟩ := bind_ok ht
        cases ht
        have hu' := ih1 _ _ hu (startLine_permits (ha ▸ hn) hs)
        have hv' : v.cmds = u.cmds := by
          unfold restoreLine at hv
          split at hv
          · split at hv
            · cases hv
            · cases hv; rfl
          · cases hv; rfl
        refine permits_append (permits_append (hv' ▸ hu') (endLine_permits h _ _ _)) (fun c hc => Or.inl (restTag_quiet hr c hc).tags)
      · exact ih2 _ _ ht (permits_append hs (permits_by hn ha))

/-- C79. Whatever is accepted contains only what is permitted: a command given to the compiler that needs a directive comes from one
that is not forbidden, for every source, every setting and every set of forbidden directives. -/
theorem C79_forbidden_is_absent (h : Env) (st : GenVar.Settings) (cs : List Cmd) (hp : h.parse st = .ok cs) (c : Cmd) (hc : c ∈ cs) (ht : c.tags ≠ []) :
    ∃ n ∈ c.tags, h.disabled n = false := by
  unfold Env.parse at hp
  obtain ⟨s, hs, hp⟩ := bind_ok hp
  split at hp
  · cases hp
    rcases (run_permits h _).1 _ _ hs (by simp) c hc with h' | h'
    · exact absurd h' ht
    · exact h'
  · cases hp


/-! ### Forbidding only rejects -/

/-- The restricted parser gives the same, or refuses a forbidden directive. -/
def Env.Or (h : Env) {α : Type} (r u : Except Err α) : Prop :=
  r = u ∨ ∃ p name, r = .error (.parse p .other) ∧ h.At p name ∧ h.disabled name = true

theorem Env.Or.bind {h : Env} {α β : Type} {r u : Except Err α} {f g : α → Except Err β} (h1 : h.Or r u) (h2 : ∀ a, u = .ok a → h.Or (f a) (g a)) :
    h.Or (r >>= f) (u >>= g) := by
  rcases h1 with rfl | ⟨p, name, rfl, h3⟩
  · cases r with
    | error e => exact Or.inl rfl
    | ok a => exact h2 a rfl
  · exact Or.inr ⟨p, name, rfl, h3⟩

theorem simple_free (h : Env) (bp : Nat) (st : GenVar.Settings) (p : Nat) (t : Option Tag) (ht : (h.px bp).tagAt p = .ok t) :
    h.Or ((h.px bp).simple h st p t) ((h.px bp).simple h.free st p t) := by
  unfold Px.simple
  split
  · exact Or.inl rfl
  · exact Or.inl rfl
  · by_cases hd : h.disabled c!"psp" = true
    · right
      refine ⟨p, c!"psp", ?_, ⟨bp, Or.inr ⟨rfl, ht⟩⟩, hd⟩
      rw [if_pos hd]
    · left
      rw [if_neg hd]
      rfl
  · exact Or.inl rfl
  · exact Or.inl rfl
  · exact Or.inl rfl

theorem run_free (h : Env) (n : Nat) :
    (∀ s, h.Or (h.loop n s) (h.free.loop n s)) ∧ (∀ s, h.Or (h.eatDirective n s) (h.free.eatDirective n s)) ∧
    (∀ s a, h.Or (h.perform n s a) (h.free.perform n s a)) := by
  induction n with
  | zero =>
    refine ⟨fun s => Or.inl ?_, fun s => Or.inl ?_, fun s a => Or.inl ?_⟩
    · unfold Env.loop; rfl
    · unfold Env.eatDirective; rfl
    · unfold Env.perform; rfl
  | succ n ih =>
    obtain ⟨ih1, ih2, ih3⟩ := ih
    refine ⟨fun s => ?_, fun s => ?_, fun s a => ?_⟩
    · unfold Env.loop
      split
      · exact Or.inl rfl
      · refine Env.Or.bind (Or.inl rfl) fun t ht => ?_
        have ht : (h.px s.bp).tagAt s.pos = .ok t := ht
        dsimp only
        split
        · exact Env.Or.bind (ih2 s) fun u _ => ih1 u
        · exact Env.Or.bind (simple_free h s.bp s.st s.pos t ht) fun u _ => ih1 _
    · unfold Env.eatDirective
      have e : h.free.px s.bp = h.px s.bp := rfl
      rw [e]
      cases hm : (h.px s.bp).matchDirective s.pos with
      | error e => exact Or.inl rfl
      | ok d =>
        cases d with
        | none => exact Or.inl rfl
        | some name =>
          dsimp only
          by_cases hd : h.disabled name = true
          · right
            rw [if_pos hd]
            exact ⟨s.pos, name, rfl, ⟨s.bp, Or.inl hm⟩, hd⟩
          · rw [if_neg hd, if_neg (show ¬ (h.free.disabled name = true) from fun h => by cases h)]
            exact Env.Or.bind (Or.inl rfl) fun a _ => ih3 s a
    · unfold Env.perform
      cases a with
      | go cs p => exact Or.inl rfl
      | opened name cs p => exact Or.inl rfl
      | closed name cs p => exact Or.inl rfl
      | stop => exact Or.inl rfl
      | line b p bp a => exact Env.Or.bind (ih1 _) fun u _ => Or.inl rfl
      | defOpen kind name as cs p => exact Or.inl rfl
      | defLine kind name as p bp cl e => exact Env.Or.bind (ih1 _) fun u _ => Or.inl rfl
      | decorated cs p => exact ih2 _

/-- C79. Forbidding directives does nothing but refuse: the result is the one without restrictions, or a ParseError at a place
where a forbidden directive stands. In particular a source without forbidden directives is parsed as ever. -/
theorem C79_only_refuses (h : Env) (st : GenVar.Settings) :
    h.parse st = h.free.parse st ∨ ∃ p name, h.parse st = .error (.parse p .other) ∧ h.At p name ∧ h.disabled name = true := by
  unfold Env.parse
  exact Env.Or.bind ((run_free h _).1 _) fun s _ => Or.inl rfl

/-- C79. With the two settings: what is accepted needs no directive of `disabledDirectives`, and only those of `enabledDirectives`
if there are any, where names are compared in lower case. -/
theorem C79_settings (h : Env) (disabled enabled : List Str) (st : GenVar.Settings) (cs : List Cmd)
    (hp : (h.restrict disabled enabled).parse st = .ok cs) :
    h.free.parse st = .ok cs ∧
    ∀ c ∈ cs, c.tags ≠ [] → ∃ n ∈ c.tags, n.map Char.toLower ∉ disabled ∧ (enabled = [] ∨ n.map Char.toLower ∈ enabled) := by
  constructor
  · rcases C79_only_refuses (h.restrict disabled enabled) st with h' | ⟨p, n, h', _⟩
    · rw [hp] at h'
      exact h'.symm
    · rw [hp] at h'; cases h'
  · intro c hc ht
    obtain ⟨n, hn, hd⟩ := C79_forbidden_is_absent _ _ _ hp c hc ht
    refine ⟨n, hn, ?_⟩
    have hd : forbidden disabled enabled n = false := hd
    unfold forbidden Driver.CC.lower at hd
    simp only [Bool.or_eq_false_iff, Bool.and_eq_false_iff, Bool.not_eq_false', List.contains_eq_mem, decide_eq_false_iff_not, decide_eq_true_eq] at hd
    exact ⟨hd.1, hd.2.imp (by simp) id⟩

/-- A template that includes a file is refused if `#include` is disabled; without it all is as before. -/
example : ((demoEnv c!"a$x\n#include 'b'\n").restrict [c!"include", c!"psp"] []).parse demoSt = .error (.parse 4 .other) ∧
    ((demoEnv c!"a$x\n#if $y\nb\n#end if\n").restrict [c!"include", c!"psp"] []).parse demoSt =
      (demoEnv c!"a$x\n#if $y\nb\n#end if\n").parse demoSt ∧
    ((demoEnv c!"a$x\n#if $y\nb\n#end if\n").parse demoSt).isOk = true ∧
    ((demoEnv c!"a<% x %>").restrict [] [c!"if", c!"end"]).parse demoSt = .error (.parse 1 .other) := by
  decide +kernel

/-- C79, a violation. The names are put in lower case but the settings are not: `disabledDirectives = ['errorCatcher']` does not disable
`#errorCatcher`, and `enabledDirectives = ['errorCatcher']` forbids it. The same holds for `shBang`. -/
theorem C79_capital_letters_counterexample :
    ((demoEnv c!"#errorCatcher Echo\n").restrict [c!"errorCatcher"] []).parse demoSt = .ok [.handleWS, .errorCatcher c!"Echo"] ∧
    ((demoEnv c!"#errorCatcher Echo\n").restrict [] [c!"errorCatcher"]).parse demoSt = .error (.parse 0 .other) ∧
    ((demoEnv c!"#shBang #!/bin/sh\n").restrict [c!"shBang"] []).parse demoSt = .ok [.shBang c!"#!/bin/sh"] := by
  decide +kernel

/-- Is this line in a generated method? -/
def hasLine (h : Env) (l : Nat × Str) : Bool :=
  match h.parse demoSt with
  | .error _ => false
  | .ok cs =>
    match Driver.CC.compile Driver.demoCf cs with
    | .ok c => c.finished.any fun m => m.chunks.contains l
    | .error _ => false

/-- C79, what is not promised. Forbidding a directive forbids the tag, not what it does: with `elif` disabled `#else if` gives the
same Python line; with `import` disabled `#silent 1; import os` imports; with `slurp` disabled a `#` at the end of a line still
joins it to the next. -/
theorem C79_other_ways_counterexample :
    hasLine ((demoEnv c!"#if 1\nx\n#else if 2\ny\n#end if\n").restrict [c!"elif"] []) (2, c!"elif 2:") = true ∧
    hasLine ((demoEnv c!"#silent 1; import os\n").restrict [c!"import", c!"from"] []) (2, c!"1; import os") = true ∧
    ((demoEnv c!"a#\nb").restrict [c!"slurp"] []).parse demoSt = (demoEnv c!"a#slurp\nb").parse demoSt ∧
    ((demoEnv c!"a#\nb").restrict [c!"slurp"] []).parse demoSt = .ok [.strConst c!"a", .commit, .strConst c!"b"] := by
  decide +kernel

end Cheetah.Parser
