import Verif.Props.Exec
/-
Properties C25, C27, C28 and C29: what a call of the generated method returns, compared with the
direct meaning of the template (Verif/Props/ExecSpec.lean).
-/
namespace Cheetah.Compile
variable {L : Lang}

/-! ### Spec: control flow that leaves regions -/

def Tail.hasFinally : Tail L → Bool
  | .nil => false
  | .cons .finally_ _ _ => true
  | .cons _ _ t => t.hasFinally

mutual
/-- Restrictions on control flow. `b`: a `#break` or `#continue` may lead out of the template part;
`r`: so may `#stop`; `x`: there may be regions that an exception leaves.  Required: no
`#break`, `#continue` or `#stop` leads out of a region (`#stop` may lead out of `#filter`), and no
region stands where a `#try` could catch an exception on its way out of the region. -/
def T.within (b r x : Bool) : T L → Bool
  | .seq a c => a.within b r x && c.within b r x
  | .break_ => b
  | .continue_ => b
  | .stop => r
  | .compound _ o body tail =>
    match o with
    | .if_ _ => body.within b r x && tail.within b r x
    | .unless _ => body.within b r x && tail.within b r x
    | .while_ _ => body.within true r x && tail.within b r x
    | .for_ _ _ => body.within true r x && tail.within b r x
    | .repeat_ _ => body.within true r x && tail.within b r x
    | .try_ => body.within b r false && tail.within b r (x && !tail.hasFinally)
  | .capture _ _ body => x && body.within false false true
  | .call _ _ body => x && body.within false false true
  | .callKw _ _ pre _ body more => x && pre.within false false true && body.within false false true && more.within
  | .filter _ _ body => x && body.within false r true
  | .cache _ _ body => x && body.within false false true
  | .skip => true
  | .text _ => true
  | .place _ _ => true
  | .ternary _ _ _ => true
  | .stmt _ => true
  | .note => true
def Tail.within (b r x : Bool) : Tail L → Bool
  | .nil => true
  | .cons _ body t => body.within b r x && t.within b r x
def Args.within : Args L → Bool
  | .nil => true
  | .cons _ body more => body.within false false true && more.within
end

/-- Outcomes that the restrictions allow. -/
def allow {X : Type} (b r x : Bool) : Out (Abort X) → Prop
  | .ok => True
  | .brk => b = true
  | .cont => b = true
  | .ret => r = true
  | .exc (.raised _ false) => True
  | .exc (.raised _ true) => x = true
  | .exc .leak => False

/-- What a part does with the filter in force: nothing, as far as later code can tell. -/
def keeps (r : Bool) (d : D L) : Out (Abort L.X) → D L → Prop
  | .exc (.raised _ true), _ => True
  | _, d' => r = true ∨ d'.filter = d.filter

def Good (b r x : Bool) (d0 : D L) (R : Res L) : Prop :=
  ∀ o d, R = some (o, d) → allow b r x o ∧ keeps r d0 o d

theorem Good.gnone {b r x : Bool} {d0 : D L} : Good b r x d0 none := fun _ _ h => by simp at h

theorem Good.gsome {b r x : Bool} {d0 d : D L} {o : Out (Abort L.X)} (h : allow b r x o) (hk : keeps r d0 o d) :
    Good b r x d0 (some (o, d)) := fun _ _ e => by
  simp only [Option.some.injEq, Prod.mk.injEq] at e; rw [← e.1, ← e.2]; exact ⟨h, hk⟩

theorem Good.ok {b r x : Bool} {d0 d : D L} (h : d.filter = d0.filter) : Good b r x d0 (Option.some (.ok, d)) :=
  Good.gsome trivial (Or.inr h)

theorem Good.raised {b r x : Bool} {d0 d : D L} {e : L.X} (h : d.filter = d0.filter) :
    Good b r x d0 (Option.some (.exc (.raised e false), d)) :=
  Good.gsome trivial (Or.inr h)

theorem keeps_of {r : Bool} {d0 d1 d2 : D L} {o : Out (Abort L.X)} (h1 : r = true ∨ d1.filter = d0.filter) (h : keeps r d1 o d2) : keeps r d0 o d2 := by
  unfold keeps at *
  split
  · trivial
  · rename_i hne
    split at h
    · exact absurd rfl (hne _)
    · rcases h1 with h1 | h1
      · exact Or.inl h1
      · rcases h with h | h
        · exact Or.inl h
        · exact Or.inr (h.trans h1)

theorem Good.from {b r x : Bool} {d0 d1 : D L} {R : Res L} (h1 : r = true ∨ d1.filter = d0.filter) (h : Good b r x d1 R) : Good b r x d0 R :=
  fun o d e => ⟨(h o d e).1, keeps_of h1 (h o d e).2⟩

theorem keeps_clean {r : Bool} {d0 d : D L} {o : Out (Abort L.X)} (h : keeps r d0 o d) (ho : ∀ e, o ≠ .exc (.raised e true)) :
    r = true ∨ d.filter = d0.filter := by
  unfold keeps at h
  split at h
  · exact absurd rfl (ho _)
  · exact h

theorem Good.andThen {b r x : Bool} {d0 : D L} {R : Res L} {g : D L → Res L} (h : Good b r x d0 R)
    (hg : ∀ d, Good b r x d (g d)) : Good b r x d0 (andThen R g) := by
  match R, h with
  | none, _ => exact Good.gnone
  | some (.ok, d), h => exact (hg d).from (keeps_clean (h _ _ rfl).2 (by simp))
  | some (.brk, _), h => exact h
  | some (.cont, _), h => exact h
  | some (.ret, _), h => exact h
  | some (.exc _, _), h => exact h

theorem Good.bindD {b r x : Bool} {α : Type} (f : L.σ → Except L.X α × L.σ) (d : D L) {k : α → D L → Res L}
    (hk : ∀ a e, Good b r x { d with env := e } (k a { d with env := e })) : Good b r x d (bindD (d.lift f) k) := by
  simp only [D.lift, Compile.bindD]
  cases (f d.env).1 with
  | ok a => exact (hk a _).from (Or.inr rfl)
  | error e => exact Good.raised rfl

theorem good_showV {b r x : Bool} (st : Settings) (v : L.V) (d : D L) : Good b r x d (showV st v d) := by
  unfold showV
  split
  · exact Good.ok rfl
  · split
    · exact Good.bindD _ d (fun t e => Good.ok rfl)
    · exact Good.bindD _ d (fun t e => Good.ok rfl)

theorem good_showE {b r x : Bool} (st : Settings) (ev : L.σ → Except L.X L.V × L.σ) (d : D L) : Good b r x d (showE st ev d) :=
  Good.bindD _ d (fun v e => good_showV st v _)

theorem Good.weaken {b r x b' r' x' : Bool} {d0 : D L} {R : Res L} (h : Good b r x d0 R) (hb : b = true → b' = true)
    (hr : r = true → r' = true) (hx : x = true → x' = true) : Good b' r' x' d0 R := by
  intro o d e
  obtain ⟨h1, h2⟩ := h o d e
  refine ⟨?_, ?_⟩
  · unfold allow at h1 ⊢
    split <;> simp_all
  · unfold keeps at h2 ⊢
    split <;> simp_all
    rcases h2 with h2 | h2
    · exact Or.inl (hr h2)
    · exact Or.inr h2

theorem testD_env (c : L.E) (d : D L) :
    (∃ v e, testD c d = (.ok v, { d with env := e })) ∨ (∃ x e, testD c d = (.error (.raised x false), { d with env := e })) := by
  unfold testD
  simp only [D.lift]
  cases (L.eval c d.env).1 with
  | ok v => left; exact ⟨_, _, rfl⟩
  | error x => right; exact ⟨_, _, rfl⟩

theorem good_while {b r x : Bool} (c : L.E) {g : D L → Res L} (hg : ∀ d, Good true r x d (g d)) : ∀ (n : Nat) (d : D L),
    Good true r x d (whileLoop (testD c) g n d) ∧ ∀ d', whileLoop (testD c) g n d ≠ some (.cont, d')
  | 0, d => ⟨Good.gnone, by simp [whileLoop]⟩
  | n + 1, d => by
    simp only [whileLoop]
    rcases testD_env c d with ⟨v, e, h⟩ | ⟨y, e, h⟩
    · rw [h]
      cases v with
      | false => exact ⟨Good.ok rfl, by simp⟩
      | true =>
        simp only
        have hg' := hg { d with env := e }
        match hR : g { d with env := e }, hg' with
        | none, _ => exact ⟨Good.gnone, by simp⟩
        | some (.ok, d'), hg' =>
          obtain ⟨i1, i2⟩ := good_while (b := b) c hg n d'
          exact ⟨i1.from (by have := keeps_clean (hg' _ _ rfl).2 (by simp); exact this), i2⟩
        | some (.cont, d'), hg' =>
          obtain ⟨i1, i2⟩ := good_while (b := b) c hg n d'
          exact ⟨i1.from (by have := keeps_clean (hg' _ _ rfl).2 (by simp); exact this), i2⟩
        | some (.brk, d'), hg' => exact ⟨hg'.from (Or.inr rfl), by simp⟩
        | some (.ret, d'), hg' => exact ⟨hg'.from (Or.inr rfl), by simp⟩
        | some (.exc _, d'), hg' => exact ⟨hg'.from (Or.inr rfl), by simp⟩
    · rw [h]; exact ⟨Good.raised rfl, by simp⟩

theorem good_for {r x : Bool} {a : L.V → D L → Except (Abort L.X) Unit × D L}
    (ha : ∀ v d, (∃ e, a v d = (.ok (), { d with env := e })) ∨ ∃ y e, a v d = (.error (.raised y false), { d with env := e }))
    {g : D L → Res L} (hg : ∀ d, Good true r x d (g d)) : ∀ (vs : List L.V) (d : D L),
    Good true r x d (forLoop a g vs d) ∧ ∀ d', forLoop a g vs d ≠ some (.cont, d')
  | [], d => ⟨Good.ok rfl, by simp [forLoop]⟩
  | v :: vs, d => by
    simp only [forLoop]
    rcases ha v d with ⟨e, h⟩ | ⟨y, e, h⟩
    · rw [h]
      simp only
      have hg' := hg { d with env := e }
      match hR : g { d with env := e }, hg' with
      | none, _ => exact ⟨Good.gnone, by simp⟩
      | some (.ok, d'), hg' =>
        obtain ⟨i1, i2⟩ := good_for ha hg vs d'
        exact ⟨i1.from (by have := keeps_clean (hg' _ _ rfl).2 (by simp); exact this), i2⟩
      | some (.cont, d'), hg' =>
        obtain ⟨i1, i2⟩ := good_for ha hg vs d'
        exact ⟨i1.from (by have := keeps_clean (hg' _ _ rfl).2 (by simp); exact this), i2⟩
      | some (.brk, d'), hg' => exact ⟨hg'.from (Or.inr rfl), by simp⟩
      | some (.ret, d'), hg' => exact ⟨hg'.from (Or.inr rfl), by simp⟩
      | some (.exc _, d'), hg' => exact ⟨hg'.from (Or.inr rfl), by simp⟩
    · rw [h]; exact ⟨Good.raised rfl, by simp⟩

theorem good_afterLoop {b r x : Bool} {d0 : D L} {R : Res L} (h : Good true r x d0 R ∧ ∀ d', R ≠ some (.cont, d')) {g : D L → Res L}
    (hg : ∀ d, Good b r x d (g d)) : Good b r x d0 (afterLoop R g) := by
  obtain ⟨h, hc⟩ := h
  match R, h with
  | none, _ => exact Good.gnone
  | some (.ok, d), h => exact (hg d).from (keeps_clean (h _ _ rfl).2 (by simp))
  | some (.brk, d), h => exact Good.gsome trivial (h _ _ rfl).2
  | some (.cont, d), h => exact absurd rfl (hc d)
  | some (.ret, d), h => exact Good.gsome (h _ _ rfl).1 (h _ _ rfl).2
  | some (.exc e, d), h =>
    refine Good.gsome ?_ (h _ _ rfl).2
    have := (h _ _ rfl).1
    unfold allow at *
    split <;> simp_all

/-- After a region: the outcomes that lead out of it are exceptions, now dirty. -/
theorem Good.bodyThen {b r x : Bool} {d0 d1 : D L} {R : Res L} {k : D L → Res L} (h : Good false false true d1 R)
    (hk : ∀ d, d.filter = d1.filter → Good b r x d0 (k d)) (hx : x = true) : Good b r x d0 (bodyThen R k) := by
  match R, h with
  | none, _ => exact Good.gnone
  | some (.ok, d), h =>
    have := keeps_clean (h _ _ rfl).2 (by simp)
    exact hk d (by simpa using this)
  | some (.brk, d), h => exact absurd (h _ _ rfl).1 (by simp [allow])
  | some (.cont, d), h => exact absurd (h _ _ rfl).1 (by simp [allow])
  | some (.ret, d), h => exact absurd (h _ _ rfl).1 (by simp [allow])
  | some (.exc (.raised e y), d), h => exact Good.gsome hx trivial
  | some (.exc .leak, d), h => exact absurd (h _ _ rfl).1 (by simp [allow])

theorem runFinally_none (st : Settings) (fuel : Nat) : ∀ (t : Tail L), runFinally st fuel t none = none
  | .nil => by simp [runFinally]
  | .cons k b t => by cases k <;> simp [runFinally, runFinally_none st fuel t]

mutual
theorem good_run (st : Settings) (fuel : Nat) : ∀ (t : T L) (b r x : Bool), t.within b r x = true → ∀ d : D L, Good b r x d (run st fuel t d)
  | .skip, _, _, _, _, d => by simp only [run]; exact Good.ok rfl
  | .seq a c, b, r, x, h, d => by
    simp only [T.within, Bool.and_eq_true] at h
    simp only [run]
    exact (good_run st fuel a b r x h.1 d).andThen (good_run st fuel c b r x h.2)
  | .text t, _, _, _, _, d => by simp only [run]; exact Good.ok rfl
  | .place e silent, b, r, x, _, d => by
    simp only [run]
    have hs : Good b r x d (showE st (L.eval e) d) := good_showE st (L.eval e) d
    have h0 : Good b r false d (showE st (L.eval e) d) := good_showE st (L.eval e) d
    generalize showE st (L.eval e) d = R at hs h0
    match R, hs, h0 with
    | none, hs, _ => exact hs
    | some (.ok, _), hs, _ => exact hs
    | some (.brk, _), hs, _ => exact hs
    | some (.cont, _), hs, _ => exact hs
    | some (.ret, _), hs, _ => exact hs
    | some (.exc .leak, _), hs, _ => exact hs
    | some (.exc (.raised y true), d'), hs, h0 => exact absurd (h0 _ _ rfl).1 (by simp [allow])
    | some (.exc (.raised y false), d'), hs, h0 =>
      simp only
      split
      · exact Good.gsome trivial (h0 _ _ rfl).2
      · exact hs
  | .ternary c u v, b, r, x, _, d => by
    simp only [run]
    rcases testD_env c d with ⟨w, e, h⟩ | ⟨y, e, h⟩
    · rw [h]
      cases w
      · exact (good_showE st _ _).from (Or.inr rfl)
      · exact (good_showE st _ _).from (Or.inr rfl)
    · rw [h]; exact Good.raised rfl
  | .note, b, r, x, _, d => Good.ok rfl
  | .stmt s, b, r, x, _, d => by
    simp only [run]
    exact (Good.bindD _ (d.emit (L.says s d.env)) (fun _ _ => Good.ok rfl)).from (Or.inr rfl)
  | .break_, b, r, x, h, d => by
    simp only [run]; exact Good.gsome (by simpa [T.within, allow] using h) (Or.inr rfl)
  | .continue_, b, r, x, h, d => by
    simp only [run]; exact Good.gsome (by simpa [T.within, allow] using h) (Or.inr rfl)
  | .stop, b, r, x, h, d => by
    simp only [run]; exact Good.gsome (by simpa [T.within, allow] using h) (Or.inr rfl)
  | .compound _ o body tail, b, r, x, h, d => by
    cases o with
    | if_ c =>
      simp only [T.within, Bool.and_eq_true] at h
      simp only [run]
      rcases testD_env c d with ⟨w, e, h'⟩ | ⟨y, e, h'⟩
      · rw [h']
        cases w
        · exact (good_else st fuel tail b r x h.2 _).from (Or.inr rfl)
        · exact (good_run st fuel body b r x h.1 _).from (Or.inr rfl)
      · rw [h']; exact Good.raised rfl
    | «unless» c =>
      simp only [T.within, Bool.and_eq_true] at h
      simp only [run]
      rcases testD_env c d with ⟨w, e, h'⟩ | ⟨y, e, h'⟩
      · rw [h']
        cases w
        · exact (good_run st fuel body b r x h.1 _).from (Or.inr rfl)
        · exact (good_else st fuel tail b r x h.2 _).from (Or.inr rfl)
      · rw [h']; exact Good.raised rfl
    | while_ c =>
      simp only [T.within, Bool.and_eq_true] at h
      simp only [run]
      exact good_afterLoop (good_while (b := b) c (good_run st fuel body true r x h.1) _ _) (good_else st fuel tail b r x h.2)
    | for_ y e =>
      simp only [T.within, Bool.and_eq_true] at h
      simp only [run]
      refine Good.bindD _ d (fun v env => ?_)
      cases L.iter v with
      | error z => exact Good.raised rfl
      | ok vs =>
        refine good_afterLoop (good_for (fun v d => ?_) (good_run st fuel body true r x h.1) _ _) (good_else st fuel tail b r x h.2)
        simp only [D.lift]
        cases (L.assign y v d.env).1 with
        | ok u => left; exact ⟨_, rfl⟩
        | error z => right; exact ⟨_, _, rfl⟩
    | repeat_ e =>
      simp only [T.within, Bool.and_eq_true] at h
      simp only [run]
      refine Good.bindD _ d (fun v env => ?_)
      cases L.range v with
      | error z => exact Good.raised rfl
      | ok vs =>
        exact good_afterLoop (good_for (fun v d => Or.inl ⟨d.env, rfl⟩) (good_run st fuel body true r x h.1) _ _) (good_else st fuel tail b r x h.2)
    | try_ =>
      simp only [T.within, Bool.and_eq_true] at h
      simp only [run]
      have hb := good_run st fuel body b r false h.1 d
      have hx : (x && !tail.hasFinally) = true → x = true := by intro h; simp only [Bool.and_eq_true] at h; exact h.1
      have hf : (x && !tail.hasFinally) = true → tail.hasFinally = false := by simp
      match run st fuel body d, hb with
      | none, _ => exact Good.gnone
      | some (.exc (.raised y false), d'), hb =>
        refine Good.weaken (good_finally st fuel tail b r _ h.2 hf d _ ?_) id id hx
        exact (good_handler st fuel y tail b r _ h.2 d').from (keeps_clean (hb _ _ rfl).2 (by simp))
      | some (.exc (.raised y true), d'), hb => exact absurd (hb _ _ rfl).1 (by simp [allow])
      | some (.exc .leak, d'), hb => exact absurd (hb _ _ rfl).1 (by simp [allow])
      | some (.ok, d'), hb =>
        refine Good.weaken (good_finally st fuel tail b r _ h.2 hf d _ ?_) id id hx
        exact (good_else st fuel tail b r _ h.2 d').from (keeps_clean (hb _ _ rfl).2 (by simp))
      | some (.brk, d'), hb =>
        exact Good.weaken (good_finally st fuel tail b r _ h.2 hf d _ (hb.weaken id id (by simp))) id id hx
      | some (.cont, d'), hb =>
        exact Good.weaken (good_finally st fuel tail b r _ h.2 hf d _ (hb.weaken id id (by simp))) id id hx
      | some (.ret, d'), hb =>
        exact Good.weaken (good_finally st fuel tail b r _ h.2 hf d _ (hb.weaken id id (by simp))) id id hx
  | .capture id t body, b, r, x, h, d => by
    simp only [T.within, Bool.and_eq_true] at h
    simp only [run, inRegion]
    refine Good.bodyThen (good_run st fuel body false false true h.2 _) (fun d' hd => ?_) h.1
    exact (Good.bindD _ _ (fun _ _ => Good.ok rfl)).from (Or.inr hd)
  | .call id f body, b, r, x, h, d => by
    simp only [T.within, Bool.and_eq_true] at h
    simp only [run, inRegion]
    refine Good.bodyThen (good_run st fuel body false false true h.2 _) (fun d' hd => ?_) h.1
    exact (good_showE st _ _).from (Or.inr hd)
  | .callKw id f pre name body more, b, r, x, h, d => by
    simp only [T.within, Bool.and_eq_true] at h
    obtain ⟨⟨⟨h1, h2⟩, h3⟩, h4⟩ := h
    simp only [run]
    refine Good.bodyThen (good_run st fuel pre false false true h2 _) (fun d' hd => ?_) h1
    refine Good.bodyThen (good_run st fuel body false false true h3 _) (fun d'' hd' => ?_) h1
    exact (good_args st fuel f name more b r x h1 h4 [] d d'').from (Or.inr (hd'.trans hd))
  | .filter id f body, b, r, x, h, d => by
    simp only [T.within, Bool.and_eq_true] at h
    simp only [run]
    have key : ∀ d', Good b r x d (leaveFilter (run st fuel body d') d) := by
      intro d'
      have hb := good_run st fuel body false r true h.2 d'
      match run st fuel body d', hb with
      | none, _ => exact Good.gnone
      | some (.ok, _), _ => exact Good.ok rfl
      | some (.brk, _), hb => exact absurd (hb _ _ rfl).1 (by simp [allow])
      | some (.cont, _), hb => exact absurd (hb _ _ rfl).1 (by simp [allow])
      | some (.ret, _), hb => exact Good.gsome (hb _ _ rfl).1 (Or.inl (hb _ _ rfl).1)
      | some (.exc .leak, _), hb => exact absurd (hb _ _ rfl).1 (by simp [allow])
      | some (.exc (.raised _ _), _), hb => exact Good.gsome h.1 trivial
    cases f with
    | none => exact key _
    | named n => exact Good.bindD _ d (fun g e => (key _).from (Or.inr rfl))
    | klass n => exact Good.bindD _ d (fun g e => (key _).from (Or.inr rfl))
  | .cache id timed body, b, r, x, h, d => by
    simp only [T.within, Bool.and_eq_true] at h
    simp only [run]
    refine Good.bindD _ d (fun shown e => ?_)
    cases shown with
    | some text => exact Good.ok rfl
    | none =>
      have key : ∀ d' : D L, d'.filter = d.filter → Good b r x { d with env := e } (inRegion (run st fuel body { d' with out := [] }) d' fun text d =>
            Compile.bindD (d.lift (L.cacheStore id text)) fun _ d => some (.ok, d.emit text)) := by
        intro d' hd'
        refine Good.bodyThen (good_run st fuel body false false true h.2 _) (fun d'' hd => ?_) h.1
        exact (Good.bindD _ _ (fun _ _ => Good.ok rfl)).from (Or.inr (hd.trans hd'))
      cases timed with
      | false => exact key _ rfl
      | true =>
        simp only [if_true, D.lift]
        cases (L.cacheExpiry id e).1 with
        | error y => exact Good.gsome h.1 trivial
        | ok u => exact key _ rfl
theorem good_else (st : Settings) (fuel : Nat) : ∀ (t : Tail L) (b r x : Bool), t.within b r x = true → ∀ d : D L, Good b r x d (runElse st fuel t d)
  | .nil, _, _, _, _, d => by simp only [runElse]; exact Good.ok rfl
  | .cons k bd t, b, r, x, h, d => by
    simp only [Tail.within, Bool.and_eq_true] at h
    have h1 := good_run st fuel bd b r x h.1
    have h2 := good_else st fuel t b r x h.2
    cases k with
    | elif c =>
      simp only [runElse]
      rcases testD_env c d with ⟨w, e, h⟩ | ⟨y, e, h⟩
      · rw [h]
        cases w
        · exact (h2 _).from (Or.inr rfl)
        · exact (h1 _).from (Or.inr rfl)
      · rw [h]; exact Good.raised rfl
    | else_ => simp only [runElse]; exact h1 d
    | except_ m => simp only [runElse]; exact h2 d
    | finally_ => simp only [runElse]; exact h2 d
theorem good_handler (st : Settings) (fuel : Nat) (y : L.X) : ∀ (t : Tail L) (b r x : Bool), t.within b r x = true → ∀ d : D L,
    Good b r x d (runHandler st fuel y t d)
  | .nil, _, _, _, _, d => by simp only [runHandler]; exact Good.raised rfl
  | .cons k bd t, b, r, x, h, d => by
    simp only [Tail.within, Bool.and_eq_true] at h
    have h1 := good_run st fuel bd b r x h.1
    have h2 := good_handler st fuel y t b r x h.2
    cases k with
    | elif c => simp only [runHandler]; exact h2 d
    | else_ => simp only [runHandler]; exact h2 d
    | except_ m =>
      simp only [runHandler]
      split
      · exact h1 d
      · exact h2 d
    | finally_ => simp only [runHandler]; exact h2 d
theorem good_finally (st : Settings) (fuel : Nat) : ∀ (t : Tail L) (b r x : Bool), t.within b r x = true → (x = true → t.hasFinally = false) →
    ∀ (d0 : D L) (R : Res L), Good b r x d0 R → Good b r x d0 (runFinally st fuel t R)
  | .nil, _, _, _, _, _, d0, R, hR => by simp only [runFinally]; exact hR
  | .cons k bd t, b, r, x, h, hx, d0, R, hR => by
    simp only [Tail.within, Bool.and_eq_true] at h
    have h1 := good_run st fuel bd b r x h.1
    cases k with
    | elif c => simp only [runFinally]; exact good_finally st fuel t b r x h.2 hx d0 R hR
    | else_ => simp only [runFinally]; exact good_finally st fuel t b r x h.2 hx d0 R hR
    | except_ m => simp only [runFinally]; exact good_finally st fuel t b r x h.2 hx d0 R hR
    | finally_ =>
      simp only [runFinally]
      have after : ∀ (o : Out (Abort L.X)) (d : D L), allow b r x o → (∀ e, o ≠ .exc (.raised e true)) → (r = true ∨ d.filter = d0.filter) →
          Good b r x d0 (match run st fuel bd d with
            | some (.ok, d) => some (o, d)
            | r' => r') := by
        intro o d ho hne hk
        have hb := h1 d
        match run st fuel bd d, hb with
        | none, _ => exact Good.gnone
        | some (.ok, d'), hb =>
          refine Good.gsome ho ?_
          have := keeps_clean (hb _ _ rfl).2 (by simp)
          unfold keeps
          split
          · trivial
          · rcases this with h | h
            · exact Or.inl h
            · rcases hk with hk | hk
              · exact Or.inl hk
              · exact Or.inr (h.trans hk)
        | some (.brk, _), hb => exact hb.from hk
        | some (.cont, _), hb => exact hb.from hk
        | some (.ret, _), hb => exact hb.from hk
        | some (.exc _, _), hb => exact hb.from hk
      match R, hR with
      | none, _ => exact Good.gnone
      | some (.exc (.raised e true), d), hR =>
        have := (hR _ _ rfl).1
        simp only [allow] at this
        exact absurd (hx this) (by simp [Tail.hasFinally])
      | some (.exc .leak, d), hR => exact absurd (hR _ _ rfl).1 (by simp [allow])
      | some (.exc (.raised e false), d), hR => exact after _ d (hR _ _ rfl).1 (by simp) (keeps_clean (hR _ _ rfl).2 (by simp))
      | some (.ok, d), hR => exact after _ d (hR _ _ rfl).1 (by simp) (keeps_clean (hR _ _ rfl).2 (by simp))
      | some (.brk, d), hR => exact after _ d (hR _ _ rfl).1 (by simp) (keeps_clean (hR _ _ rfl).2 (by simp))
      | some (.cont, d), hR => exact after _ d (hR _ _ rfl).1 (by simp) (keeps_clean (hR _ _ rfl).2 (by simp))
      | some (.ret, d), hR => exact after _ d (hR _ _ rfl).1 (by simp) (keeps_clean (hR _ _ rfl).2 (by simp))
theorem good_args (st : Settings) (fuel : Nat) (f : L.Fn) (name : Str) : ∀ (as : Args L) (b r x : Bool), x = true → as.within = true →
    ∀ (kws : Dict Str Str) (d0 d : D L), Good b r x d (runArgs st fuel f name as kws d0 d)
  | .nil, b, r, x, _, _, kws, d0, d => by
    simp only [runArgs]; exact (good_showE st _ _).from (Or.inr rfl)
  | .cons name' body more, b, r, x, hx, h, kws, d0, d => by
    simp only [Args.within, Bool.and_eq_true] at h
    simp only [runArgs]
    refine Good.bodyThen (good_run st fuel body false false true h.1 _) (fun d' hd => ?_) hx
    exact (good_args st fuel f name' more b r x hx h.2 _ d0 d').from (Or.inr hd)
end

/-! ### The generated method as a whole -/

theorem call_eq (st : Settings) (hp : Printable st.printable) (lev fuel : Nat) (t : T L) (hok : t.ok = true) (hd : t.distinct)
    (env : L.σ) (f : L.F) (hl : ∀ d, run st fuel t ⟨env, [], f, f, f, false⟩ ≠ some (.exc .leak, d)) :
    callGenerated st lev fuel t env f = callSpec st fuel t env f := by
  have hw : (compMethod st t).wf := by
    unfold compMethod
    exact PBlock.wf_append _ _ (PBlock.wf_append _ _ (comp_wf st t [] 0 hok) (flush_wf ..)) (simples_wf _)
  simp only [callGenerated, methodLines_eq, parseMethod_render lev _ hw]
  have hr : Rel ([] : Str) (⟨env, 0, 0, fun _ => [], 1, none, fun _ => none, f, f, f, false⟩ : St L) ⟨env, [], f, f, f, false⟩ :=
    ⟨rfl, rfl, Nat.zero_lt_one, rfl, rfl, rfl, rfl, rfl⟩
  have hs := suite_sim st hp fuel (sim st hp fuel t hd [] 0 _ _ hr)
  simp only [compMethod, callSpec]
  rw [execBlock_append]
  generalize run st fuel t ⟨env, [], f, f, f, false⟩ = R at hs hl
  rcases hs.cases with ⟨d, rfl⟩ | ⟨h1, rfl⟩ | ⟨x, s, d, h1, rfl, h2⟩ | ⟨x, s, d, h1, rfl, h, hf⟩ | ⟨s, d, h1, rfl, h, hf⟩ |
    ⟨s, d, h1, rfl, h, hf⟩ | ⟨s, d, h1, rfl, h, hf⟩ | ⟨s, d, h1, rfl, h, hf⟩
  · exact absurd rfl (hl d)
  · rw [h1]; rfl
  · rw [h1]; simp only [andThen, pyResult, result, h2]
  · rw [h1]; simp only [andThen, pyResult, result, h.env]
  · rw [h1]
    have ho := h.out
    simp only [List.append_nil] at ho
    simp only [andThen, execBlock_simples, execSimples, execSimple, pyResult, result, h.env, ho]
  · rw [h1]; simp only [andThen, pyResult, result, h.env]
  · rw [h1]; simp only [andThen, pyResult, result, h.env]
  · rw [h1]
    have ho := h.out
    simp only [List.append_nil] at ho
    simp only [andThen, pyResult, result, h.env, ho]

/-! ### A concrete language for examples
-/

/-- Variables hold text; a missing variable raises `NotFound`; filters put a prefix before the
text; functions put the text in brackets; every `#except` catches everything; caches are empty. -/
def Toy : Lang where
  E := Str
  S := Str × Str
  Tgt := Str
  Fn := Unit
  M := Unit
  V := Str
  X := Str
  F := Str
  FName := Str
  σ := Dict Str Str
  eval := fun e env => match env.get e with
    | some v => (.ok v, env)
    | none => (.error c!"NotFound", env)
  exec := fun s env => (.ok (), env.set s.1 s.2)
  says := fun _ _ => []
  assign := fun x v env => (.ok (), env.set x v)
  call := fun _ t env => (.ok (c!"[" ++ t ++ c!"]"), env)
  callKw := fun _ kws env => (.ok (kws.flatMap fun kw => kw.1 ++ c!"=" ++ kw.2 ++ c!";"), env)
  truth := fun v => v != []
  isNone := fun _ => false
  ofStr := id
  iter := fun v => .ok (v.map ([·]))
  range := fun v => .ok (v.map ([·]))
  filter := fun f v env => (.ok (f ++ v), env)
  str := fun v env => (.ok v, env)
  getFilter := fun n env => (.ok n, env)
  catches := fun _ _ => true
  notFound := fun x => x = c!"NotFound"
  cacheProbe := fun _ env => (.ok none, env)
  cacheStore := fun _ _ env => (.ok (), env)
  cacheExpiry := fun _ env => (.ok (), env)
  nameError := c!"NameError"
  syntaxError := c!"SyntaxError"

def toySt : Settings := ⟨true, true, StrConst.asciiPrintable⟩

deriving instance DecidableEq for Except

/-- Call the generated method of a toy template, with variables `env`. -/
def toyCall (t : T Toy) (env : List (Str × Str)) : Option (Except Str Str × List (Str × Str)) :=
  callGenerated toySt 2 9 t env []

/-! ### C27 -/

mutual
theorem within_of_no_ids : ∀ (t : T L), t.ids = [] → t.within true true false = true
  | .skip, _ => rfl
  | .seq a c, h => by
    simp only [T.ids, List.append_eq_nil_iff] at h
    simp only [T.within, within_of_no_ids a h.1, within_of_no_ids c h.2, Bool.and_self]
  | .text _, _ => rfl
  | .place _ _, _ => rfl
  | .ternary _ _ _, _ => rfl
  | .stmt _, _ => rfl
  | .note, _ => rfl
  | .break_, _ => rfl
  | .continue_, _ => rfl
  | .stop, _ => rfl
  | .compound _ o body tail, h => by
    simp only [T.ids, List.append_eq_nil_iff] at h
    have h1 := within_of_no_ids body h.1
    have h2 := within_of_no_ids_tail tail h.2
    cases o <;> simp [T.within, h1, h2]
  | .capture _ _ _, h => by simp [T.ids] at h
  | .call _ _ _, h => by simp [T.ids] at h
  | .callKw _ _ _ _ _ _, h => by simp [T.ids] at h
  | .filter _ _ _, h => by simp [T.ids] at h
  | .cache _ _ _, h => by simp [T.ids] at h
theorem within_of_no_ids_tail : ∀ (t : Tail L), t.ids = [] → t.within true true false = true
  | .nil, _ => rfl
  | .cons _ a c, h => by
    simp only [Tail.ids, List.append_eq_nil_iff] at h
    simp only [Tail.within, within_of_no_ids a h.1, within_of_no_ids_tail c h.2, Bool.and_self]
end

mutual
theorem distinct_of_no_ids : ∀ (t : T L), t.ids = [] → t.distinct
  | .skip, _ => trivial
  | .seq a c, h => by
    simp only [T.ids, List.append_eq_nil_iff] at h
    exact ⟨distinct_of_no_ids a h.1, distinct_of_no_ids c h.2⟩
  | .text _, _ => trivial
  | .place _ _, _ => trivial
  | .ternary _ _ _, _ => trivial
  | .stmt _, _ => trivial
  | .note, _ => trivial
  | .break_, _ => trivial
  | .continue_, _ => trivial
  | .stop, _ => trivial
  | .compound _ o body tail, h => by
    simp only [T.ids, List.append_eq_nil_iff] at h
    exact ⟨distinct_of_no_ids body h.1, distinct_of_no_ids_tail tail h.2⟩
  | .capture _ _ _, h => by simp [T.ids] at h
  | .call _ _ _, h => by simp [T.ids] at h
  | .callKw _ _ _ _ _ _, h => by simp [T.ids] at h
  | .filter _ _ _, h => by simp [T.ids] at h
  | .cache _ _ _, h => by simp [T.ids] at h
theorem distinct_of_no_ids_tail : ∀ (t : Tail L), t.ids = [] → t.distinct
  | .nil, _ => trivial
  | .cons _ a c, h => by
    simp only [Tail.ids, List.append_eq_nil_iff] at h
    exact ⟨distinct_of_no_ids a h.1, distinct_of_no_ids_tail c h.2⟩
end

theorem no_leak (st : Settings) (fuel : Nat) {b r x : Bool} {t : T L} (h : t.within b r x = true) (d0 d : D L) :
    run st fuel t d0 ≠ some (.exc .leak, d) :=
  fun e => (good_run st fuel t b r x h d0 _ _ e).1

/-- C27: for a grammatical template of text, placeholders, statements and control-flow
directives, nested in any way, the generated method returns or raises what the directives
mean, and leaves the same state behind. -/
theorem C27_control_flow_means_what_it_says (st : Settings) (hp : Printable st.printable) (lev fuel : Nat) (t : T L)
    (hok : t.ok = true) (hreg : t.ids = []) (env : L.σ) (f : L.F) :
    callGenerated st lev fuel t env f = callSpec st fuel t env f :=
  call_eq st hp lev fuel t hok (distinct_of_no_ids t hreg) env f
    (fun d => no_leak st fuel (within_of_no_ids t hreg) _ d)

/-- The one-line form of a directive and the long form mean the same. -/
theorem C27_short_form_same_as_long (st : Settings) (lev fuel : Nat) (o : Open L) (body : T L) (tail : Tail L) (env : L.σ) (f : L.F) :
    callGenerated st lev fuel (.compound true o body tail) env f = callGenerated st lev fuel (.compound false o body tail) env f := by
  have h : methodLines st lev (.compound true o body tail) = methodLines st lev (.compound false o body tail) := by
    simp only [methodLines_eq, compMethod, comp]
  simp only [callGenerated, h]

/-- `#unless c` is `#if` with the branches exchanged. -/
theorem C27_unless_is_if_not (st : Settings) (hp : Printable st.printable) (lev fuel : Nat) (c : L.E) (a b : T L)
    (ha : a.ok = true) (hb : b.ok = true) (ea : a.emits = true) (eb : b.emits = true) (ra : a.ids = []) (rb : b.ids = [])
    (short : Bool) (env : L.σ) (f : L.F) :
    callGenerated st lev fuel (.compound short (.unless c) a (.cons .else_ b .nil)) env f =
    callGenerated st lev fuel (.compound short (.if_ c) b (.cons .else_ a .nil)) env f := by
  rw [C27_control_flow_means_what_it_says st hp lev fuel _ (by simp [T.ok, Tail.ok, ha, hb, ea, eb]; rfl) (by simp [T.ids, Tail.ids, ra, rb]),
    C27_control_flow_means_what_it_says st hp lev fuel _ (by simp [T.ok, Tail.ok, ha, hb, ea, eb]; rfl) (by simp [T.ids, Tail.ids, ra, rb])]
  simp only [callSpec, run, runElse]
  rcases testD_env c (⟨env, [], f, f, f, false⟩ : D L) with ⟨w, e, h⟩ | ⟨y, e, h⟩ <;> rw [h]
  cases w <;> rfl

/-- `#for x in xs: <a$x>`, `#if y`/`#else`, `#break`. -/
def toyLoop : T Toy :=
  .seq (.compound false (.for_ c!"x" c!"xs")
    (.seq (.text c!"<") (.seq (.place c!"x" false)
      (.seq (.compound true (.if_ c!"y") (.text c!"+") (.cons .else_ .break_ .nil)) (.text c!">"))))
    (.cons .else_ (.text c!"end") .nil))
    (.seq (.compound false .try_ (.place c!"zz" false) (.cons (.except_ ()) (.text c!"!") (.cons .finally_ (.text c!".") .nil)))
      (.place c!"zz" true))

example : toyLoop.ok = true ∧ toyLoop.ids = [] := ⟨rfl, rfl⟩
example : toyCall toyLoop [(c!"xs", c!"abc"), (c!"y", c!"1")] =
    some (.ok c!"<a+><b+><c+>end!.", [(c!"xs", c!"abc"), (c!"y", c!"1"), (c!"x", c!"c")]) := by decide +kernel
example : toyCall toyLoop [(c!"xs", c!"abc"), (c!"y", c!"")] =
    some (.ok c!"<a!.", [(c!"xs", c!"abc"), (c!"y", c!""), (c!"x", c!"a")]) := by decide +kernel

/-! ### C28 -/

/-- C28: `#capture`, `#call`, `#filter` and `#cache` regions, nested in each other and in
control flow in any way, as long as control does not leave a region other than by reaching its
end or by an exception that no `#try` of this method gets to see: the generated method does what
the template means. In particular everything after a region goes to the output again, through the
filter that was in force before. -/
theorem C28_regions_partial (st : Settings) (hp : Printable st.printable) (lev fuel : Nat) (t : T L)
    (hok : t.ok = true) (hd : t.distinct) (hw : t.within true true true = true) (env : L.σ) (f : L.F) :
    callGenerated st lev fuel t env f = callSpec st fuel t env f :=
  call_eq st hp lev fuel t hok hd env f (fun d => no_leak st fuel hw _ d)

/-- C28: the state of the running Python method after the code of such a part `t`, if it ends
normally: `trans` is the transaction that it was, `write` writes to it, and filter and buffering
flag are as before; no transaction but the current one has been written to, of those there were. -/
theorem C28_redirection_undone (st : Settings) (hp : Printable st.printable) (fuel : Nat) (t : T L) (hd : t.distinct)
    (hw : t.within true false true = true) (r : Nat) (s s' : St L) (hs : s.write = s.trans) (hn : s.trans < s.next)
    (he : execBlock fuel ((comp st t [] r).1 ++ flush st (comp st t [] r).2.1) s = some (.ok, s')) :
    s'.trans = s.trans ∧ s'.write = s.trans ∧ s'.filter = s.filter ∧ s'.buffering = s.buffering ∧
      ∀ b, b < s.next → b ≠ s.trans → s'.bufs b = s.bufs b := by
  have hr : Rel [] s ⟨s.env, s.bufs s.trans, s.filter, s.current, s.initial, s.buffering⟩ :=
    ⟨rfl, hs, hn, by simp, rfl, rfl, rfl, rfl⟩
  have h := suite_sim st hp fuel (sim st hp fuel t hd [] r _ _ hr)
  have hg := good_run st fuel t true false true hw ⟨s.env, s.bufs s.trans, s.filter, s.current, s.initial, s.buffering⟩
  rw [he] at h
  generalize run st fuel t ⟨s.env, s.bufs s.trans, s.filter, s.current, s.initial, s.buffering⟩ = R at h hg
  rcases h.cases with ⟨d, rfl⟩ | ⟨h1, rfl⟩ | ⟨x, s1, d, h1, rfl, h2⟩ | ⟨x, s1, d, h1, rfl, h, hf⟩ | ⟨s1, d, h1, rfl, h, hf⟩ |
    ⟨s1, d, h1, rfl, h, hf⟩ | ⟨s1, d, h1, rfl, h, hf⟩ | ⟨s1, d, h1, rfl, h, hf⟩
  · exact absurd (hg _ _ rfl).1 (by simp [allow])
  all_goals simp at h1
  subst h1
  have hk := keeps_clean (hg _ _ rfl).2 (by simp)
  simp only [Bool.false_eq_true, false_or] at hk
  exact ⟨hf.trans, h.write.trans hf.trans, h.filter.trans hk, hf.buffering, hf.bufs⟩

/-- Text, a captured text with a nested `#call`, a filter, a cache region; then text. -/
def toyRegions : T Toy :=
  .seq (.text c!"a") (.seq (.capture 1 c!"x" (.seq (.text c!"b") (.seq (.call 2 () (.text c!"c")) (.text c!"d"))))
    (.seq (.filter 3 (.named c!"*") (.seq (.place c!"x" false) (.cache 4 true (.place c!"x" false))))
      (.seq (.callKw 5 () .skip c!"k" (.text c!"1") (.cons c!"l" (.text c!"2") .nil)) (.seq (.place c!"x" false) (.text c!"e")))))

example : toyRegions.ok = true ∧ toyRegions.within true true true = true := ⟨rfl, rfl⟩
example : toyRegions.distinct := by simp [toyRegions, T.distinct, Args.distinct, T.ids, Args.ids]
example : toyCall toyRegions [] =
    some (.ok c!"a*b[c]d*b[c]dk=1;l=2;b[c]de", [(c!"x", c!"b[c]d")]) := by decide +kernel

/-- What is missing from C28: an exception that leaves a region and is caught in the same method.
The text before the `#try` is lost: only what is written after the start of the `#capture`
is returned. -/
theorem C28_caught_exception_counterexample :
    let t : T Toy := .seq (.text c!"a") (.seq (.compound false .try_ (.capture 1 c!"x" (.seq (.text c!"b") (.place c!"zz" false)))
      (.cons (.except_ ()) (.text c!"c") .nil)) (.text c!"d"))
    t.ok = true ∧ toyCall t [] = some (.ok c!"bcd", []) := by decide +kernel

/-- What is missing from C28: `#break` out of a region. The loop's `<` and `a` are lost. -/
theorem C28_break_counterexample :
    let t : T Toy := .seq (.text c!"<") (.seq (.compound false (.for_ c!"x" c!"xs") (.seq (.place c!"x" false)
      (.call 1 () (.seq (.text c!"b") .break_))) .nil) (.text c!">"))
    t.ok = true ∧ toyCall t [(c!"xs", c!"ab")] = some (.ok c!"b>", [(c!"xs", c!"ab"), (c!"x", c!"a")]) := by decide +kernel

/-- What is missing from C28: `#break` out of `#filter`: the filter stays in force. -/
theorem C28_break_filter_counterexample :
    let t : T Toy := .seq (.compound false (.for_ c!"x" c!"xs") (.filter 1 (.named c!"*") .break_) .nil) (.place c!"x" false)
    t.ok = true ∧ toyCall t [(c!"xs", c!"ab")] = some (.ok c!"*a", [(c!"xs", c!"ab"), (c!"x", c!"a")]) := by decide +kernel

/-- The hypothesis `distinct` is needed: if the random numbers of nested regions coincide, the
method raises NameError. -/
theorem C28_same_number_counterexample :
    let t : T Toy := .capture 1 c!"x" (.capture 1 c!"y" (.text c!"b"))
    t.ok = true ∧ t.within true true true = true ∧
      (toyCall t []).map (·.1) = some (.error c!"NameError") := by decide +kernel

/-! ### C29 -/

/-- C29: when a template runs into `#stop` (in the direct meaning of the template, state `d`),
the method returns exactly the output produced so far. -/
theorem C29_stop_returns_output_so_far (st : Settings) (hp : Printable st.printable) (lev fuel : Nat) (t : T L)
    (hok : t.ok = true) (hd : t.distinct) (env : L.σ) (f : L.F) (d : D L)
    (h : run st fuel t ⟨env, [], f, f, f, false⟩ = some (.ret, d)) :
    callGenerated st lev fuel t env f = some (.ok d.out, d.env) := by
  rw [call_eq st hp lev fuel t hok hd env f (by intro d'; rw [h]; simp), callSpec, h]; rfl

/-- C29: a template with `#stop` between its parts `a` and `b` returns what `a` alone returns. -/
theorem C29_rest_is_not_run_partial (st : Settings) (hp : Printable st.printable) (lev fuel : Nat) (a b : T L)
    (ha : a.ok = true) (hb : b.ok = true) (hda : a.distinct) (hdb : b.distinct) (hwa : a.within true true true = true)
    (env : L.σ) (f : L.F) :
    callGenerated st lev fuel (.seq a (.seq .stop b)) env f = callGenerated st lev fuel a env f := by
  have hl := no_leak st fuel hwa ⟨env, [], f, f, f, false⟩
  rw [call_eq st hp lev fuel a ha hda env f hl]
  have hrun : ∀ d, run st fuel (.seq a (.seq .stop b)) d = andThen (run st fuel a d) (fun d => some (.ret, d)) := by
    intro d; simp only [run, andThen]
  rw [call_eq st hp lev fuel _ (by simp [T.ok, ha, hb]) (by simp [T.distinct, hda, hdb]) env f]
  · simp only [callSpec, hrun]
    match run st fuel a ⟨env, [], f, f, f, false⟩ with
    | none => rfl
    | some (.ok, _) => rfl
    | some (.brk, _) => rfl
    | some (.cont, _) => rfl
    | some (.ret, _) => rfl
    | some (.exc _, _) => rfl
  · intro d
    rw [hrun]
    match hR : run st fuel a ⟨env, [], f, f, f, false⟩, hl with
    | none, _ => simp [andThen]
    | some (.ok, _), _ => simp [andThen]
    | some (.brk, _), _ => simp [andThen]
    | some (.cont, _), _ => simp [andThen]
    | some (.ret, _), _ => simp [andThen]
    | some (.exc x, d'), hl => simpa [andThen] using hl d

/-- `#stop` inside a loop and an `#if`. -/
example :
    let t : T Toy := .seq (.text c!"<") (.seq (.compound false (.for_ c!"x" c!"xs") (.seq (.place c!"x" false)
      (.compound false (.if_ c!"y") (.seq .stop (.text c!"no")) .nil)) .nil) (.text c!">"))
    t.ok = true ∧ (∃ d, run toySt 9 t ⟨[(c!"xs", c!"ab"), (c!"y", c!"1")], [], [], [], [], false⟩ = some (.ret, d)) ∧
    toyCall t [(c!"xs", c!"ab"), (c!"y", c!"1")] =
      some (.ok c!"<a", [(c!"xs", c!"ab"), (c!"y", c!"1"), (c!"x", c!"a")]) := ⟨by decide +kernel, ⟨_, rfl⟩, by decide +kernel⟩

example : toyRegions.ok = true ∧ toyLoop.ok = true ∧ toyRegions.within true true true = true ∧ toyLoop.within true true true = true :=
  ⟨rfl, rfl, rfl, rfl⟩

/-- What is missing from C29: `#stop` inside a region. The output before the region is lost and
the text collected so far is returned instead. -/
theorem C29_stop_in_region_counterexample :
    let t : T Toy := .seq (.text c!"a") (.capture 1 c!"x" (.seq (.text c!"b") .stop))
    t.ok = true ∧ toyCall t [] = some (.ok c!"b", []) := by decide +kernel

/-! ### C25 -/

/-- A piece of a template without directives that have a body. -/
inductive Chunk (L : Lang) where
  | text (s : Str)
  | place (e : L.E)
  | stmt (s : L.S)

def Chunk.t : Chunk L → T L
  | .text s => .text s
  | .place e => .place e false
  | .stmt s => .stmt s

/-- The template with these pieces. -/
def ofChunks : List (Chunk L) → T L
  | [] => .skip
  | c :: cs => .seq c.t (ofChunks cs)

/-- One piece, in state `env`, contributes the text `t` and leads to state `env'`. Values go
through the filter; `None` shows as nothing. -/
inductive Shows (f : L.F) : Chunk L → L.σ → Str → L.σ → Prop
  | text (s env) : Shows f (.text s) env s env
  | value {e env v env' t env''} (he : L.eval e env = (.ok v, env')) (hn : L.isNone v = false)
      (hf : L.filter f v env' = (.ok t, env'')) : Shows f (.place e) env t env''
  | none {e env v env'} (he : L.eval e env = (.ok v, env')) (hn : L.isNone v = true) : Shows f (.place e) env [] env'
  | stmt {s env env'} (he : L.exec s env = (.ok (), env')) : Shows f (.stmt s) env (L.says s env) env'

/-- The pieces, run in order, contribute these texts. -/
inductive ShowsAll (f : L.F) : List (Chunk L) → L.σ → List Str → L.σ → Prop
  | nil (env) : ShowsAll f [] env [] env
  | cons {c env t env' cs ts env''} (h : Shows f c env t env') (hs : ShowsAll f cs env' ts env'') :
      ShowsAll f (c :: cs) env (t :: ts) env''

theorem ofChunks_ids : ∀ (cs : List (Chunk L)), (ofChunks cs).ids = []
  | [] => rfl
  | c :: cs => by cases c <;> simp [ofChunks, Chunk.t, T.ids, ofChunks_ids cs]

theorem ofChunks_ok : ∀ (cs : List (Chunk L)), (ofChunks cs).ok = true
  | [] => rfl
  | c :: cs => by cases c <;> simp [ofChunks, Chunk.t, T.ok, ofChunks_ok cs]

theorem shows_run (p : Char → Bool) (fuel : Nat) {f : L.F} {c : Chunk L} {env env' : L.σ} {t : Str} (h : Shows f c env t env') (d : D L)
    (hd : d.env = env) (hf : d.filter = f) : run ⟨true, true, p⟩ fuel c.t d = some (.ok, { d with env := env', out := d.out ++ t }) := by
  cases h with
  | text => subst hd; rfl
  | value he hn hv => subst hd; subst hf; simp [Chunk.t, run, showE, bindD, D.lift, he, showV, hn, hv, D.emit]
  | none he hn => subst hd; subst hf; simp [Chunk.t, run, showE, bindD, D.lift, he, showV, hn]
  | stmt he => subst hd; simp [Chunk.t, run, bindD, D.lift, D.emit, he]

theorem showsAll_run (p : Char → Bool) (fuel : Nat) {f : L.F} {cs : List (Chunk L)} {env env' : L.σ} {ts : List Str} (h : ShowsAll f cs env ts env') :
    ∀ (d : D L), d.env = env → d.filter = f → run ⟨true, true, p⟩ fuel (ofChunks cs) d = some (.ok, { d with env := env', out := d.out ++ ts.flatten }) := by
  induction h with
  | nil env => intro d hd _; subst hd; simp [ofChunks, run]
  | cons h _ ih =>
    intro d hd hf
    simp only [ofChunks, run, shows_run p fuel h d hd hf, andThen]
    rw [ih { d with env := _, out := _ } rfl hf]
    simp

/-- C25: with the default settings, the output of a template method is the concatenation, in
source order, of the literal texts and the filtered values of the placeholders. -/
theorem C25_output_is_concatenation (p : Char → Bool) (hp : Printable p) (lev fuel : Nat) (f : L.F) (cs : List (Chunk L)) (env env' : L.σ)
    (ts : List Str) (h : ShowsAll f cs env ts env') :
    callGenerated ⟨true, true, p⟩ lev fuel (ofChunks cs) env f = some (.ok ts.flatten, env') := by
  rw [C27_control_flow_means_what_it_says _ hp lev fuel _ (ofChunks_ok cs) (ofChunks_ids cs), callSpec,
    showsAll_run p fuel h _ rfl rfl]
  simp [result]

theorem comp_merge (st : Settings) (a b : Str) (ys : List (Chunk L)) : ∀ (xs : List (Chunk L)) (p : Str) (r : Nat),
    comp st (ofChunks (xs ++ .text a :: .text b :: ys)) p r = comp st (ofChunks (xs ++ .text (a ++ b) :: ys)) p r
  | [], p, r => by simp [ofChunks, Chunk.t, comp]
  | x :: xs, p, r => by simp only [List.cons_append, ofChunks, comp, comp_merge st a b ys xs]

/-- C25: how literal text is cut into pieces makes no difference to the generated code. -/
theorem C25_adjacent_text_is_merged (st : Settings) (lev : Nat) (xs ys : List (Chunk L)) (a b : Str) :
    methodLines st lev (ofChunks (xs ++ .text a :: .text b :: ys)) = methodLines st lev (ofChunks (xs ++ .text (a ++ b) :: ys)) := by
  simp only [methodLines_eq, compMethod, comp_merge]

example : ShowsAll (L := Toy) c!"*" [.text c!"a", .place c!"x", .stmt (c!"x", c!"2"), .text c!"b", .text c!"c", .place c!"x"] [(c!"x", c!"1")]
    [c!"a", c!"*1", [], c!"b", c!"c", c!"*2"] [(c!"x", c!"2")] := by
  refine .cons (.text _ _) (.cons (.value rfl rfl rfl) (.cons (.stmt rfl) (.cons (.text _ _) (.cons (.text _ _) (.cons (.value rfl rfl rfl) (.nil _))))))
example : Printable StrConst.asciiPrintable := StrConst.asciiPrintable_ok

end Cheetah.Compile
