import Verif.TemplateArgs
/-
C90: the arguments of `Template(…)`.
-/
namespace Cheetah.TemplateArgs

/-- The value fits what the documentation says of the argument (a class is one that can be used). -/
def Documented (a : Args) : Str → Prop := fun n =>
  if n = c!"source" then a.source = .none ∨ ∃ s, a.source = .str s
  else if n = c!"file" then a.file = .none ∨ a.file = .file ∨ ∃ s, a.file = .str s
  else if n = c!"filter" then (∃ s, a.filter = .str s) ∨ ∃ c, a.filter = .cls true c true
  else if n = c!"filtersLib" then (∃ s, a.filtersLib = .str s) ∨ ∃ ns, a.filtersLib = .module ns
  else if n = c!"errorCatcher" then a.errorCatcher = .none ∨ (∃ s, a.errorCatcher = .str s) ∨ ∃ f, a.errorCatcher = .cls f true true
  else if n = c!"compilerSettings" then a.compilerSettings = .unspecified ∨ ∃ p, a.compilerSettings = .dict p
  else True

/-- The six arguments that are tested. -/
def tested : List Str := [c!"source", c!"file", c!"filter", c!"filtersLib", c!"errorCatcher", c!"compilerSettings"]

/-- A list of namespaces, a tuple of them, or nothing. -/
def Several : SL → Prop
  | .absent | .list _ | .tuple _ => True
  | _ => False

/-- Documented arguments are accepted. `filtersLib` has the filter that is named, and the catcher that is named exists. -/
def Fits (catchers : List Str) (a : Args) : Prop :=
  (∀ n ∈ tested, Documented a n) ∧ ¬ (a.source ≠ .none ∧ a.file ≠ .none) ∧ ¬ (a.namespaces ≠ .absent ∧ a.searchList ≠ .absent) ∧
  (∀ f, a.filter = .str f → ∃ ns, a.filtersLib = .module ns ∧ f ∈ ns) ∧ (∀ e, a.errorCatcher = .str e → e = [] ∨ e ∈ catchers)

theorem okSource_doc {a : Args} (h : Documented a c!"source") : okSource a.source = true := by
  simp [Documented] at h; rcases h with h | ⟨_, h⟩ <;> rw [h] <;> rfl

theorem okFile_doc {a : Args} (h : Documented a c!"file") : okFile a.file = true := by
  simp [Documented] at h; rcases h with h | h | ⟨_, h⟩ <;> rw [h] <;> rfl

theorem okFilter_doc {a : Args} (h : Documented a c!"filter") : okFilter a.filter = true := by
  simp [Documented] at h; rcases h with ⟨_, h⟩ | h
  · rw [h]; rfl
  · rcases h with h | h <;> rw [h] <;> rfl

theorem okLib_doc {a : Args} (h : Documented a c!"filtersLib") : okLib a.filtersLib = true := by
  simp [Documented] at h; rcases h with ⟨_, h⟩ | ⟨_, h⟩ <;> rw [h] <;> rfl

theorem okCatcher_doc {a : Args} (h : Documented a c!"errorCatcher") : okCatcher a.errorCatcher = true := by
  simp [Documented] at h; rcases h with h | ⟨_, h⟩ | h
  · rw [h]; rfl
  · rw [h]; rfl
  · rcases h with h | h <;> rw [h] <;> rfl

theorem okSettings_doc {a : Args} (h : Documented a c!"compilerSettings") : okSettings a.compilerSettings = true := by
  simp [Documented] at h; rcases h with h | h
  · rw [h]; rfl
  · rcases h with h | h <;> rw [h] <;> rfl

theorem check_ok {catchers : List Str} {a : Args} (h : Fits catchers a) : check a = .ok () := by
  obtain ⟨hd, hb, -⟩ := h
  simp only [tested, List.mem_cons, List.not_mem_nil, or_false, forall_eq_or_imp, forall_eq] at hd
  obtain ⟨d1, d2, d3, d4, d5, d6⟩ := hd
  unfold check need
  rw [okSource_doc d1, okFile_doc d2, okFilter_doc d3, okLib_doc d4, okCatcher_doc d5, okSettings_doc d6, if_neg hb]
  rfl

theorem filter_ok {catchers : List Str} {a : Args} (h : Fits catchers a) : makeFilter a = .ok () := by
  obtain ⟨hd, -, -, hf, -⟩ := h
  have d3 := hd c!"filter" (by decide)
  simp [Documented] at d3
  unfold makeFilter
  rcases d3 with ⟨f, e⟩ | e
  · obtain ⟨ns, e2, hm⟩ := hf f e
    rw [e, e2]; simp [hm]
  · rcases e with e | e <;> rw [e] <;> rfl

theorem catcher_ok {catchers : List Str} {a : Args} (h : Fits catchers a) : makeCatcher catchers a = .ok () := by
  obtain ⟨hd, -, -, -, he⟩ := h
  have d5 := hd c!"errorCatcher" (by decide)
  simp [Documented] at d5
  unfold makeCatcher
  rcases d5 with e | ⟨f, e⟩ | e
  · rw [e]
  · rw [e]
    rcases he f e with hm | hm <;> simp [hm]
  · rcases e with e | e <;> rw [e] <;> rfl

/-- The steps of the constructor, one after the other. -/
theorem init_ok {reserved catchers : List Str} {a : Args} {logs : List (List Str)} :
    init reserved catchers a = .ok logs ↔ check a = .ok () ∧ lists a = .ok () ∧ makeFilter a = .ok () ∧ makeCatcher catchers a = .ok () ∧
      ∃ xs, looped a.searchList = .ok xs ∧ logs = (xs.map (logged reserved (prioritized a))).filter (· ≠ []) := by
  unfold init
  cases h1 : check a <;> cases h2 : looped a.searchList <;> cases h3 : lists a <;> cases h4 : makeFilter a <;> cases h5 : makeCatcher catchers a <;>
    simp [Bind.bind, Except.bind, pure, Except.pure, eq_comm]

/-- **C90 (partial).** Arguments as documented are accepted, for lists of namespaces; for tuples without the setting
`prioritizeSearchListOverSelf`. Missing: the namespaces of `C90_single_namespace_counterexample` and `C90_tuple_counterexample`,
and a text for `filtersLib`, `C90_filtersLib_counterexample`. -/
theorem C90_accepted_partial (reserved catchers : List Str) (a : Args) (h : Fits catchers a) (hs : Several a.searchList)
    (ht : prioritized a = true → (∀ xs, a.searchList ≠ .tuple xs) ∧ ∀ xs, a.namespaces ≠ .tuple xs) :
    ∃ logs, init reserved catchers a = .ok logs := by
  have hl : ∃ xs, looped a.searchList = .ok xs := by
    unfold Several at hs
    split at hs
    all_goals first | exact hs.elim | skip
    all_goals rename_i e; rw [e]; exact ⟨_, rfl⟩
  obtain ⟨xs, hx⟩ := hl
  have h3 : lists a = .ok () := by
    unfold lists
    rw [if_neg h.2.2.1]
    split
    · rename_i ys e
      split
      · rename_i hp
        exfalso
        split at e
        · exact (ht hp).2 ys e
        · exact (ht hp).1 ys e
      · rfl
    · rfl
  exact ⟨_, init_ok.mpr ⟨check_ok h, h3, filter_ok h, catcher_ok h, xs, hx, rfl⟩⟩

/-- **C90.** The argument that an error names is one that is not as documented. -/
theorem C90_named (reserved catchers : List Str) (a : Args) (n : Str) (h : init reserved catchers a = .error (.wrong n)) :
    n ∈ tested ∧ ¬ Documented a n := by
  have hc : check a = .error (.wrong n) := by
    unfold init at h
    cases h1 : check a with
    | error e => rw [h1] at h; simpa [Bind.bind, Except.bind] using h
    | ok _ =>
      rw [h1] at h
      have l2 : looped a.searchList ≠ .error (.wrong n) := by unfold looped; split <;> simp
      have l3 : lists a ≠ .error (.wrong n) := by 
        unfold lists
        split
        · simp
        · split
          · split <;> simp
          · simp
      have l4 : makeFilter a ≠ .error (.wrong n) := by unfold makeFilter; split <;> first | (split <;> simp) | simp
      have l5 : makeCatcher catchers a ≠ .error (.wrong n) := by
        unfold makeCatcher; split
        · split
          · simp
          · split <;> simp
        · split <;> simp
        · simp
      exfalso
      cases h2 : looped a.searchList <;> cases h3 : lists a <;> cases h4 : makeFilter a <;> cases h5 : makeCatcher catchers a <;>
        simp_all [Bind.bind, Except.bind, pure, Except.pure]
  have d1 := mt (okSource_doc (a := a))
  have d2 := mt (okFile_doc (a := a))
  have d3 := mt (okFilter_doc (a := a))
  have d4 := mt (okLib_doc (a := a))
  have d5 := mt (okCatcher_doc (a := a))
  have d6 := mt (okSettings_doc (a := a))
  unfold check need at hc
  cases e1 : okSource a.source with
  | false => rw [e1] at hc; simp [Bind.bind, Except.bind] at hc; subst hc; exact ⟨by decide, d1 (by simp [e1])⟩
  | true =>
  cases e2 : okFile a.file with
  | false => rw [e1, e2] at hc; simp [Bind.bind, Except.bind] at hc; subst hc; exact ⟨by decide, d2 (by simp [e2])⟩
  | true =>
  cases e3 : okFilter a.filter with
  | false => rw [e1, e2, e3] at hc; simp [Bind.bind, Except.bind] at hc; subst hc; exact ⟨by decide, d3 (by simp [e3])⟩
  | true =>
  cases e4 : okLib a.filtersLib with
  | false => rw [e1, e2, e3, e4] at hc; simp [Bind.bind, Except.bind] at hc; subst hc; exact ⟨by decide, d4 (by simp [e4])⟩
  | true =>
  cases e5 : okCatcher a.errorCatcher with
  | false => rw [e1, e2, e3, e4, e5] at hc; simp [Bind.bind, Except.bind] at hc; subst hc; exact ⟨by decide, d5 (by simp [e5])⟩
  | true =>
  cases e6 : okSettings a.compilerSettings with
  | false => rw [e1, e2, e3, e4, e5, e6] at hc; simp [Bind.bind, Except.bind] at hc; subst hc; exact ⟨by decide, d6 (by simp [e6])⟩
  | true =>
    rw [e1, e2, e3, e4, e5, e6] at hc
    simp only [Bind.bind, Except.bind, if_true] at hc
    split at hc <;> simp at hc

theorem check_inv {a : Args} (h : check a = .ok ()) : okSource a.source = true ∧ okFile a.file = true ∧ okFilter a.filter = true ∧
    okLib a.filtersLib = true ∧ okCatcher a.errorCatcher = true ∧ okSettings a.compilerSettings = true := by
  unfold check need at h
  generalize okSource a.source = b1, okFile a.file = b2, okFilter a.filter = b3, okLib a.filtersLib = b4, okCatcher a.errorCatcher = b5,
    okSettings a.compilerSettings = b6 at h
  cases b1 <;> cases b2 <;> cases b3 <;> cases b4 <;> cases b5 <;> cases b6 <;> first | exact ⟨rfl, rfl, rfl, rfl, rfl, rfl⟩ | cases h

/-- **C90 (partial).** What is accepted is as documented, if classes are of the right kind. Missing: other classes
(`C90_class_counterexample`). -/
theorem C90_refused_partial (reserved catchers : List Str) (a : Args) (logs : List (List Str)) (h : init reserved catchers a = .ok logs)
    (hf : ∀ b c u, a.filter = .cls b c u → b = true) (he : ∀ b c u, a.errorCatcher = .cls b c u → c = true) : ∀ n ∈ tested, Documented a n := by
  obtain ⟨hc, -, hm, hk, -⟩ := init_ok.mp h
  obtain ⟨h1, h2, h3, h4, h5, h6⟩ := check_inv hc
  simp only [tested, List.mem_cons, List.not_mem_nil, or_false, forall_eq_or_imp, forall_eq]
  refine ⟨?_, ?_, ?_, ?_, ?_, ?_⟩
  · cases e : a.source <;> rw [e] at h1 <;> simp_all [okSource, Documented]
  · cases e : a.file <;> rw [e] at h2 <;> simp_all [okFile, Documented]
  · cases e : a.filter with
    | str f => simp [Documented, e]
    | cls b c u =>
      have hb := hf b c u e
      subst hb
      unfold makeFilter at hm
      rw [e] at hm
      cases u
      · cases hm
      · cases c <;> simp [Documented, e]
    | _ => rw [e] at h3; cases h3
  · cases e : a.filtersLib <;> rw [e] at h4 <;> simp_all [okLib, Documented]
  · cases e : a.errorCatcher with
    | str f => simp [Documented, e]
    | none => simp [Documented, e]
    | cls b c u =>
      have hb := he b c u e
      subst hb
      unfold makeCatcher at hk
      rw [e] at hk
      cases u
      · cases hk
      · cases b <;> simp [Documented, e]
    | _ => rw [e] at h5; cases h5
  · cases e : a.compilerSettings with
    | dict p => cases p <;> simp [Documented, e]
    | unspecified => simp [Documented, e]
    | _ => rw [e] at h6; cases h6

/-- **C90.** A source together with a file is always an error. -/
theorem C90_not_both (reserved catchers : List Str) (a : Args) (h1 : a.source ≠ .none) (h2 : a.file ≠ .none) :
    ∃ e, init reserved catchers a = .error e := by
  cases h : init reserved catchers a with
  | error e => exact ⟨e, rfl⟩
  | ok logs =>
    exfalso
    have hc := (init_ok.mp h).1
    unfold check at hc
    rw [if_pos ⟨h1, h2⟩] at hc
    unfold need at hc
    generalize okSource a.source = b1, okFile a.file = b2, okFilter a.filter = b3, okLib a.filtersLib = b4, okCatcher a.errorCatcher = b5,
      okSettings a.compilerSettings = b6 at hc
    cases b1 <;> cases b2 <;> cases b3 <;> cases b4 <;> cases b5 <;> cases b6 <;> cases hc

/-- **C90.** Giving both `searchList` and `namespaces` is always an error. -/
theorem C90_not_both_lists (reserved catchers : List Str) (a : Args) (h1 : a.searchList ≠ .absent) (h2 : a.namespaces ≠ .absent) :
    ∃ e, init reserved catchers a = .error e := by
  cases h : init reserved catchers a with
  | error e => exact ⟨e, rfl⟩
  | ok logs =>
    exfalso
    have hl := (init_ok.mp h).2.1
    unfold lists at hl
    rw [if_pos ⟨h2, h1⟩] at hl
    cases hl

/-- **C90.** A filter or an error catcher that is given by its name was found: in the library, or in the module `ErrorCatchers`. -/
theorem C90_found (reserved catchers : List Str) (a : Args) (logs : List (List Str)) (h : init reserved catchers a = .ok logs) :
    (∀ f, a.filter = .str f → ∃ ns, a.filtersLib = .module ns ∧ f ∈ ns) ∧ ∀ e, a.errorCatcher = .str e → e = [] ∨ e ∈ catchers := by
  obtain ⟨-, -, hm, hk, -⟩ := init_ok.mp h
  constructor
  · intro f hf
    unfold makeFilter at hm
    rw [hf] at hm
    cases e : a.filtersLib with
    | module ns =>
      rw [e] at hm
      by_cases hn : f ∈ ns
      · exact ⟨ns, rfl, hn⟩
      · simp [hn] at hm
    | _ => rw [e] at hm; cases hm
  · intro c hc
    unfold makeCatcher at hk
    rw [hc] at hk
    by_cases h1 : c = []
    · exact .inl h1
    · by_cases h2 : c ∈ catchers
      · exact .inr h2
      · simp [h1, h2] at hk

/-- **C90 (partial).** The names that are logged are those that a dictionary in the list or tuple `searchList` shares with the template, unless the
setting gives the dictionary precedence. Missing: the argument `namespaces` and single dictionaries, for which nothing is
logged (`C90_silent_counterexample`). -/
theorem C90_collisions_partial (reserved catchers : List Str) (a : Args) (xs : List Ns) (hl : a.searchList = .list xs ∨ a.searchList = .tuple xs) (logs : List (List Str))
    (h : init reserved catchers a = .ok logs) (n : Str) :
    (∃ l ∈ logs, n ∈ l) ↔ n ∈ reserved ∧ a.compilerSettings ≠ .dict true ∧ ∃ keys, Ns.dict keys ∈ xs ∧ n ∈ keys := by
  obtain ⟨-, -, -, -, ys, hy, rfl⟩ := init_ok.mp h
  have hxy : ys = xs := by rcases hl with hl | hl <;> rw [hl] at hy <;> cases hy <;> rfl
  subst hxy
  have hp : prioritized a = true ↔ a.compilerSettings = .dict true := by simp [prioritized]
  simp only [List.mem_filter, List.mem_map, decide_eq_true_eq]
  constructor
  · rintro ⟨l, ⟨⟨x, hx, rfl⟩, -⟩, hn⟩
    cases x with
    | other => simp [logged] at hn
    | dict keys =>
      by_cases hq : prioritized a = true
      · simp [logged, hq] at hn
      · simp [logged, hq] at hn
        exact ⟨hn.1, fun e => hq (hp.mpr e), keys, hx, hn.2⟩
  · rintro ⟨hr, hs, keys, hx, hk⟩
    have hm : n ∈ logged reserved (prioritized a) (.dict keys) := by
      have hq : ¬ prioritized a = true := fun e => hs (hp.mp e)
      simp [logged, hq, hr, hk]
    exact ⟨_, ⟨⟨_, hx, rfl⟩, fun e => by rw [e] at hm; simp at hm⟩, hm⟩

/-- **C90 (violated).** Names that collide are not logged for a single dictionary, nor for `namespaces`. -/
theorem C90_silent_counterexample (reserved catchers : List Str) (a : Args) (logs : List (List Str)) (h : init reserved catchers a = .ok logs)
    (hs : (∃ keys, a.searchList = .dict keys) ∨ a.namespaces ≠ .absent) : logs = [] := by
  obtain ⟨-, h3, -, -, ys, hy, rfl⟩ := init_ok.mp h
  rcases hs with ⟨keys, hk⟩ | hn
  · rw [hk] at hy
    cases hy
    simp [logged]
  · have : a.searchList = .absent := by
      refine Classical.byContradiction fun hne => ?_
      unfold lists at h3
      rw [if_pos ⟨hn, hne⟩] at h3
      cases h3
    rw [this] at hy
    cases hy
    rfl

/-- **C90 (violated).** A single object is accepted as `namespaces`, but as `searchList` it is an error if it is true and cannot be
looped over. -/
theorem C90_single_namespace_counterexample (reserved catchers : List Str) (a : Args) (h : Fits catchers a) (h1 : a.namespaces = .absent) :
    init reserved catchers { a with searchList := .absent, namespaces := .object true none } = .ok [] ∧
    init reserved catchers { a with searchList := .object true none } = .error .notIterable := by
  constructor
  · rw [init_ok]
    exact ⟨check_ok (a := a) h, rfl, filter_ok (a := a) h, catcher_ok (a := a) h, [], rfl, rfl⟩
  · unfold init
    have : check { a with searchList := .object true none } = .ok () := check_ok (a := a) h
    rw [this]
    rfl

/-- **C90 (violated).** With the setting, a tuple is an error. -/
theorem C90_tuple_counterexample (reserved catchers : List Str) (a : Args) (h : Fits catchers a) (hp : a.compilerSettings = .dict true)
    (xs : List Ns) (h1 : a.searchList = .tuple xs) : init reserved catchers a = .error .tuplePlusList := by
  have hn : a.namespaces = .absent := by
    refine Classical.byContradiction fun hne => ?_
    exact h.2.2.1 ⟨hne, by rw [h1]; simp⟩
  have h3 : lists a = .error .tuplePlusList := by
    unfold lists
    rw [hn, h1]
    simp [prioritized, hp]
  unfold init
  rw [check_ok h, h1, h3]
  rfl

/-- **C90 (violated).** A text is allowed for `filtersLib`, but no filter is ever found with it. -/
theorem C90_filtersLib_counterexample (reserved catchers : List Str) (a : Args) (f lib : Str) (hf : a.filter = .str f) (hl : a.filtersLib = .str lib) :
    Documented a c!"filtersLib" ∧ ∃ e, init reserved catchers a = .error e := by
  refine ⟨by simp [Documented, hl], ?_⟩
  cases h : init reserved catchers a with
  | error e => exact ⟨e, rfl⟩
  | ok logs =>
    exfalso
    have hm := (init_ok.mp h).2.2.1
    unfold makeFilter at hm
    rw [hf, hl] at hm
    cases hm

/-- **C90 (violated).** A class that is no filter is not refused: it is used, and fails later if at all. -/
theorem C90_class_counterexample (reserved catchers : List Str) (a : Args) (h : Fits catchers a) (hs : a.searchList = .absent) (hn : a.namespaces = .absent) (c : Bool) :
    ¬ Documented { a with filter := .cls false c true } c!"filter" ∧ init reserved catchers { a with filter := .cls false c true } = .ok [] ∧
    init reserved catchers { a with filter := .cls false c false } = .error .fromClass := by
  have hc : ∀ u, check { a with filter := .cls false c u } = .ok () := by
    intro u
    obtain ⟨hd, hb, -⟩ := h
    simp only [tested, List.mem_cons, List.not_mem_nil, or_false, forall_eq_or_imp, forall_eq] at hd
    obtain ⟨d1, d2, -, d4, d5, d6⟩ := hd
    unfold check need
    simp only
    rw [okSource_doc d1, okFile_doc d2, okLib_doc d4, okCatcher_doc d5, okSettings_doc d6, if_neg hb]
    rfl
  have hl : ∀ u, lists { a with filter := .cls false c u } = .ok () := by intro u; unfold lists; simp [hs, hn]
  refine ⟨by simp [Documented], ?_, ?_⟩
  · rw [init_ok]
    exact ⟨hc _, hl _, rfl, catcher_ok (a := a) h, [], by simp [hs, looped], rfl⟩
  · unfold init
    rw [hc, hl]
    simp only [hs]
    rfl

/-- A call with a source, a namespace that hides nothing and one that shares a name with the template. -/
def demo : Args :=
  { source := .str c!"Hello $name", filter := .str c!"RawOrEncodedUnicode", filtersLib := .module [c!"Filter", c!"RawOrEncodedUnicode"],
    errorCatcher := .str c!"BigEcho", compilerSettings := .dict false, searchList := .list [.dict [c!"name"], .other, .dict [c!"url", c!"respond"]] }

example : Fits [c!"Echo", c!"BigEcho"] demo := by
  refine ⟨?_, by simp [demo], by simp [demo], ?_, ?_⟩
  · simp [tested, Documented, demo]
  · intro f hf; cases hf; exact ⟨_, rfl, by decide⟩
  · intro f hf; cases hf; exact .inr (by decide)
example : Several demo.searchList := trivial
example : prioritized demo = false := rfl
example : init [c!"respond", c!"compile"] [c!"Echo", c!"BigEcho"] demo = .ok [[c!"respond"]] := by decide +kernel
example : init [] [] { demo with filtersLib := .none } = .error (.wrong c!"filtersLib") := by decide +kernel
example : init [c!"respond"] [c!"BigEcho"] { demo with searchList := .dict [c!"respond"] } = .ok [] := by decide +kernel
example : init [c!"respond"] [c!"BigEcho"] { demo with searchList := .absent, namespaces := .list [.dict [c!"respond"]] } = .ok [] := by decide +kernel
example : init [] [c!"BigEcho"] { demo with searchList := .tuple [.other], compilerSettings := .dict true } = .error .tuplePlusList := by decide +kernel

end Cheetah.TemplateArgs
