import Verif.Template
import Verif.Props.NameMapper
/-
Properties C09 (getVar/varExists), C10 (search list of a template), C58 (#include).
-/
namespace Cheetah.Template
open Cheetah.NameMapper
variable {Obj σ : Type}

/-! ### C09 -/

/-- **C09.** `getVar` on success returns the looked-up value; on NotFound the
default if one was given, else NotFound; any other exception is passed on.
`varExists` is True, False, or that other exception, in the same cases. -/
theorem C09_getVar_varExists (w : World Obj σ) (s : σ) (t : Inst Obj) (name : Str)
    (d : Option Obj) (ac : Bool) :
    let r := valueFromSearchList w ac s t.searchList (stripDollar name)
    (∀ v, r.val = .ok v → (getVar w s t name d ac).val = .ok v ∧ varExists w s t name ac = .ok true) ∧
    (∀ m, r.val = .error (.notFound m) →
      (getVar w s t name d ac).val = (match d with | some x => .ok x | none => .error (.notFound m)) ∧
      varExists w s t name ac = .ok false) ∧
    (∀ e, r.val = .error e → (∀ m, e ≠ .notFound m) →
      (getVar w s t name d ac).val = .error e ∧ varExists w s t name ac = .error e) ∧
    (getVar w s t name d ac).calls = r.calls ∧ (getVar w s t name d ac).st = r.st := by
  intro r
  refine ⟨?_, ?_, ?_, ?_, ?_⟩
  · intro v h
    have h' : (valueFromSearchList w ac s t.searchList (stripDollar name)).val = .ok v := h
    simp [getVar, varExists, h']
  · intro m h
    have h' : (valueFromSearchList w ac s t.searchList (stripDollar name)).val =
      .error (.notFound m) := h
    cases d <;> simp [getVar, varExists, h']
  · intro e h hne
    have h' : (valueFromSearchList w ac s t.searchList (stripDollar name)).val = .error e := h
    cases e <;> simp [getVar, varExists, h'] at hne ⊢
  · simp only [getVar]; split <;> rfl
  · simp only [getVar]; split <;> rfl

/-- **C09, dollar signs.** `getVar('$a.$b')` is `getVar('a.b')`: the name may be
given with or without `$`s. -/
theorem C09_dollar_irrelevant (w : World Obj σ) (s : σ) (t : Inst Obj) (n m : Str)
    (d : Option Obj) (ac : Bool) (h : n.filter (· ≠ '$') = m.filter (· ≠ '$')) :
    getVar w s t n d ac = getVar w s t m d ac ∧ varExists w s t n ac = varExists w s t m ac := by
  unfold getVar varExists stripDollar; rw [h]; exact ⟨rfl, rfl⟩

/-- **C09, agreement.** When attribute reads raise only AttributeError and calls
succeed: `varExists` is True iff `getVar` without default returns, False iff it
raises NotFound, and `getVar` with a default never raises. -/
theorem C09_exists_iff (w : World Obj σ) (hb : Benign w) (hc : CallsSucceed w) (s : σ)
    (t : Inst Obj) (name : Str) (ac : Bool) :
    (varExists w s t name ac = .ok true ↔ ∃ v, (getVar w s t name none ac).val = .ok v) ∧
    (varExists w s t name ac = .ok false ↔
      ∃ m, (getVar w s t name none ac).val = .error (.notFound m)) ∧
    (varExists w s t name ac = .ok true ∨ varExists w s t name ac = .ok false) ∧
    (∀ d, ∃ v, (getVar w s t name (some d) ac).val = .ok v) := by
  have h3 : (∃ v, (valueFromSearchList w ac s t.searchList (stripDollar name)).val = .ok v) ∨
      (∃ m, (valueFromSearchList w ac s t.searchList (stripDollar name)).val =
        .error (.notFound m)) := by
    rcases C03_value_or_notFound w hb hc ac s t.searchList (stripDollar name) with
      ⟨_, h⟩ | ⟨_, _, _, _, _, _, ⟨v, _, _, _, _, h⟩ | ⟨k, _, h⟩⟩
    · exact Or.inr ⟨_, h⟩
    · exact Or.inl ⟨v, by rw [h]⟩
    · exact Or.inr ⟨_, h⟩
  rcases h3 with ⟨v, h⟩ | ⟨m, h⟩ <;> simp [varExists, getVar, h]

example : (getVar exWorld.toWorld 0 ⟨1, 0, [0, 1]⟩ c!"$a.$b" (some 8) true).val = .ok 3 ∧
    (getVar exWorld.toWorld 0 ⟨1, 0, [0, 1]⟩ c!"$a.z" (some 8) true).val = .ok 8 ∧
    varExists exWorld.toWorld 0 ⟨1, 0, [0, 1]⟩ c!"nope" true = .ok false := ⟨rfl, rfl, rfl⟩

/-! ### C10 -/

/-- **C10, composition.** For a template created directly, the search order is:
`#set global` variables, the template itself, then the caller's namespaces in
the order given — or, with `prioritizeSearchListOverSelf`, the caller's
namespaces first.  It does not matter whether they were passed as `searchList`
or `namespaces`, as a list or (if there is one) bare. -/
theorem C10_search_order (self newDict : Obj) (a : InitArgs Obj) (i : Inst Obj)
    (hpre : a.preBuilt = none) (h : initInstance self newDict a = .ok i) :
    i.self = self ∧ i.globalSetVars = a.globalSetVars.getD newDict ∧
    (a.searchList = .absent ∨ a.namespaces = .absent) ∧
    i.searchList =
      if a.prioritize then a.searchList.items ++ a.namespaces.items ++ [i.globalSetVars, self]
      else [i.globalSetVars, self] ++ a.searchList.items ++ a.namespaces.items := by
  obtain ⟨sl, ns, pr, g, pb⟩ := a
  subst hpre
  cases sl <;> cases ns <;> cases pr <;>
    simp [initInstance, bind, Except.bind, pure, Except.pure, throw, throwThe,
      MonadExceptOf.throw, SLArg.items] at h ⊢ <;> (subst h; simp)

/-- **C10, success.** The constructor fails only when both arguments are given,
or for a tuple with `prioritizeSearchListOverSelf`. -/
theorem C10_init_fails_iff (self newDict : Obj) (a : InitArgs Obj) (hpre : a.preBuilt = none) :
    (∃ e, initInstance self newDict a = .error e) ↔
      (a.searchList ≠ .absent ∧ a.namespaces ≠ .absent) ∨
      (a.prioritize = true ∧ ∃ xs, a.searchList = .tuple xs ∨ a.namespaces = .tuple xs) := by
  obtain ⟨sl, ns, pr, g, pb⟩ := a
  subst hpre
  cases sl <;> cases ns <;> cases pr <;>
    simp [initInstance, bind, Except.bind, pure, Except.pure, throw, throwThe,
      MonadExceptOf.throw]

/-- **C10, includes.** Through any chain of nested includes, the innermost
template's search list is the outer one's followed by the included templates,
outermost first, and the `#set global` dictionary is the same object. -/
theorem C10_include_chain (outer : Inst Obj) (newDict : Obj) (ts : List Obj) :
    ∃ i, nestedChain outer newDict ts = .ok i ∧
      i.searchList = outer.searchList ++ ts ∧ i.globalSetVars = outer.globalSetVars := by
  induction ts generalizing outer with
  | nil => exact ⟨outer, rfl, by simp, rfl⟩
  | cons t ts ih =>
    obtain ⟨i, h1, h2, h3⟩ := ih ⟨t, outer.globalSetVars, outer.searchList ++ [t]⟩
    exact ⟨i, h1, by simp [h2], h3⟩

/-- **C10, names in an included template.** A name whose first component the
including template can see means the same thing inside the included one, at
any nesting depth: included templates never shadow it. -/
theorem C10_include_sees_outer (w : World Obj σ) (ac : Bool) (s : σ) (outer i : Inst Obj)
    (newDict : Obj) (ts : List Obj) (name : Str)
    (h : nestedChain outer newDict ts = .ok i)
    (pre : List Obj) (ns : Obj) (post : List Obj) (hsl : outer.searchList = pre ++ ns :: post)
    (hpre : ∀ n ∈ pre, Lacks w s n (head name))
    (hns : Has w s ns (head name)) :
    valueFromSearchList w ac s i.searchList name =
      valueFromSearchList w ac s outer.searchList name := by
  obtain ⟨i', h1, h2, _⟩ := C10_include_chain outer newDict ts
  rw [h] at h1; cases h1
  rw [h2, hsl, C01_first_namespace_wins w ac s pre ns post name hpre hns,
    show pre ++ ns :: post ++ ts = pre ++ ns :: (post ++ ts) by simp,
    C01_first_namespace_wins w ac s pre ns _ name hpre hns]

/-- **C10, `#set global`.** Setting a global in an included template (a mapping
item of the shared dictionary) is seen by every template of the chain, and
shadows every other namespace (without `prioritizeSearchListOverSelf`). -/
theorem C10_set_global_visible (w : World Obj σ) (s : σ) (self newDict : Obj) (a : InitArgs Obj)
    (outer i : Inst Obj) (ts : List Obj) (k : Str) (v : Obj)
    (hpre : a.preBuilt = none) (hprio : a.prioritize = false)
    (hinit : initInstance self newDict a = .ok outer)
    (h : nestedChain outer newDict ts = .ok i)
    (hk : '.' ∉ k)
    (hmap : w.isMapping i.globalSetVars = true) (hset : w.item s i.globalSetVars k = some v) :
    (valueFromSearchList w false s outer.searchList k).val = .ok v ∧
    (valueFromSearchList w false s i.searchList k).val = .ok v := by
  obtain ⟨_, _, _, h4⟩ := C10_search_order self newDict a outer hpre hinit
  obtain ⟨i', h1, h2, h3⟩ := C10_include_chain outer newDict ts
  rw [h] at h1; cases h1
  rw [h3] at hmap hset
  have hsp : splitCh '.' k = [k] := splitCh_of_not_mem hk
  have hf : head k = k := by rw [← firstChunk_eq]; simp [firstChunk, hsp]
  have key : ∀ rest, (valueFromSearchList w false s (outer.globalSetVars :: rest) k).val = .ok v := by
    intro rest
    have hh : Has w s outer.globalSetVars (head k) := by
      rw [hf]; exact ⟨v, .key hmap hset⟩
    have := C01_first_namespace_wins w false s [] outer.globalSetVars rest k (by simp) hh
    rw [List.nil_append] at this
    rw [this]
    simp [valueForName', hsp, valueForChunks, nextObj, hmap, hset, autocall]
  rw [hprio] at h4
  rw [h2, h4]
  exact ⟨key _, key _⟩

/-- **C10, initialising twice** changes nothing. -/
theorem C10_init_idempotent (i : Inst Obj) (self newDict : Obj) (a : InitArgs Obj) :
    initOnce (some i) self newDict a = .ok i := rfl

example : ∃ i, initInstance 5 6 ⟨.list [0, 1], .absent, false, none, none⟩ = .ok i ∧
    i.searchList = [6, 5, 0, 1] ∧
    (nestedChain i 6 [7, 8]).map (·.searchList) = .ok [6, 5, 0, 1, 7, 8] :=
  ⟨_, rfl, rfl, rfl⟩
example : initInstance 5 6 ⟨.tuple [0, 1], .absent, true, none, none⟩ = .error .typeError := rfl
-- Hypotheses of `C10_set_global_visible`: the dict is object 0 of `exWorld`.
example : exWorld.isMapping 0 = true ∧ exWorld.item 0 0 c!"a" = some 1 ∧ '.' ∉ c!"a" := by decide

/-! ### C58 -/

variable {T φ : Type}

/-- A history of includes by one template instance, each in its own environment
(files may change in between). -/
def runIncludes (initF : φ) : IncCache T φ → List (IncEnv T × Str × Bool × Bool) →
    List (IncEff T φ) × IncCache T φ
  | c, [] => ([], c)
  | c, (env, src, fromFile, raw) :: rest =>
    let (e, c') := handleInclude env initF c src fromFile raw
    let (es, c'') := runIncludes initF c' rest
    (e :: es, c'')

theorem handleInclude_cached (initF : φ) (c : IncCache T φ) (k : Str) (e : Inc T φ)
    (h : c.find k = some e) (env : IncEnv T) (src : Str) (ff raw : Bool) :
    (handleInclude env initF c src ff raw).2.find k = some e := by
  unfold handleInclude IncCache.find at *
  cases hs : List.lookup src c with
  | some e' => simpa using h
  | none =>
    simp only [List.lookup]
    by_cases hk : k = src
    · subst hk; rw [hs] at h; cases h
    · rw [beq_eq_false_iff_ne.2 hk]; exact h

theorem runIncludes_cached (initF : φ) (k : Str) (e : Inc T φ)
    (hist : List (IncEnv T × Str × Bool × Bool)) :
    ∀ c : IncCache T φ, c.find k = some e → (runIncludes initF c hist).2.find k = some e := by
  induction hist with
  | nil => intro c h; exact h
  | cons x rest ih =>
    obtain ⟨env, src, ff, raw⟩ := x
    intro c h
    exact ih _ (handleInclude_cached initF c k e h env src ff raw)

/-- **C58, snapshot.** An include of `src` repeated later in the same instance,
after any other includes and any changes of the files, renders what the first
include compiled (or, raw, writes what it read) — files are read once. -/
theorem C58_include_snapshot (initF : φ) (c : IncCache T φ) (src : Str) (ff ff' raw : Bool)
    (env env' : IncEnv T) (hist : List (IncEnv T × Str × Bool × Bool))
    (hfresh : c.find src = none) :
    let r := handleInclude env initF c src ff raw
    let r' := handleInclude env' initF (runIncludes initF r.2 hist).2 src ff' raw
    r'.1 = r.1 ∧
    (raw = false → r.1 = .respond (env.compile src) initF) ∧
    (raw = true → ff = true → r.1 = .write (env.readFile src)) ∧
    (raw = true → ff = false → r.1 = .write src) := by
  intro r r'
  have h0 : ∃ e, (r.2).find src = some e ∧
      r.1 = (match raw, e with
        | false, .tmpl t _ f => .respond t f
        | false, .text _ => .attributeError
        | true, .text s => .write s
        | true, .tmpl .. => .writeTemplate) := by
    refine ⟨if raw then (if ff then Inc.text (env.readFile src) else .text src)
        else .tmpl (env.compile src) initF initF, ?_, ?_⟩
    · show (handleInclude env initF c src ff raw).2.find src = _
      simp only [handleInclude, hfresh]
      simp [IncCache.find, List.lookup]
    · show (handleInclude env initF c src ff raw).1 = _
      simp only [handleInclude, hfresh]
      cases raw <;> cases ff <;> rfl
  obtain ⟨e, h1, h2⟩ := h0
  have h3 := runIncludes_cached initF src e hist r.2 h1
  refine ⟨?_, ?_, ?_, ?_⟩
  · rw [h2]
    show (handleInclude env' initF _ src ff' raw).1 = _
    simp only [handleInclude, h3]
    cases raw <;> cases e <;> rfl
  · intro hr
    show (handleInclude env initF c src ff raw).1 = _
    simp [handleInclude, hfresh, hr]
  · intro hr hf
    show (handleInclude env initF c src ff raw).1 = _
    simp [handleInclude, hfresh, hr, hf]
  · intro hr hf
    show (handleInclude env initF c src ff raw).1 = _
    simp [handleInclude, hfresh, hr, hf]

/-- **C58, filter.** Every template ever rendered by an `#include` of this instance
is rendered with the including template's initial filter (so `filter='WebSafe'`
on the outer template reaches all of them), whatever the history. -/
theorem C58_initial_filter (initF : φ) (hist : List (IncEnv T × Str × Bool × Bool)) :
    ∀ (c : IncCache T φ), (∀ k t f g, (k, Inc.tmpl t f g) ∈ c → f = initF ∧ g = initF) →
    ∀ t f, IncEff.respond t f ∈ (runIncludes initF c hist).1 → f = initF := by
  induction hist with
  | nil => intro c _ t f h; simp [runIncludes] at h
  | cons x rest ih =>
    obtain ⟨env, src, ff, raw⟩ := x
    intro c hc t f h
    simp only [runIncludes, List.mem_cons] at h
    have hc' : ∀ k t f g, (k, Inc.tmpl t f g) ∈ (handleInclude env initF c src ff raw).2 →
        f = initF ∧ g = initF := by
      intro k t f g hm
      unfold handleInclude at hm
      cases hs : c.find src with
      | some e => simp only [hs] at hm; exact hc k t f g hm
      | none =>
        simp only [hs, List.mem_cons] at hm
        rcases hm with hm | hm
        · cases raw <;> cases ff <;> simp at hm <;> exact ⟨hm.2.2.1, hm.2.2.2⟩
        · exact hc k t f g hm
    rcases h with h | h
    · unfold handleInclude at h
      cases hs : c.find src with
      | some e =>
        simp only [hs] at h
        cases raw <;> cases e <;> simp at h
        rename_i t0 f0 g0
        have : (src, Inc.tmpl t0 f0 g0) ∈ c := by
          have : ∀ (l : List (Str × Inc T φ)) e, List.lookup src l = some e → (src, e) ∈ l := by
            intro l
            induction l with
            | nil => intro e h; simp [List.lookup] at h
            | cons y ys ih =>
              obtain ⟨k, v⟩ := y
              intro e h
              simp only [List.lookup] at h
              split at h
              · next hk => simp at hk; cases h; simp [hk]
              · exact List.mem_cons_of_mem _ (ih e h)
          exact this c _ hs
        rw [h.2]; exact (hc _ _ _ _ this).2
      | none =>
        simp only [hs] at h
        cases raw <;> cases ff <;> simp at h <;> exact h.2
    · exact ih _ hc' t f h

/-- Finding: the cache key is the argument alone, so after a raw include of `src`
a normal include of the same argument in the same instance fails with
AttributeError (a `str` has no `respond`). -/
theorem C58_raw_then_parsed_counterexample :
    ∃ (env : IncEnv Nat),
      (handleInclude env 'F' (handleInclude env 'F' [] c!"a.txt" true true).2
        c!"a.txt" true false).1 = .attributeError ∧
      (handleInclude env 'F' [] c!"a.txt" true false).1 = .respond 7 'F' :=
  ⟨⟨fun _ => 7, fun _ => c!"hi"⟩, rfl, rfl⟩

example : (handleInclude (⟨fun _ => 7, fun _ => c!"hi"⟩ : IncEnv Nat) 'F' [] c!"a" true true).1 =
    .write c!"hi" := rfl

end Cheetah.Template
