import Verif.Plumbing
/-
C74: completing a compiled class; what `str(t)` runs.
C75: attributes of a `Template` subclass.
-/
namespace Cheetah.Plumb

/-! ### Specification -/

/-- Where Python looks for the attributes of a class: its own, then those of the classes it is derived from. -/
def firstOf (n : Str) (ds : List Ns) : Option Val := ds.findSome? (·.get n)

/-- The class bodies of a sequence of templates, each extending the one before, over a base
class: in the order in which Python searches them. -/
def bodies (base : List Ns) (ts : List (Str × Ns)) : List Ns := (ts.map (·.2)).reverse ++ base

/-- The marker that keeps a class from being completed is not used. -/
def Unmarked (ds : List Ns) : Prop := firstOf c!"_initCheetahAttributes" ds = none

/-! ### Lemmas -/

theorem lookup_eq (ds : List Ns) (n : Str) : lookup ds n = firstOf n ds := by
  induction ds with
  | nil => rfl
  | cons d ds ih =>
    simp only [lookup, firstOf, List.findSome?_cons, ih]
    cases d.get n <;> rfl

theorem set_get (c : Cls) (n m : Str) (v : Val) : (c.set n v).get m = if m = n then some v else c.get m := by
  simp only [Cls.set, Cls.get, lookup, Dict.get_set]
  by_cases h : m = n <;> simp [h]

theorem addMissing_rest (ns : List Str) (c : Cls) : (addMissing ns c).rest = c.rest ∧ (addMissing ns c).name = c.name := by
  induction ns generalizing c with
  | nil => exact ⟨rfl, rfl⟩
  | cons n ns ih =>
    simp only [addMissing]
    obtain ⟨h1, h2⟩ := ih (if (c.get n).isSome then c else c.set n (.template n))
    rw [h1, h2]
    split <;> exact ⟨rfl, rfl⟩

theorem addMissing_get (ns : List Str) (c : Cls) (m : Str) :
    (addMissing ns c).get m = match c.get m with
      | some v => some v
      | none => if m ∈ ns then some (.template m) else none := by
  induction ns generalizing c with
  | nil => simp [addMissing]; cases c.get m <;> rfl
  | cons n ns ih =>
    simp only [addMissing, ih]
    by_cases hn : (c.get n).isSome
    · simp only [hn, if_true]
      cases hm : c.get m with
      | some v => rfl
      | none =>
        have : m ≠ n := by rintro rfl; rw [hm] at hn; cases hn
        simp [this]
    · simp only [hn, if_false, Bool.false_eq_true, set_get]
      by_cases hm : m = n
      · subst hm
        simp at hn
        simp [hn]
      · simp only [hm, if_false, List.mem_cons, false_or]

theorem addStr_rest (c : Cls) : (addStr c).rest = c.rest ∧ (addStr c).name = c.name := by
  unfold addStr; split <;> exact ⟨rfl, rfl⟩

theorem addStr_get (c : Cls) (m : Str) (h1 : m ≠ c!"__str__") (h2 : m ≠ c!"__unicode__") :
    (addStr c).get m = c.get m := by
  unfold addStr; split
  · rw [set_get, if_neg h2, set_get, if_neg h1]
  · rfl

theorem addStr_str (c : Cls) : (addStr c).get c!"__str__" =
    if c.get c!"__str__" = none ∨ c.get c!"__str__" = some .objectStr then some (strFunction c)
    else c.get c!"__str__" := by
  unfold addStr; split
  · rw [set_get, if_neg (by decide), set_get, if_pos rfl]
  · rfl

theorem plumb_rest (c : Cls) : (plumb c).rest = c.rest := by
  rw [plumb, (addStr_rest _).1, (addMissing_rest _ _).1]

theorem plumb_get (c : Cls) (m : Str) (h1 : m ≠ c!"__str__") (h2 : m ≠ c!"__unicode__") :
    (plumb c).get m = match c.get m with
      | some v => some v
      | none => if m ∈ required then some (.template m) else none := by
  rw [plumb, addStr_get _ _ h1 h2, addMissing_get]

theorem plumb_str (c : Cls) : (plumb c).get c!"__str__" =
    if c.get c!"__str__" = none ∨ c.get c!"__str__" = some .objectStr then some (strFunction (addMissing required c))
    else c.get c!"__str__" := by
  have h : (addMissing required c).get c!"__str__" = c.get c!"__str__" := by
    rw [addMissing_get, if_neg (by decide)]
    cases c.get c!"__str__" <;> rfl
  rw [plumb, addStr_str, h]

theorem install_mro (c : Cls) : (install c).own :: c.rest = (install c).own :: (install c).rest := by
  unfold install; split
  · rfl
  · rw [plumb_rest]

theorem install_get (c : Cls) (m : Str) : lookup ((install c).own :: c.rest) m = (install c).get m := by
  rw [install_mro]; rfl

theorem install_unmarked (c : Cls) (h : firstOf c!"_initCheetahAttributes" (c.own :: c.rest) = none) :
    install c = plumb c := by
  unfold install
  rw [Cls.get, lookup_eq, h]
  simp

/-! ### C74 -/

theorem bodies_cons (base : List Ns) (name : Str) (own : Ns) (ts : List (Str × Ns)) :
    bodies base ((name, own) :: ts) = bodies (own :: base) ts := by
  simp [bodies]

theorem firstOf_append (n : Str) (a b : List Ns) : firstOf n (a ++ b) =
    match firstOf n a with | some v => some v | none => firstOf n b := by
  simp only [firstOf, List.findSome?_append]
  cases List.findSome? (fun x => Dict.get x n) a <;> rfl

/-- Search orders that agree on a name at the end agree on it as a whole. -/
theorem firstOf_bodies (n : Str) (b1 b2 : List Ns) (ts : List (Str × Ns))
    (h : ∀ v, firstOf n b1 = some v → firstOf n b2 = some v) :
    ∀ v, firstOf n (bodies b1 ts) = some v → firstOf n (bodies b2 ts) = some v := by
  intro v hv
  rw [bodies, firstOf_append] at hv ⊢
  revert hv
  cases firstOf n (ts.map (·.2)).reverse with
  | some w => exact id
  | none => exact h v

/-- **C74, nothing is hidden.** Completing the classes of a sequence of templates, each extending
the one before, over any class, changes no attribute that Python finds in their bodies or in the
base class, other than `__str__` and `__unicode__`. -/
theorem C74_nothing_is_hidden (base : List Ns) (ts : List (Str × Ns)) (n : Str) (v : Val)
    (h1 : n ≠ c!"__str__") (h2 : n ≠ c!"__unicode__")
    (h : firstOf n (bodies base ts) = some v) : firstOf n (chain base ts) = some v := by
  induction ts generalizing base with
  | nil => exact h
  | cons t ts ih =>
    obtain ⟨name, own⟩ := t
    rw [chain]
    apply ih
    rw [bodies_cons] at h
    refine firstOf_bodies n (own :: base) _ ts ?_ v h
    intro w hw
    rw [← lookup_eq]
    rw [install_get ⟨name, own, base⟩]
    have hg : (⟨name, own, base⟩ : Cls).get n = some w := by rw [Cls.get, lookup_eq]; exact hw
    unfold install
    split
    · exact hg
    · rw [plumb_get _ _ h1 h2, hg]

/-- **C74, an own `__str__` is kept.** -/
theorem C74_own_str_kept (base : List Ns) (ts : List (Str × Ns)) (v : Val) (hv : v ≠ .objectStr)
    (h : firstOf c!"__str__" (bodies base ts) = some v) : firstOf c!"__str__" (chain base ts) = some v := by
  induction ts generalizing base with
  | nil => exact h
  | cons t ts ih =>
    obtain ⟨name, own⟩ := t
    rw [chain]
    apply ih
    rw [bodies_cons, bodies, firstOf_append] at h
    rw [bodies, firstOf_append]
    cases hc : firstOf c!"__str__" (ts.map (·.2)).reverse with
    | some w => rw [hc] at h; exact h
    | none =>
      rw [hc] at h
      have hg : (⟨name, own, base⟩ : Cls).get c!"__str__" = some v := by rw [Cls.get, lookup_eq]; exact h
      show firstOf _ _ = some v
      rw [← lookup_eq, install_get ⟨name, own, base⟩]
      unfold install
      split
      · exact hg
      · rw [plumb_str, hg, if_neg (by simp [hv])]

/-- What generated code calls on the template, and what templates offer their users. -/
def offered : List Str :=
  [c!"searchList", c!"errorCatcher", c!"getVar", c!"varExists", c!"getFileContents", c!"i18n", c!"runAsMainProgram",
   c!"respond", c!"shutdown", c!"webInput", c!"serverSidePath", c!"generatedClassCode", c!"generatedModuleCode",
   c!"getCacheRegion", c!"getCacheRegions", c!"refreshCache", c!"subclass", c!"_initCheetahInstance", c!"_getCacheStore",
   c!"_getCacheStoreIdPrefix", c!"_createCacheRegion", c!"_handleCheetahInclude",
   c!"_getTemplateAPIClassForIncludeDirectiveCompilation", c!"_CHEETAH_cacheRegionClass", c!"_CHEETAH_cacheStore",
   c!"_CHEETAH_cacheStoreIdPrefix", c!"_CHEETAH_cacheStoreClass"]

/-- **C74, the methods of templates are there.** A template over any class, however derived, has every
method and attribute the generated code needs: that of its bodies or its base class if
they define it, that of `Template` otherwise. -/
theorem C74_required_there (base : List Ns) (ts : List (Str × Ns)) (hts : ts ≠ []) (n : Str)
    (hn : n ∈ offered) (hm : Unmarked (bodies base ts)) :
    ∃ v, firstOf n (chain base ts) = some v ∧
      (firstOf n (bodies base ts) = some v ∨ (firstOf n (bodies base ts) = none ∧ v = .template n)) := by
  replace hn : n ∈ required := (show ∀ x ∈ offered, x ∈ required by decide) n hn
  have hn12 : n ≠ c!"__str__" ∧ n ≠ c!"__unicode__" := by
    constructor <;> (rintro rfl; revert hn; decide)
  cases hb : firstOf n (bodies base ts) with
  | some v => exact ⟨v, C74_nothing_is_hidden base ts n v hn12.1 hn12.2 hb, Or.inl rfl⟩
  | none =>
    refine ⟨.template n, ?_, Or.inr ⟨rfl, rfl⟩⟩
    cases ts with
    | nil => exact absurd rfl hts
    | cons t ts =>
      obtain ⟨name, own⟩ := t
      rw [chain]
      apply C74_nothing_is_hidden _ _ _ _ hn12.1 hn12.2
      have hmk : firstOf c!"_initCheetahAttributes" (own :: base) = none := by
        rw [Unmarked, bodies_cons, bodies, firstOf_append] at hm
        revert hm
        cases firstOf c!"_initCheetahAttributes" (ts.map (·.2)).reverse with
        | some w => intro h; cases h
        | none => exact id
      rw [bodies_cons, bodies, firstOf_append] at hb
      rw [bodies, firstOf_append]
      cases hc : firstOf n (ts.map (·.2)).reverse with
      | some w => rw [hc] at hb; cases hb
      | none =>
        rw [hc] at hb
        show firstOf _ _ = _
        rw [← lookup_eq, install_get ⟨name, own, base⟩]
        rw [install_unmarked _ hmk]
        have hg : (⟨name, own, base⟩ : Cls).get n = none := by rw [Cls.get, lookup_eq]; exact hb
        rw [plumb_get _ _ hn12.1 hn12.2, hg]
        simp [hn]

/-- **C74, what `str` runs, part.** A template is compiled with the main method `main`; its base
class has no `__str__` of its own. Then `str(t)` of an instance of it, or of any template
derived from it, calls the method `main` of `t`: the one of the last template of the sequence that
defines it. Missing: `str(t)` does not call the main method of `t`'s own template when
that has another name (`C74_own_main_method_counterexample`). -/
theorem C74_str_runs_main_partial (base : List Ns) (name main : Str) (own : Ns) (ts : List (Str × Ns))
    (inst : Ns) (body : Val)
    (hbase : firstOf c!"__str__" base = none ∨ firstOf c!"__str__" base = some .objectStr)
    (hstr : ∀ d ∈ own :: ts.map (·.2), d.get c!"__str__" = none)
    (hm : Unmarked (bodies base ((name, own) :: ts)))
    (hmain : own.get (c!"_mainCheetahMethod_for_" ++ name) = some (.text main)) (hne : main ≠ [])
    (h1 : main ≠ c!"__str__") (h2 : main ≠ c!"__unicode__") (hi : inst.get main = none)
    (hbody : firstOf main (bodies base ((name, own) :: ts)) = some body) :
    strCalls ⟨inst, chain base ((name, own) :: ts)⟩ = some body := by
  have hfound := C74_nothing_is_hidden base _ main body h1 h2 hbody
  have hstr' : firstOf c!"__str__" (chain base ((name, own) :: ts)) = some (.strMain main) := by
    rw [chain]
    apply C74_own_str_kept _ _ _ (by simp)
    rw [bodies, firstOf_append]
    have hnone : firstOf c!"__str__" (ts.map (·.2)).reverse = none := by
      rw [firstOf, List.findSome?_eq_none_iff]
      intro d hd
      exact hstr d (by simp at hd ⊢; exact Or.inr hd)
    rw [hnone]
    show firstOf _ _ = _
    rw [← lookup_eq, install_get ⟨name, own, base⟩]
    have hmk : firstOf c!"_initCheetahAttributes" (own :: base) = none := by
      rw [Unmarked, bodies_cons, bodies, firstOf_append] at hm
      revert hm
      cases firstOf c!"_initCheetahAttributes" (ts.map (·.2)).reverse with
      | some w => intro h; cases h
      | none => exact id
    rw [install_unmarked _ hmk]
    have hg : (⟨name, own, base⟩ : Cls).get c!"__str__" = firstOf c!"__str__" base := by
      rw [Cls.get, lookup_eq, firstOf, List.findSome?_cons, hstr own (by simp)]; rfl
    rw [plumb_str, hg, if_pos hbase]
    have hma : (addMissing required ⟨name, own, base⟩).get (mainAttr name) = some (.text main) := by
      rw [addMissing_get]
      have : (⟨name, own, base⟩ : Cls).get (mainAttr name) = some (.text main) := by
        simp only [Cls.get, lookup, mainAttr, hmain]
      rw [this]
    obtain ⟨m, ms, rfl⟩ : ∃ m ms, main = m :: ms := by
      cases main with
      | nil => exact absurd rfl hne
      | cons m ms => exact ⟨m, ms, rfl⟩
    simp only [strFunction, (addMissing_rest _ _).2, hma]
  unfold strCalls
  rw [lookup_eq, hstr']
  show Inst.get _ main = _
  rw [Inst.get, lookup, hi]
  show lookup _ _ = _
  rw [lookup_eq, hfound]

/-! #### Examples -/

/-- `object`. -/
def objectNs : Ns := [(c!"__str__", .objectStr), (c!"__init__", .other 0 true)]
/-- A page template with a main method `respond` calling other methods. -/
def pageNs : Ns := [(c!"respond", .fn 1), (c!"title", .fn 2), (c!"_mainCheetahMethod_for_Page", .text c!"respond")]
/-- A template that redefines one of them, its main method. -/
def newsNs : Ns := [(c!"title", .fn 3), (c!"_mainCheetahMethod_for_News", .text c!"title")]

example : strCalls ⟨[], chain [objectNs] [(c!"Page", pageNs), (c!"News", newsNs)]⟩ = some (.fn 1) :=
  C74_str_runs_main_partial [objectNs] c!"Page" c!"respond" pageNs [(c!"News", newsNs)] [] (.fn 1)
    (by decide) (by decide) (by unfold Unmarked; decide) (by decide) (by decide) (by decide) (by decide) (by decide) (by decide)

example : firstOf c!"searchList" (chain [objectNs] [(c!"Page", pageNs), (c!"News", newsNs)]) = some (.template c!"searchList") := by
  decide +kernel

example : firstOf c!"title" (chain [objectNs] [(c!"Page", pageNs), (c!"News", newsNs)]) = some (.fn 3) :=
  C74_nothing_is_hidden _ _ _ _ (by decide) (by decide) (by decide)

example : strCalls ⟨[], chain [[(c!"__str__", .fn 9)], objectNs] [(c!"Page", pageNs)]⟩ = some (.fn 9) := by
  decide +kernel

/-- `str` of an instance of a derived template does not call that template's main method. -/
theorem C74_own_main_method_counterexample :
    firstOf c!"_mainCheetahMethod_for_News" (chain [objectNs] [(c!"Page", pageNs), (c!"News", newsNs)]) =
      some (.text c!"title") ∧
    firstOf c!"title" (chain [objectNs] [(c!"Page", pageNs), (c!"News", newsNs)]) = some (.fn 3) ∧
    strCalls ⟨[], chain [objectNs] [(c!"Page", pageNs), (c!"News", newsNs)]⟩ = some (.fn 1) := by
  decide +kernel

/-- A class that has lost its main method name, and has no `respond` but `Template`'s: the attribute
set on the instance is called itself, a string. -/
theorem C74_late_main_method_counterexample :
    strCalls ⟨[(c!"_mainCheetahMethod_for_P", .text c!"page")], chain [objectNs] [(c!"P", [(c!"page", .fn 1)])]⟩ =
      some (.text c!"page") := by
  decide +kernel

/-! ### C75 -/

theorem propagate_get (d inst : Ns) (n : Str) :
    (propagate d inst).get n =
      match (d.filter fun kv => kv.2.truth && !startsWith kv.1 c!"__").reverse.find? (fun kv => n = kv.1) with
      | some kv => some kv.2
      | none => inst.get n := by
  induction d generalizing inst with
  | nil => rfl
  | cons x d ih =>
    obtain ⟨k, v⟩ := x
    rw [propagate, ih]
    cases hv : (!v.truth || startsWith k c!"__") with
    | true =>
      have : (v.truth && !startsWith k c!"__") = false := by
        cases h1 : v.truth <;> cases h2 : startsWith k c!"__" <;> simp_all
      simp [this]
    | false =>
      have : (v.truth && !startsWith k c!"__") = true := by
        cases h1 : v.truth <;> cases h2 : startsWith k c!"__" <;> simp_all
      simp only [List.filter_cons, this, if_true, List.reverse_cons, List.find?_append, Bool.false_eq_true, if_false]
      cases hf : (d.filter fun kv => kv.2.truth && !startsWith kv.1 c!"__").reverse.find? (fun kv => n = kv.1) with
      | some kv => simp
      | none =>
        simp only [Option.none_or, List.find?_singleton, Dict.get_set]
        by_cases h : n = k <;> simp [h]

/-- **C75, part.** When an instance of a subclass of `Template` is made from a source, the attributes the subclass
itself defines stay readable under their names, if their value is true and the name does not begin
with two underscores. Missing: the other attributes, and methods are no longer called with
the instance (counterexamples below). -/
theorem C75_attributes_stay_partial (cls : Ns) (hnd : cls.keys.Nodup) (i : Inst) (compiled : List Ns) (n : Str) (v : Val)
    (hv : cls.get n = some v) (ht : v.truth = true) (hu : ¬ c!"__" <+: n) :
    (become false cls i compiled).get n = some v := by
  have hmem := Dict.get_mem cls hv
  have hp : startsWith n c!"__" = false := by
    cases h : startsWith n c!"__" with
    | false => rfl
    | true =>
      exact absurd (by
        unfold startsWith at h
        rw [Option.isSome_iff_exists] at h
        obtain ⟨r, hr⟩ := h
        exact ⟨r, (stripPrefix?_some.1 hr).symm⟩) hu
  have : (propagate cls i.own).get n = some v := by
    rw [propagate_get]
    have huniq : ∀ kv ∈ cls, n = kv.1 → kv = (n, v) := by
      rintro ⟨k, w⟩ hk rfl
      congr 1
      have := Dict.get_of_mem_nodup cls hnd hk
      rw [hv] at this
      exact (Option.some.inj this).symm
    have hin : (n, v) ∈ (cls.filter fun kv => kv.2.truth && !startsWith kv.1 c!"__").reverse := by
      simp [hmem, ht, hp]
    cases hf : (cls.filter fun kv => kv.2.truth && !startsWith kv.1 c!"__").reverse.find? (fun kv => n = kv.1) with
    | none =>
      rw [List.find?_eq_none] at hf
      have := hf _ hin
      simp at this
    | some kv =>
      have h1 := List.find?_some hf
      have h2 := List.mem_of_find?_eq_some hf
      simp at h1 h2
      rw [huniq kv h2.1 h1]
  show lookup (propagate cls i.own :: compiled) n = _
  rw [lookup, this]

/-- The attributes of the compiled template are found unless the subclass has one of the same name, and its methods are called with
the instance. -/
theorem C75_template_attributes (cls : Ns) (i : Inst) (compiled : List Ns) (n : Str)
    (hc : cls.get n = none) (hi : i.own.get n = none) :
    (become false cls i compiled).get n = firstOf n compiled ∧
    ((become false cls i compiled).bound n = true ↔ ∃ v, firstOf n compiled = some v) := by
  have : (propagate cls i.own).get n = none := by
    rw [propagate_get]
    cases hf : (cls.filter fun kv => kv.2.truth && !startsWith kv.1 c!"__").reverse.find? (fun kv => n = kv.1) with
    | none => exact hi
    | some kv =>
      have h1 := List.find?_some hf
      have h2 := List.mem_of_find?_eq_some hf
      simp at h1 h2
      subst h1
      have := (Dict.get_eq_none cls kv.1).1 hc
      exact absurd (List.mem_map_of_mem h2.1) this
  constructor
  · show lookup (propagate cls i.own :: compiled) n = _
    rw [lookup, this]
    exact lookup_eq _ _
  · show (((propagate cls i.own).get n).isNone && (lookup compiled n).isSome) = true ↔ _
    rw [this, lookup_eq]
    simp [Option.isSome_iff_exists]

/-- A subclass of `Template`. -/
def siteNs : Ns := [(c!"color", .text c!"red"), (c!"debug", .other 1 false), (c!"menu", .fn 7), (c!"__call__", .fn 8)]

example : (become false siteNs ⟨[], [siteNs, objectNs]⟩ (chain [objectNs] [(c!"Page", pageNs)])).get c!"color" =
    some (.text c!"red") :=
  C75_attributes_stay_partial siteNs (by decide) _ _ _ _ (by decide) (by decide) (by decide)

/-- An attribute that is false, such as `debug = False`, is lost. -/
theorem C75_false_attribute_counterexample :
    Inst.get ⟨[], [siteNs, objectNs]⟩ c!"debug" = some (.other 1 false) ∧
    (become false siteNs ⟨[], [siteNs, objectNs]⟩ (chain [objectNs] [(c!"Page", pageNs)])).get c!"debug" = none := by
  decide +kernel

/-- An attribute the subclass inherits is lost. -/
theorem C75_inherited_attribute_counterexample :
    Inst.get ⟨[], [[], siteNs, objectNs]⟩ c!"color" = some (.text c!"red") ∧
    (become false [] ⟨[], [[], siteNs, objectNs]⟩ (chain [objectNs] [(c!"Page", pageNs)])).get c!"color" = none := by
  decide +kernel

/-- A method of the subclass is no longer called with the instance. -/
theorem C75_method_without_self_counterexample :
    Inst.bound ⟨[], [siteNs, objectNs]⟩ c!"menu" = true ∧
    (become false siteNs ⟨[], [siteNs, objectNs]⟩ (chain [objectNs] [(c!"Page", pageNs)])).get c!"menu" = some (.fn 7) ∧
    (become false siteNs ⟨[], [siteNs, objectNs]⟩ (chain [objectNs] [(c!"Page", pageNs)])).bound c!"menu" = false := by
  decide +kernel

/-- What the template defines itself is hidden by an attribute of the subclass with the same name. -/
theorem C75_template_hidden_counterexample :
    (become false [(c!"title", .text c!"none")] ⟨[], [[(c!"title", .text c!"none")], objectNs]⟩
      (chain [objectNs] [(c!"Page", pageNs)])).get c!"title" = some (.text c!"none") := by
  decide +kernel

end Cheetah.Plumb
