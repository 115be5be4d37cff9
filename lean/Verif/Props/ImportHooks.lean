import Verif.ImportHooks
import Verif.Props.ModuleName
import Verif.Props.Wrapper
/-
C78: a template is imported by its name.
-/
namespace Cheetah.Imports
open Cheetah.Wrapper (join basename headPart)
open Cheetah.ModuleName (nameSplit packageName)

/-! ### Specification -/

/-- The file names under which Python finds a module `nm` in the directory `d`: the package's first, then the module's. -/
def pythonNames (E : Env) (fs : FS) (d nm : Str) : List Str :=
  (if join d nm ∈ fs.dirs then
    E.exts.map (join (join d nm) c!"__init__" ++ ·) ++
      [join (join d nm) c!"__init__" ++ c!".py", E.pyc (join (join d nm) c!"__init__" ++ c!".py")] else []) ++
  E.exts.map (join d nm ++ ·) ++ [join d nm ++ c!".py", E.pyc (join d nm ++ c!".py")]

/-- There is nothing of that name, neither a file nor a directory. -/
def Missing (fs : FS) (p : Str) : Prop := fs.files.get p = none ∧ p ∉ fs.dirs

/-- There is no Python module `nm` in the directory `d`. -/
def NoPython (E : Env) (fs : FS) (d nm : Str) : Prop := ∀ p ∈ pythonNames E fs d nm, Missing fs p

/-- There is no template `nm` in the directory `d`. -/
def NoTemplate (E : Env) (fs : FS) (d nm : Str) : Prop := ∀ x ∈ E.tmplExts, Missing fs (join d (nm ++ x))

/-- The directory an entry of `sys.path` stands for: the one it stood for when it was first used. -/
def dirOf (s : St) (t : Str) : Option Str :=
  match s.shadow.get t with
  | some o => o
  | none => if (if t = [] then s.fs.cwd else t) ∈ s.fs.dirs then some (if t = [] then s.fs.cwd else t) else none

/-- A dotted name. -/
def dotted (ps : List Str) : Str := joinStr ['.'] ps

/-- Parts of a dotted name. -/
def Parts (ps : List Str) : Prop := ∀ p ∈ ps, p ≠ [] ∧ '.' ∉ p

/-- All packages on the way have been imported. -/
def AllLoaded (s : St) (ps : List Str) : Prop :=
  ∀ qs, qs ≠ [] → qs <+: ps → ∃ m, s.mods.get (dotted qs) = some (some m)

/-- `d` is the directory where `nm` is to be found: the first one on `sys.path` that is not without it, or the
directory of the package `ps`. -/
inductive Reaches (E : Env) (s : St) (nm d : Str) : List Str → Prop
  | path {pre post : List Str} {t : Str} (hb : E.builtin nm = false) (hp : E.path = pre ++ t :: post) (ht : dirOf s t = some d)
      (hpre : ∀ u ∈ pre, ∀ d', dirOf s u = some d' → NoPython E s.fs d' nm ∧ NoTemplate E s.fs d' nm) : Reaches E s nm d []
  | package {ps : List Str} {m : Mod} (hps : ps ≠ []) (hm : s.mods.get (dotted ps) = some (some m)) (hd : m.pkg = some d)
      (hne : d ≠ []) (hdir : d ∈ s.fs.dirs) : Reaches E s nm d ps

/-- `nm` is nowhere: not built in and in no directory of `sys.path`, or not in the directory of the package `ps`. -/
inductive Nowhere (E : Env) (s : St) (nm : Str) : List Str → Prop
  | path (hb : E.builtin nm = false)
      (h : ∀ u ∈ E.path, ∀ d', dirOf s u = some d' → NoPython E s.fs d' nm ∧ NoTemplate E s.fs d' nm) : Nowhere E s nm []
  | package {ps : List Str} {m : Mod} {d : Str} (hps : ps ≠ []) (hm : s.mods.get (dotted ps) = some (some m)) (hd : m.pkg = some d)
      (hne : d ≠ []) (hdir : d ∈ s.fs.dirs) (h : NoPython E s.fs d nm ∧ NoTemplate E s.fs d nm) (ha : (m.uid, nm) ∉ s.attrs) : Nowhere E s nm ps

/-! ### Names -/

theorem dot_unique {a b c d : Str} (ha : '.' ∉ a) (hb : '.' ∉ b) (h : a ++ '.' :: c = b ++ '.' :: d) : a = b ∧ c = d := by
  induction a generalizing b with
  | nil =>
    cases b with
    | nil => exact ⟨rfl, (List.cons.inj h).2⟩
    | cons y b => exact absurd (by rw [← (List.cons.inj h).1]; simp) hb
  | cons x a ih =>
    cases b with
    | nil => exact absurd (by rw [(List.cons.inj h).1]; simp) ha
    | cons y b =>
      obtain ⟨h1, h2⟩ := List.cons.inj h
      simp only [List.mem_cons, not_or] at ha hb
      obtain ⟨e1, e2⟩ := ih ha.2 hb.2 h2
      exact ⟨by rw [h1, e1], e2⟩

theorem dotted_cons (p q : Str) (ps : List Str) : dotted (p :: q :: ps) = p ++ '.' :: dotted (q :: ps) := by
  simp [dotted, joinStr]

theorem dotted_unique {ps qs : List Str} (hp : ∀ p ∈ ps, '.' ∉ p) (hq : ∀ q ∈ qs, '.' ∉ q) (hpn : ps ≠ []) (hqn : qs ≠ [])
    (h : dotted ps = dotted qs) : ps = qs := by
  induction ps generalizing qs with
  | nil => exact absurd rfl hpn
  | cons p ps ih =>
    cases qs with
    | nil => exact absurd rfl hqn
    | cons q qs =>
      have h1 := hp p (by simp)
      have h2 := hq q (by simp)
      cases ps with
      | nil =>
        cases qs with
        | nil => simpa [dotted, joinStr] using h
        | cons q' qs =>
          rw [dotted_cons] at h
          exact absurd (by rw [show p = _ from h]; simp) h1
      | cons p' ps =>
        cases qs with
        | nil =>
          rw [dotted_cons] at h
          exact absurd (by rw [← show _ = q from h]; simp) h2
        | cons q' qs =>
          rw [dotted_cons, dotted_cons] at h
          obtain ⟨e1, e2⟩ := dot_unique h1 h2 h
          rw [e1, ih (fun x hx => hp x (by simp [hx])) (fun x hx => hq x (by simp [hx])) (by simp) (by simp) e2]

theorem dotted_snoc (ps : List Str) (nm : Str) (h : ps ≠ []) : dotted (ps ++ [nm]) = dotted ps ++ '.' :: nm := by
  induction ps with
  | nil => exact absurd rfl h
  | cons p ps ih =>
    cases ps with
    | nil => simp [dotted, joinStr]
    | cons q ps =>
      rw [List.cons_append, List.cons_append, dotted_cons, dotted_cons, ← List.cons_append, ih (by simp)]
      simp

theorem dotted_ne_nil {ps : List Str} (hn : ps ≠ []) (hp : Parts ps) : dotted ps ≠ [] := by
  cases ps with
  | nil => exact absurd rfl hn
  | cons p ps =>
    have := (hp p (by simp)).1
    cases ps with
    | nil => simpa [dotted, joinStr] using this
    | cons q ps => rw [dotted_cons]; simp

theorem dotted_last {ps : List Str} (hn : ps ≠ []) (hp : Parts ps) : (dotted ps).getLast? ≠ some '.' := by
  rcases List.eq_nil_or_concat ps with h | ⟨l, p, h⟩
  · exact absurd h hn
  · subst h
    rw [List.concat_eq_append] at *
    obtain ⟨h1, h2⟩ := hp p (by simp)
    have hl : p.getLast? ≠ some '.' := fun he => h2 (List.mem_of_getLast? he)
    cases l with
    | nil => simpa [dotted, joinStr] using hl
    | cons q l =>
      rw [dotted_snoc _ _ (by simp)]
      intro he
      rw [List.getLast?_append] at he
      cases hp' : p.getLast? with
      | none => simp [List.getLast?_eq_none_iff] at hp'; exact h1 hp'
      | some c =>
        rw [List.getLast?_cons, hp'] at he
        simp at he
        exact hl (by rw [hp', he])

theorem nameSplit_dotted {ps : List Str} (hn : ps ≠ []) (hp : Parts ps) : nameSplit (dotted ps) = ps := by
  have h1 := ModuleName.C54_nameSplit_joins_back (dotted ps) (dotted_last hn hp)
  have h2 := (ModuleName.C54_nameSplit (dotted ps)).1
  have h3 : nameSplit (dotted ps) ≠ [] := by
    intro h
    rw [h] at h1
    exact dotted_ne_nil hn hp h1.symm
  exact dotted_unique h2 (fun p h => (hp p h).2) h3 hn h1

/-! ### Finding -/

theorem exists_missing {fs : FS} {p : Str} (h : Missing fs p) : fs.exists_ p = false := by
  simp [FS.exists_, FS.isDir, h.1, h.2]

theorem probe_missing (E : Env) (fs : FS) (pth : Str) (h1 : ∀ x ∈ E.exts, Missing fs (pth ++ x)) (h2 : Missing fs (pth ++ c!".py"))
    (h3 : Missing fs (E.pyc (pth ++ c!".py"))) : E.probe fs pth = .python none none := by
  unfold Env.probe
  rw [List.find?_eq_none.2 (fun x hx => by rw [exists_missing (h1 x hx)]; simp)]
  simp only [h2.1, h3.1]

theorem pyGetmod_missing {E : Env} {fs : FS} {d nm : Str} (h : NoPython E fs d nm) : E.pyGetmod fs d nm = (fs, .ok none) := by
  unfold Env.pyGetmod places
  have hm : E.probe fs (join d nm) = .python none none :=
    probe_missing _ _ _ (fun x hx => h _ (by simp [pythonNames, hx])) (h _ (by simp [pythonNames])) (h _ (by simp [pythonNames]))
  by_cases hd : join d nm ∈ fs.dirs
  · have hp : E.probe fs (join (join d nm) c!"__init__") = .python none none :=
      probe_missing _ _ _ (fun x hx => h _ (by simp [pythonNames, hx, hd])) (h _ (by simp [pythonNames, hd])) (h _ (by simp [pythonNames, hd]))
    simp [FS.isDir, hd, Env.tryPlaces, hp, hm]
  · simp [FS.isDir, hd, Env.tryPlaces, hm]

theorem tryTemplates_skip {E : Env} {fs : FS} {d nm : Str} (xs ys : List Str) (h : ∀ x ∈ xs, Missing fs (join d (nm ++ x))) :
    E.tryTemplates fs d nm (xs ++ ys) = E.tryTemplates fs d nm ys := by
  induction xs with
  | nil => rfl
  | cons x xs ih =>
    rw [List.cons_append, Env.tryTemplates, exists_missing (h x (by simp))]
    exact ih fun y hy => h y (by simp [hy])

theorem getmod_missing {E : Env} {fs : FS} {d nm : Str} (h1 : NoPython E fs d nm) (h2 : NoTemplate E fs d nm) :
    E.getmod fs d nm = (fs, .ok none) := by
  unfold Env.getmod
  rw [pyGetmod_missing h1]
  simp only
  rw [← List.append_nil E.tmplExts, tryTemplates_skip _ _ h2]
  rfl

theorem owner_dirOf (s : St) (t : Str) :
    (s.owner t).2 = dirOf s t ∧ (s.owner t).1.fs = s.fs ∧ (s.owner t).1.mods = s.mods ∧ (s.owner t).1.attrs = s.attrs ∧
    (s.owner t).1.next = s.next ∧ ∀ u, dirOf (s.owner t).1 u = dirOf s u := by
  unfold St.owner dirOf
  cases h : s.shadow.get t with
  | some o => simp
  | none =>
    refine ⟨by simp [FS.owner, FS.isDir], rfl, rfl, rfl, rfl, fun u => ?_⟩
    simp only
    by_cases hu : u = t
    · subst hu
      rw [Dict.get_set_self, h]
      simp [FS.owner, FS.isDir]
    · rw [Dict.get_set_ne _ _ hu]

/-- Two states that differ at most in the owners remembered, and agree on what they are. -/
def Alike (s s' : St) : Prop :=
  s'.fs = s.fs ∧ s'.mods = s.mods ∧ s'.attrs = s.attrs ∧ s'.next = s.next ∧ ∀ u, dirOf s' u = dirOf s u

theorem pathGetmod_skip (E : Env) (nm : Str) (pre rest : List Str) (s : St)
    (h : ∀ u ∈ pre, ∀ d', dirOf s u = some d' → NoPython E s.fs d' nm ∧ NoTemplate E s.fs d' nm) :
    ∃ s', Alike s s' ∧ E.pathGetmod nm (pre ++ rest) s = E.pathGetmod nm rest s' := by
  induction pre generalizing s with
  | nil => exact ⟨s, ⟨rfl, rfl, rfl, rfl, fun _ => rfl⟩, rfl⟩
  | cons t pre ih =>
    obtain ⟨o1, o2, o3, o4, o5, o6⟩ := owner_dirOf s t
    obtain ⟨s', ⟨a1, a2, a3, a4, a5⟩, hs'⟩ := ih (s.owner t).1 (by
      intro u hu d' hd'
      rw [o6] at hd'
      rw [o2]
      exact h u (by simp [hu]) d' hd')
    refine ⟨s', ⟨a1.trans o2, a2.trans o3, a3.trans o4, a4.trans o5, fun u => (a5 u).trans (o6 u)⟩, ?_⟩
    rw [List.cons_append, Env.pathGetmod]
    rcases hso : s.owner t with ⟨s1, o⟩
    rw [hso] at o1 o2 hs'
    cases o with
    | none => exact hs'
    | some d =>
      obtain ⟨h1, h2⟩ := h t (by simp) d o1.symm
      simp only
      rw [show s1.fs = s.fs from o2, getmod_missing h1 h2]
      simp only
      rw [← show s1.fs = s.fs from o2]
      exact hs'

/-- What the first half of `doimport` comes to where `d` is the directory reached. -/
theorem find_reaches {E : Env} {s : St} {nm d : Str} {ps : List Str} (hr : Reaches E s nm d ps) {fs' : FS} {l : Loaded}
    (hg : E.getmod s.fs d nm = (fs', .ok (some l))) :
    ∃ s', s'.mods = s.mods ∧ s'.fs = fs' ∧ s'.next = s.next ∧
      (∀ fq, E.doimport nm (if ps = [] then none else some (dotted ps)) fq s = E.enter fq l s') := by
  cases hr with
  | @path pre post t hb hp ht hpre =>
    obtain ⟨s1, ⟨a1, a2, a3, a4, a5⟩, hs1⟩ := pathGetmod_skip E nm pre (t :: post) s hpre
    obtain ⟨o1, o2, o3, o4, o5, o6⟩ := owner_dirOf s1 t
    refine ⟨{ (s1.owner t).1 with fs := fs' }, o3.trans a2, rfl, o5.trans a4, fun fq => ?_⟩
    have hf : E.find nm none s = ({ (s1.owner t).1 with fs := fs' }, .ok (some l)) := by
      unfold Env.find
      simp only [hb]
      rw [hp, if_neg (by simp), hs1, Env.pathGetmod]
      rcases hso : s1.owner t with ⟨s2, o⟩
      rw [hso] at o1 o2
      have : o = some d := o1.trans ((a5 t).trans ht)
      subst this
      simp only
      rw [show s2.fs = s.fs from o2.trans a1, hg]
    unfold Env.doimport
    simp only [if_true, hf]
  | @package _ m hps hm hd hne hdir =>
    refine ⟨{ s with fs := fs', attrs := (m.uid, nm) :: s.attrs }, rfl, rfl, rfl, fun fq => ?_⟩
    have hf : E.find nm (some (m, d)) s = ({ s with fs := fs', attrs := (m.uid, nm) :: s.attrs }, .ok (some l)) := by
      unfold Env.find FS.owner
      simp only [if_neg hne, FS.isDir, hdir, decide_true, if_true]
      rw [hg]
    unfold Env.doimport
    simp only [if_neg hps, hm, hd, hf]

theorem find_nowhere {E : Env} {s : St} {nm : Str} {ps : List Str} (hr : Nowhere E s nm ps) :
    ∃ s' : St, s'.mods = s.mods ∧ s'.fs = s.fs ∧ s'.attrs = s.attrs ∧
      (∀ fq, E.doimport nm (if ps = [] then none else some (dotted ps)) fq s = ({ s' with mods := s'.mods.set fq none }, .ok none)) := by
  cases hr with
  | path hb h =>
    obtain ⟨s1, ⟨a1, a2, a3, a4, a5⟩, hs1⟩ := pathGetmod_skip E nm E.path [] s h
    refine ⟨s1, a2, a1, a3, fun fq => ?_⟩
    have hf : E.find nm none s = (s1, .ok none) := by
      unfold Env.find
      simp only [hb]
      rw [if_neg (by simp), ← List.append_nil E.path, hs1]
      rfl
    unfold Env.doimport
    simp only [if_true, hf]
  | @package _ m d hps hm hd hne hdir h ha =>
    refine ⟨s, rfl, rfl, rfl, fun fq => ?_⟩
    have hf : E.find nm (some (m, d)) s = (s, .ok none) := by
      unfold Env.find FS.owner
      simp only [if_neg hne, FS.isDir, hdir, decide_true, if_true]
      rw [getmod_missing h.1 h.2]
    unfold Env.doimport
    simp only [if_neg hps, hm, hd, hf]

/-! ### Walking along the name -/

/-- The context after some parts. -/
def ctxOf (ps : List Str) : Option Str := if ps = [] then none else some (dotted ps)

theorem qual_ctxOf (ps : List Str) (nm : Str) : qual (ctxOf ps) nm = dotted (ps ++ [nm]) := by
  unfold ctxOf
  split
  next h => subst h; simp [qual, dotted, joinStr]
  next h => rw [dotted_snoc _ _ h]; rfl

theorem walk_loaded (E : Env) (s : St) (qs ps rest : List Str) (i : Nat) (h : AllLoaded s (qs ++ ps)) :
    E.walk (ctxOf qs) (ps ++ rest) i s = E.walk (ctxOf (qs ++ ps)) rest (i + ps.length) s := by
  induction ps generalizing qs i with
  | nil => simp
  | cons p ps ih =>
    obtain ⟨m, hm⟩ := h (qs ++ [p]) (by simp) ⟨ps, by simp⟩
    rw [List.cons_append, Env.walk, qual_ctxOf, hm]
    simp only
    have : some (dotted (qs ++ [p])) = ctxOf (qs ++ [p]) := by simp [ctxOf]
    rw [this, ih (qs ++ [p]) (i + 1) (by simpa using h)]
    simp only [List.append_assoc, List.cons_append, List.nil_append, List.length_cons]
    congr 1; omega

theorem contexts_abs (s : St) (name : Str) (imp : Option Str) (h : name ≠ []) : contextsOf s name 0 imp = [none] := by
  unfold contextsOf
  cases imp with
  | none => rfl
  | some g => simp [h]

/-- **C78, imported once.** A name whose packages and module have all been imported gives the module again,
and nothing happens. -/
theorem C78_second_import (E : Env) (s : St) (p : Str) (ps : List Str) (imp : Option Str) (hp : Parts (p :: ps)) (h : AllLoaded s (p :: ps)) :
    ∃ m, s.mods.get p = some (some m) ∧ E.importHook (dotted (p :: ps)) imp none 0 s = (s, .ok (some m)) := by
  obtain ⟨m, hm⟩ := h [p] (by simp) ⟨ps, rfl⟩
  have hm' : s.mods.get p = some (some m) := by simpa [dotted, joinStr] using hm
  refine ⟨m, hm', ?_⟩
  unfold Env.importHook
  rw [contexts_abs _ _ _ (dotted_ne_nil (by simp) hp), nameSplit_dotted (by simp) hp]
  have hw := walk_loaded E s [] (p :: ps) [] 0 (by simpa using h)
  rw [List.append_nil] at hw
  simp only [Env.contexts]
  rw [show (none : Option Str) = ctxOf [] from rfl, hw]
  simp only [Env.walk]
  have : ctxOf [] = none := rfl
  simp only [this, qual, St.module, hm']

/-- How importing the last part of a name ends, once it has been found. -/
theorem import_found (E : Env) (s : St) (ps : List Str) (nm d : Str) (imp : Option Str) (hp : Parts (ps ++ [nm]))
    (hl : AllLoaded s ps) (hnew : s.mods.get (dotted (ps ++ [nm])) = none) (hr : Reaches E s nm d ps) {fs' : FS} {l : Loaded} {code : Str}
    (hg : E.getmod s.fs d nm = (fs', .ok (some l))) (hc : l.code = some code) :
    ∃ m s1, m.code = some code ∧ m.file = l.file ∧ m.pkg = l.pkg ∧ m.orig = l.orig ∧ s1.mods.get (dotted (ps ++ [nm])) = some (some m) ∧ s1.fs = fs' ∧
      (∀ k, k ≠ dotted (ps ++ [nm]) → s1.mods.get k = s.mods.get k) ∧
      E.importHook (dotted (ps ++ [nm])) imp none 0 s =
        match E.exec (dotted (ps ++ [nm])) m s1 with
        | (s2, true) => (s2, .error .run)
        | (s2, false) => (s2, s2.module ((ps ++ [nm]).headD [])) := by
  obtain ⟨s', e1, e2, e3, e4⟩ := find_reaches hr hg
  refine ⟨⟨s'.next, l.file, l.code, l.pkg, l.orig⟩,
    { s' with mods := s'.mods.set (dotted (ps ++ [nm])) (some ⟨s'.next, l.file, l.code, l.pkg, l.orig⟩), next := s'.next + 1 },
    hc, rfl, rfl, rfl, Dict.get_set_self _ _ _, e2, fun k hk => ?_, ?_⟩
  · show (s'.mods.set _ _).get k = _
    rw [Dict.get_set_ne _ _ hk, e1]
  · unfold Env.importHook
    rw [contexts_abs _ _ _ (dotted_ne_nil (by simp) hp), nameSplit_dotted (by simp) hp]
    have hw := walk_loaded E s [] ps [nm] 0 (by simpa using hl)
    rw [List.nil_append] at hw
    simp only [Env.contexts]
    rw [show (none : Option Str) = ctxOf [] from rfl, hw]
    rw [Env.walk, qual_ctxOf, hnew]
    simp only
    rw [show ctxOf ps = if ps = [] then none else some (dotted ps) from rfl, e4]
    unfold Env.enter
    simp only [hc]
    rcases E.exec _ _ _ with ⟨s2, b⟩
    cases b with
    | true => rfl
    | false =>
      simp only [Env.walk]
      cases hps : ps ++ [nm] with
      | nil => simp at hps
      | cons p rest => rfl

/-- **C78, a template is imported.** `import a.b.nm`: the packages have been imported, `nm` has not, `d` is the directory where it is
to be found, which has no Python module `nm`, and `nm ++ x` is the first template there. Then the import enters a module
with the code of that template and no other, runs it, and gives the module that stands first in the name. -/
theorem C78_template_is_imported (E : Env) (s : St) (ps : List Str) (nm d : Str) (imp : Option Str) (hp : Parts (ps ++ [nm]))
    (hl : AllLoaded s ps) (hnew : s.mods.get (dotted (ps ++ [nm])) = none) (hr : Reaches E s nm d ps) (hpy : NoPython E s.fs d nm)
    (xs ys : List Str) (x : Str) (hx : E.tmplExts = xs ++ x :: ys) (hxs : ∀ z ∈ xs, Missing s.fs (join d (nm ++ z)))
    (f : File) (code : Str) (hf : s.fs.files.get (join d (nm ++ x)) = some f) (ht : E.template nm f.data = some code) (hok : E.pyOk code = true) :
    ∃ m s1, m.code = some code ∧ s1.mods.get (dotted (ps ++ [nm])) = some (some m) ∧
      (∀ k, k ≠ dotted (ps ++ [nm]) → s1.mods.get k = s.mods.get k) ∧
      E.importHook (dotted (ps ++ [nm])) imp none 0 s =
        match E.exec (dotted (ps ++ [nm])) m s1 with
        | (s2, true) => (s2, .error .run)
        | (s2, false) => (s2, s2.module ((ps ++ [nm]).headD [])) := by
  have hg : ∃ fs' l, E.getmod s.fs d nm = (fs', .ok (some l)) ∧ l.code = some code := by
    unfold Env.getmod
    rw [pyGetmod_missing hpy]
    simp only
    rw [hx, tryTemplates_skip _ _ hxs, Env.tryTemplates, if_pos (by simp [FS.exists_, hf])]
    unfold Env.compile
    rw [hf]
    simp only [Option.bind_some, ht, hok, if_true]
    exact ⟨_, _, rfl, rfl⟩
  obtain ⟨fs', l, hg, hc⟩ := hg
  obtain ⟨m, s1, h1, _, _, _, h2, _, h3, h4⟩ := import_found E s ps nm d imp hp hl hnew hr hg hc
  exact ⟨m, s1, h1, h2, h3, h4⟩

/-- **C78, Python first.** Where there is a Python source file of that name, its code is what runs, whatever templates there are: provided
its byte code, if not older, is that of the file. -/
theorem C78_python_first (E : Env) (s : St) (ps : List Str) (nm d : Str) (imp : Option Str) (hp : Parts (ps ++ [nm]))
    (hl : AllLoaded s ps) (hnew : s.mods.get (dotted (ps ++ [nm])) = none) (hr : Reaches E s nm d ps)
    (hnp : join d nm ∉ s.fs.dirs) (hne : ∀ x ∈ E.exts, Missing s.fs (join d nm ++ x))
    (f : File) (hf : s.fs.files.get (join d nm ++ c!".py") = some f) (hok : E.pyOk f.data = true)
    (hpyc : ∀ c, s.fs.files.get (E.pyc (join d nm ++ c!".py")) = some c → f.mtime ≤ c.mtime → E.loads c.data = none ∨ E.loads c.data = some f.data) :
    ∃ m s1, m.code = some f.data ∧ s1.mods.get (dotted (ps ++ [nm])) = some (some m) ∧
      (∀ k, k ≠ dotted (ps ++ [nm]) → s1.mods.get k = s.mods.get k) ∧
      E.importHook (dotted (ps ++ [nm])) imp none 0 s =
        match E.exec (dotted (ps ++ [nm])) m s1 with
        | (s2, true) => (s2, .error .run)
        | (s2, false) => (s2, s2.module ((ps ++ [nm]).headD [])) := by
  have hg : ∃ fs' l, E.getmod s.fs d nm = (fs', .ok (some l)) ∧ l.code = some f.data := by
    have hprobe : E.probe s.fs (join d nm) = .python (some f) (s.fs.files.get (E.pyc (join d nm ++ c!".py"))) := by
      unfold Env.probe
      rw [List.find?_eq_none.2 (fun x hx => by rw [exists_missing (hne x hx)]; simp)]
      simp only [hf]
    have : ∃ fs' l, E.pyGetmod s.fs d nm = (fs', .ok (some l)) ∧ l.code = some f.data := by
      unfold Env.pyGetmod places
      simp only [FS.isDir, hnp, decide_false, Bool.false_eq_true, if_false, List.nil_append]
      rw [Env.tryPlaces, hprobe]
      have hsrc : ∃ fs' l, E.source s.fs (join d nm) f none = (fs', .ok (some l)) ∧ l.code = some f.data := by
        unfold Env.source
        simp only [hok, if_true]
        exact ⟨_, _, rfl, rfl⟩
      simp only
      cases hc : s.fs.files.get (E.pyc (join d nm ++ c!".py")) with
      | none => exact hsrc
      | some c =>
        unfold Env.load
        simp only
        split
        · exact hsrc
        · rcases hpyc c hc (by omega) with h | h
          · rw [h]; exact hsrc
          · rw [h]; exact ⟨_, _, rfl, rfl⟩
    obtain ⟨fs', l, h1, h2⟩ := this
    refine ⟨fs', l, ?_, h2⟩
    unfold Env.getmod
    rw [h1]
  obtain ⟨fs', l, hg, hc⟩ := hg
  obtain ⟨m, s1, h1, _, _, _, h2, _, h3, h4⟩ := import_found E s ps nm d imp hp hl hnew hr hg hc
  exact ⟨m, s1, h1, h2, h3, h4⟩

/-- **C78, no such module.** A name that is nowhere is an error that says so, and leaves the table of modules and the files as they were. -/
theorem C78_no_such_module (E : Env) (s : St) (ps : List Str) (nm : Str) (imp : Option Str) (hp : Parts (ps ++ [nm]))
    (hl : AllLoaded s ps) (hnew : s.mods.get (dotted (ps ++ [nm])) = none) (hr : Nowhere E s nm ps) (hn : s.mods.keys.Nodup) :
    ∃ s', E.importHook (dotted (ps ++ [nm])) imp none 0 s = (s', .error (.notFound (dotted (ps ++ [nm])))) ∧
      (∀ k, s'.mods.get k = s.mods.get k) ∧ s'.fs = s.fs := by
  obtain ⟨s', e1, e2, e3, e4⟩ := find_nowhere hr
  refine ⟨{ s' with mods := (s'.mods.set (dotted (ps ++ [nm])) none).del (dotted (ps ++ [nm])) }, ?_, fun k => ?_, e2⟩
  · unfold Env.importHook
    rw [contexts_abs _ _ _ (dotted_ne_nil (by simp) hp), nameSplit_dotted (by simp) hp]
    have hw := walk_loaded E s [] ps [nm] 0 (by simpa using hl)
    rw [List.nil_append] at hw
    simp only [Env.contexts]
    rw [show (none : Option Str) = ctxOf [] from rfl, hw]
    rw [Env.walk, qual_ctxOf, hnew]
    simp only
    rw [show ctxOf ps = if ps = [] then none else some (dotted ps) from rfl, e4]
    simp only [Dict.get_set_self]
    rw [if_neg]
    cases hr with
    | path hb h => simp
    | @package _ m d hps hm hd hne hdir h ha =>
      have hne : dotted ps ≠ dotted (ps ++ [nm]) := by
        rw [dotted_snoc _ _ hps]
        intro he
        exact absurd (congrArg List.length he) (by simp)
      simp only [if_neg hps, Option.any_some, St.hasattr, Nat.zero_add]
      rw [Dict.get_set_ne _ _ hne, e1, hm, e3]
      simp [ha]
  · have hn' : (s'.mods.set (dotted (ps ++ [nm])) none).keys.Nodup := Dict.nodup_set _ _ _ (by rw [e1]; exact hn)
    simp only
    by_cases hk : k = dotted (ps ++ [nm])
    · rw [hk, Dict.get_del _ hn', if_pos rfl, hnew]
    · rw [Dict.get_del_ne _ hk, Dict.get_set_ne _ _ hk, e1]

/-! ### Files -/

/-- Every file stays as it was, byte-code files excepted. -/
def Keeps (fs fs' : FS) : Prop := ∀ p f, ¬ c!".pyc" <:+ p → fs.files.get p = some f → fs'.files.get p = some f

/-- Byte code that is not older than its source is that of its source, or cannot be read. -/
def Fresh (E : Env) (fs : FS) : Prop :=
  ∀ p f c, fs.files.get (p ++ c!".py") = some f → fs.files.get (E.pyc (p ++ c!".py")) = some c → f.mtime ≤ c.mtime →
    E.loads c.data = none ∨ E.loads c.data = some f.data

/-- A name a module can have. -/
def Name (nm : Str) : Prop := nm ≠ [] ∧ '.' ∉ nm ∧ '/' ∉ nm

/-- Suffixes as in `.tmpl`. -/
def Suffixes (E : Env) : Prop := ∀ x ∈ E.tmplExts, ∃ y, x = '.' :: y ∧ '.' ∉ y ∧ '/' ∉ y

theorem basename_split (p : Str) : p = headPart p ++ basename p ∧ '/' ∉ basename p ∧ (headPart p = [] ∨ ∃ y, headPart p = y ++ ['/']) := by
  have : ∃ h, p = h ++ basename p ∧ '/' ∉ basename p ∧ (h = [] ∨ ∃ y, h = y ++ ['/']) := by
    induction p with
    | nil => exact ⟨[], rfl, by simp [basename], Or.inl rfl⟩
    | cons c s ih =>
      obtain ⟨h, h1, h2, h3⟩ := ih
      by_cases hs : '/' ∈ s
      · rw [basename, if_pos hs]
        refine ⟨c :: h, by rw [List.cons_append, ← h1], h2, Or.inr ?_⟩
        rcases h3 with rfl | ⟨y, rfl⟩
        · rw [List.nil_append] at h1; rw [h1] at hs; exact absurd hs h2
        · exact ⟨c :: y, rfl⟩
      · by_cases hc : c = '/'
        · rw [basename, if_neg hs, if_pos hc]
          exact ⟨[c], rfl, hs, Or.inr ⟨[], by rw [hc]; rfl⟩⟩
        · rw [basename, if_neg hs, if_neg hc]
          refine ⟨[], rfl, ?_, Or.inl rfl⟩
          simp only [List.mem_cons, not_or]
          exact ⟨Ne.symm hc, hs⟩
  obtain ⟨h, h1, h2, h3⟩ := this
  have hh : headPart p = h := by
    unfold headPart
    have : p.length - (basename p).length = h.length := by
      have := congrArg List.length h1
      rw [List.length_append] at this
      omega
    rw [this]
    exact h1 ▸ List.take_left' rfl
  rw [hh]
  exact ⟨h1, h2, h3⟩

theorem basename_of {h b : Str} (hb : '/' ∉ b) (hh : h = [] ∨ ∃ y, h = y ++ ['/']) : basename (h ++ b) = b ∧ headPart (h ++ b) = h := by
  have e : basename (h ++ b) = b := by
    rcases hh with rfl | ⟨y, rfl⟩
    · exact Wrapper.basename_noslash hb
    · rw [List.append_assoc]; exact Wrapper.basename_append y b hb
  refine ⟨e, ?_⟩
  unfold headPart
  rw [e]
  simp

/-- The directory as it stands before a name. -/
theorem join_split (d : Str) : ∃ h : Str, (h = [] ∨ ∃ y, h = y ++ ['/']) ∧ ∀ b : Str, b.head? ≠ some '/' → join d b = h ++ b := by
  by_cases hd : d = [] ∨ d.getLast? = some '/'
  · refine ⟨d, ?_, fun b hb => ?_⟩
    · rcases hd with h | h
      · exact Or.inl h
      · obtain ⟨y, hy⟩ := List.getLast?_eq_some_iff.1 h
        exact Or.inr ⟨y, hy⟩
    · rw [join, if_neg hb, if_pos hd]
  · refine ⟨d ++ ['/'], Or.inr ⟨d, rfl⟩, fun b hb => ?_⟩
    rw [join, if_neg hb, if_neg hd]
    simp

theorem head_noslash {b : Str} (h : '/' ∉ b) : b.head? ≠ some '/' := fun he => h (List.mem_of_head? he)

theorem pyc_suffix (E : Env) (p : Str) : c!".pyc" <:+ E.pyc p := ⟨_, rfl⟩

theorem py_not_pyc (p : Str) : ¬ c!".pyc" <:+ p ++ c!".py" := by
  rintro ⟨t, ht⟩
  have : (t ++ c!".pyc").getLast? = (p ++ c!".py").getLast? := by rw [ht]
  simp at this

theorem pyc_injective (E : Env) (htag : '/' ∉ E.tag) {p q : Str} (h : E.pyc (p ++ c!".py") = E.pyc (q ++ c!".py")) : p ++ c!".py" = q ++ c!".py" := by
  have key : ∀ p : Str, ∃ b : Str, '/' ∉ b ∧ basename (p ++ c!".py") = b ++ c!".py" ∧
      basename (E.pyc (p ++ c!".py")) = b ++ c!"." ++ E.tag ++ c!".pyc" ∧ E.pyc (p ++ c!".py") = headPart (p ++ c!".py") ++ c!"__pycache__/" ++ (b ++ c!"." ++ E.tag ++ c!".pyc") := by
    intro p
    obtain ⟨h1, h2, h3⟩ := basename_split p
    obtain ⟨e1, e2⟩ := basename_of (h := headPart p) (b := basename p ++ c!".py") (by simp [h2]) h3
    have e0 : headPart p ++ (basename p ++ c!".py") = p ++ c!".py" := by rw [← List.append_assoc, ← h1]
    rw [e0] at e1 e2
    have e3 : E.pyc (p ++ c!".py") = headPart (p ++ c!".py") ++ c!"__pycache__/" ++ (basename p ++ c!"." ++ E.tag ++ c!".pyc") := by
      unfold Env.pyc
      rw [e1]
      have : (basename p ++ c!".py").take ((basename p ++ c!".py").length - 3) = basename p := by simp
      rw [this]
      simp only [List.append_assoc]
    refine ⟨basename p, h2, e1, ?_, e3⟩
    rw [e3]
    refine (basename_of ?_ (Or.inr ⟨headPart (p ++ c!".py") ++ c!"__pycache__", by simp⟩)).1
    simp [h2, htag]
  obtain ⟨b, _, hb2, hb3, hb4⟩ := key p
  obtain ⟨c, _, hc2, hc3, hc4⟩ := key q
  have hbc : b = c := by
    have : b ++ c!"." ++ E.tag ++ c!".pyc" = c ++ c!"." ++ E.tag ++ c!".pyc" := by rw [← hb3, ← hc3, h]
    simp only [List.append_assoc] at this
    exact List.append_cancel_right this
  subst hbc
  have hh : headPart (p ++ c!".py") = headPart (q ++ c!".py") := by
    have : headPart (p ++ c!".py") ++ c!"__pycache__/" ++ (b ++ c!"." ++ E.tag ++ c!".pyc") = headPart (q ++ c!".py") ++ c!"__pycache__/" ++ (b ++ c!"." ++ E.tag ++ c!".pyc") := by
      rw [← hb4, ← hc4, h]
    exact List.append_cancel_right (List.append_cancel_right this)
  rw [(basename_split (p ++ c!".py")).1, (basename_split (q ++ c!".py")).1, hb2, hc2, hh]

theorem target_eq {E : Env} (hc : E.cacheDirs = []) {d nm x y : Str} (hn : Name nm) (hx : x = '.' :: y) (h1 : '.' ∉ y) (h2 : '/' ∉ y) :
    E.target (join d (nm ++ x)) = join d nm ++ c!".py" := by
  obtain ⟨n1, n2, n3⟩ := hn
  obtain ⟨h, hh, hj⟩ := join_split d
  have hs : '/' ∉ nm ++ x := by simp [hx, n3, h2]
  rw [hj _ (head_noslash hs), hj _ (head_noslash n3)]
  obtain ⟨b1, b2⟩ := basename_of hs hh
  unfold Env.target stem
  rw [hc, b1, b2]
  simp only [List.head?_nil]
  rcases ModuleName.lastDot_split (nm ++ x) with ⟨_, hno⟩ | ⟨k, hk, he, hd⟩
  · exact absurd (by simp [hx]) hno
  · have hk' : k = nm.length := by
      have hspl : (nm ++ x).take k ++ '.' :: (nm ++ x).drop (k + 1) = nm ++ '.' :: y := by rw [← he, hx]
      have hlen := congrArg List.length hspl
      rcases List.append_eq_append_iff.1 hspl with ⟨z, e1, e2⟩ | ⟨z, e1, e2⟩
      · cases z with
        | nil =>
          have := congrArg List.length e1
          have hle : k ≤ (nm ++ x).length := by
            have := congrArg List.length he
            simp only [List.length_append, List.length_cons, List.length_take, List.length_drop] at this
            simp only [List.length_append]
            omega
          simp only [List.length_append, List.length_take, List.length_nil] at this hle
          omega
        | cons c z => exact absurd (by rw [e1, ← (List.cons.inj e2).1]; simp) n2
      · cases z with
        | nil =>
          have := congrArg List.length e1
          have hle : k ≤ (nm ++ x).length := by
            have := congrArg List.length he
            simp only [List.length_append, List.length_cons, List.length_take, List.length_drop] at this
            simp only [List.length_append]
            omega
          simp only [List.length_append, List.length_take, List.length_nil] at this hle
          omega
        | cons c z => exact absurd (by rw [(List.cons.inj e2).2]; simp) h1
    rw [hk, hk']
    have ht : (nm ++ x).take nm.length = nm := by simp
    simp only [ht]
    rw [if_neg]
    intro hall
    cases hnm : nm with
    | nil => exact n1 hnm
    | cons c r =>
      have := List.all_eq_true.1 hall c (by simp [hnm])
      exact n2 (by rw [hnm, eq_of_beq this]; simp)

/-- Where `DirOwner` finds nothing it has changed nothing, and there is no source or byte code of that name. -/
theorem pyGetmod_none {E : Env} {fs fs1 : FS} {d nm : Str} (h : E.pyGetmod fs d nm = (fs1, .ok none)) :
    fs1 = fs ∧ fs.files.get (join d nm ++ c!".py") = none ∧ fs.files.get (E.pyc (join d nm ++ c!".py")) = none := by
  have hsrc : ∀ pth f pkg fs1, E.source fs pth f pkg ≠ (fs1, .ok none) := by
    intro pth f pkg fs1 h
    unfold Env.source at h
    simp only at h
    split at h <;> simp at h
  have hload : ∀ pth py pyc pkg fs1, (py ≠ none ∨ pyc ≠ none) → E.load fs pth py pyc pkg ≠ (fs1, .ok none) := by
    intro pth py pyc pkg fs1 hne h
    unfold Env.load at h
    split at h
    · simp at hne
    · exact hsrc _ _ _ _ h
    · split at h <;> simp at h
    · split at h
      · exact hsrc _ _ _ _ h
      · split at h
        · simp at h
        · exact hsrc _ _ _ _ h
  have hlast : ∀ fs1, E.tryPlaces fs [(join d nm, none)] = (fs1, .ok none) →
      fs1 = fs ∧ fs.files.get (join d nm ++ c!".py") = none ∧ fs.files.get (E.pyc (join d nm ++ c!".py")) = none := by
    intro fs1 h
    rw [Env.tryPlaces] at h
    unfold Env.probe at h
    split at h
    next => simp at h
    next hp =>
      split at hp
      · cases hp
      · obtain ⟨e1, e2⟩ := Found.python.inj hp
        simp only [Env.tryPlaces] at h
        exact ⟨(Prod.mk.inj h).1.symm, e1, e2⟩
    next py pyc hne hp =>
      refine absurd h (hload _ _ _ _ _ ?_)
      cases py with
      | none =>
        cases pyc with
        | none => exact absurd rfl (hne rfl)
        | some c => simp
      | some f => simp
  unfold Env.pyGetmod places at h
  simp only at h
  by_cases hd : fs.isDir (join d nm) = true
  · rw [if_pos hd, List.cons_append, List.nil_append, Env.tryPlaces] at h
    split at h
    next => simp at h
    next => exact hlast _ h
    next py pyc hne hp =>
      refine absurd h (hload _ _ _ _ _ ?_)
      cases py with
      | none =>
        cases pyc with
        | none => exact absurd rfl (hne rfl)
        | some c => simp
      | some f => simp
  · rw [if_neg hd, List.nil_append] at h
    exact hlast _ h

/-- All a search in a directory does to the files. -/
inductive Touches (E : Env) (fs : FS) : FS → Prop
  | nothing : Touches E fs fs
  | pyc {p : Str} {f : File} (h : fs.files.get (p ++ c!".py") = some f) : Touches E fs (fs.write E.now (E.pyc (p ++ c!".py")) (E.dumps f.data))
  | py {p code : Str} (h1 : fs.files.get (p ++ c!".py") = none) (h2 : fs.files.get (E.pyc (p ++ c!".py")) = none) :
      Touches E fs (fs.write E.now (p ++ c!".py") code)
  | both {p code : Str} (h1 : fs.files.get (p ++ c!".py") = none) (h2 : fs.files.get (E.pyc (p ++ c!".py")) = none) :
      Touches E fs ((fs.write E.now (p ++ c!".py") code).write E.now (E.pyc (p ++ c!".py")) (E.dumps code))

theorem pyGetmod_touches (E : Env) (fs : FS) (d nm : Str) : Touches E fs (E.pyGetmod fs d nm).1 := by
  have hsrc : ∀ pth f pkg, fs.files.get (pth ++ c!".py") = some f → Touches E fs (E.source fs pth f pkg).1 := by
    intro pth f pkg h
    unfold Env.source
    simp only
    split
    · simp only
      split
      · exact .pyc h
      · exact .nothing
    · exact .nothing
  have hload : ∀ pth pkg, Touches E fs (E.load fs pth (fs.files.get (pth ++ c!".py")) (fs.files.get (E.pyc (pth ++ c!".py"))) pkg).1 := by
    intro pth pkg
    unfold Env.load
    split
    · exact .nothing
    next h _ => exact hsrc _ _ _ h
    · split <;> exact .nothing
    next h _ =>
      split
      · exact hsrc _ _ _ h
      · split
        · exact .nothing
        · exact hsrc _ _ _ h
  have hpl : ∀ l, Touches E fs (E.tryPlaces fs l).1 := by
    intro l
    induction l with
    | nil => exact .nothing
    | cons x l ih =>
      obtain ⟨pth, pkg⟩ := x
      rw [Env.tryPlaces]
      split
      · exact .nothing
      · exact ih
      next hp =>
        unfold Env.probe at hp
        split at hp
        · cases hp
        · obtain ⟨e1, e2⟩ := Found.python.inj hp
          rw [← e1, ← e2]
          exact hload _ _
  exact hpl _

theorem getmod_touches (E : Env) (fs : FS) (d nm : Str) (hc : E.cacheDirs = []) (hn : Name nm) (hx : Suffixes E) : Touches E fs (E.getmod fs d nm).1 := by
  unfold Env.getmod
  have h0 := pyGetmod_touches E fs d nm
  rcases hg : E.pyGetmod fs d nm with ⟨fs1, r⟩
  rw [hg] at h0
  have key : ∀ l, (∀ x ∈ l, x ∈ E.tmplExts) → fs.files.get (join d nm ++ c!".py") = none → fs.files.get (E.pyc (join d nm ++ c!".py")) = none →
      Touches E fs (E.tryTemplates fs d nm l).1 := by
    intro l hl h1 h2
    induction l with
    | nil => exact .nothing
    | cons x l ih =>
      rw [Env.tryTemplates]
      split
      · obtain ⟨y, y1, y2, y3⟩ := hx x (hl x (by simp))
        have ht := target_eq (E := E) hc (d := d) hn y1 y2 y3
        unfold Env.compile
        split
        · exact .nothing
        next code _ =>
          simp only [ht]
          cases hw : E.writable (join d nm ++ c!".py") with
          | false =>
            simp only [Bool.false_and, Bool.false_eq_true, if_false]
            split <;> exact .nothing
          | true =>
            simp only [Bool.true_and, if_true]
            cases hok : E.pyOk code && E.writable (E.pyc (join d nm ++ c!".py")) with
            | true =>
              simp only [if_true]
              split <;> exact .both h1 h2
            | false =>
              simp only [Bool.false_eq_true, if_false]
              split <;> exact .py h1 h2
      · exact ih fun z hz => hl z (by simp [hz])
  split
  next hh =>
    obtain ⟨rfl, rfl⟩ := Prod.mk.inj hh
    obtain ⟨e1, e2, e3⟩ := pyGetmod_none hg
    subst e1
    exact key _ (fun _ h => h) e2 e3
  · exact h0

theorem touches_keeps {E : Env} {fs fs' : FS} (h : Touches E fs fs') : Keeps fs fs' := by
  intro p f hp hf
  have hpyc : ∀ q, p ≠ E.pyc q := fun q he => hp (he ▸ pyc_suffix E q)
  cases h with
  | nothing => exact hf
  | pyc h =>
    show (fs.files.set _ _).get p = _
    rw [Dict.get_set_ne _ _ (hpyc _)]; exact hf
  | @py q code h1 h2 =>
    have : p ≠ q ++ c!".py" := by rintro rfl; rw [h1] at hf; cases hf
    show (fs.files.set _ _).get p = _
    rw [Dict.get_set_ne _ _ this]; exact hf
  | @both q code h1 h2 =>
    have : p ≠ q ++ c!".py" := by rintro rfl; rw [h1] at hf; cases hf
    show ((fs.files.set _ _).set _ _).get p = _
    rw [Dict.get_set_ne _ _ (hpyc _), Dict.get_set_ne _ _ this]; exact hf

theorem touches_fresh {E : Env} (htag : '/' ∉ E.tag) (hl : ∀ c, E.loads (E.dumps c) = some c) {fs fs' : FS} (h : Touches E fs fs') (hf : Fresh E fs) :
    Fresh E fs' := by
  intro p f c h1 h2 h3
  have hne : ∀ q r, q ++ c!".py" ≠ E.pyc r := fun q r he => py_not_pyc q (he ▸ pyc_suffix E r)
  cases h with
  | nothing => exact hf p f c h1 h2 h3
  | @pyc q g hg =>
    change (fs.files.set _ _).get _ = _ at h1
    change (fs.files.set _ _).get _ = _ at h2
    rw [Dict.get_set_ne _ _ (hne _ _)] at h1
    rw [Dict.get_set] at h2
    split at h2
    next he =>
      have hpq := pyc_injective E htag he
      rw [hpq, hg] at h1
      obtain rfl := Option.some.inj h1
      obtain rfl := Option.some.inj h2
      exact Or.inr (hl _)
    · exact hf p f c h1 h2 h3
  | @py q code g1 g2 =>
    change (fs.files.set _ _).get _ = _ at h1
    change (fs.files.set _ _).get _ = _ at h2
    rw [Dict.get_set_ne _ _ (Ne.symm (hne _ _))] at h2
    rw [Dict.get_set] at h1
    split at h1
    next he => rw [he, g2] at h2; cases h2
    · exact hf p f c h1 h2 h3
  | @both q code g1 g2 =>
    change ((fs.files.set _ _).set _ _).get _ = _ at h1
    change ((fs.files.set _ _).set _ _).get _ = _ at h2
    rw [Dict.get_set_ne _ _ (hne _ _), Dict.get_set] at h1
    rw [Dict.get_set] at h2
    split at h2
    next he =>
      have hpq := pyc_injective E htag he
      rw [if_pos hpq] at h1
      obtain rfl := Option.some.inj h1
      obtain rfl := Option.some.inj h2
      exact Or.inr (hl _)
    next he =>
      rw [Dict.get_set_ne _ _ (Ne.symm (hne _ _))] at h2
      split at h1
      next hpq => rw [hpq] at he; exact absurd rfl he
      · exact hf p f c h1 h2 h3

/-! ### Whole imports -/

section
variable {E : Env} {R : FS → FS → Prop} (refl : ∀ a, R a a) (trans : ∀ a b c, R a b → R b c → R a c)
  (hg : ∀ fs d nm, Name nm → R fs (E.getmod fs d nm).1) (he : ∀ fq m s, R s.fs (E.exec fq m s).1.fs)
include refl trans hg

theorem pathGetmod_rel (nm : Str) (hn : Name nm) (l : List Str) (s : St) : R s.fs (E.pathGetmod nm l s).1.fs := by
  induction l generalizing s with
  | nil => exact refl _
  | cons t l ih =>
    rw [Env.pathGetmod]
    have ho := (owner_dirOf s t).2.1
    rcases hso : s.owner t with ⟨s1, o⟩
    rw [hso] at ho
    cases o with
    | none => simp only; rw [← ho]; exact ih s1
    | some d =>
      simp only
      have h := hg s1.fs d nm hn
      rw [show s1.fs = s.fs from ho] at h ⊢
      rcases hgm : E.getmod s.fs d nm with ⟨fs', r⟩
      rw [hgm] at h
      split
      next hh =>
        obtain ⟨rfl, rfl⟩ := Prod.mk.inj hh
        exact trans _ _ _ h (ih { s1 with fs := _ })
      next hh =>
        obtain ⟨rfl, rfl⟩ := Prod.mk.inj hh
        exact h

theorem find_rel (nm : Str) (hn : Name nm) (parent : Option (Mod × Str)) (s : St) : R s.fs (E.find nm parent s).1.fs := by
  unfold Env.find
  split
  · split
    · exact refl _
    next d _ =>
      have h := hg s.fs d nm hn
      rcases hgm : E.getmod s.fs d nm with ⟨fs', r⟩
      rw [hgm] at h
      split
      next hh => obtain ⟨rfl, rfl⟩ := Prod.mk.inj hh; exact h
      next hh => obtain ⟨rfl, rfl⟩ := Prod.mk.inj hh; exact h
  · split
    · exact refl _
    · exact pathGetmod_rel refl trans hg nm hn _ _

include he

theorem doimport_rel (nm : Str) (hn : Name nm) (parent : Option Str) (fq : Str) (s : St) : R s.fs (E.doimport nm parent fq s).1.fs := by
  have fin : ∀ (r : St × Except Err (Option Loaded)), R s.fs r.1.fs →
      R s.fs (match r with
        | (s, .error e) => ((s, .error e) : St × Except Err (Option Mod))
        | (s, .ok none) => ({ s with mods := s.mods.set fq none }, .ok none)
        | (s, .ok (some l)) => E.enter fq l s).1.fs := by
    rintro ⟨s', r⟩ h
    cases r with
    | error e => exact h
    | ok o =>
      cases o with
      | none => exact h
      | some l =>
        simp only
        unfold Env.enter
        simp only
        split
        · exact h
        next hc =>
          have := he fq ⟨s'.next, l.file, l.code, l.pkg, l.orig⟩
            { s' with mods := s'.mods.set fq (some ⟨s'.next, l.file, l.code, l.pkg, l.orig⟩), next := s'.next + 1 }
          split
          next hx => rw [hx] at this; exact trans _ _ _ h this
          next hx => rw [hx] at this; exact trans _ _ _ h this
  unfold Env.doimport
  simp only
  split
  · exact fin _ (find_rel refl trans hg nm hn _ _)
  · split
    · split
      · exact fin _ (find_rel refl trans hg nm hn _ _)
      · exact refl _
    · exact refl _
    · exact refl _

theorem walk_rel (ps : List Str) (hp : ∀ p ∈ ps, Name p) (ctx : Option Str) (i : Nat) (s : St) : R s.fs (E.walk ctx ps i s).1.fs := by
  induction ps generalizing ctx i s with
  | nil => exact refl _
  | cons nm ps ih =>
    rw [Env.walk]
    split
    · exact ih (fun p h => hp p (by simp [h])) _ _ _
    · exact refl _
    · have h := doimport_rel refl trans hg he nm (hp nm (by simp)) ctx (qual ctx nm) s
      split
      next hx => rw [hx] at h; exact h
      next hx => rw [hx] at h; exact h
      next hx => rw [hx] at h; exact trans _ _ _ h (ih (fun p h => hp p (by simp [h])) _ _ _)

theorem contexts_rel (ps : List Str) (hp : ∀ p ∈ ps, Name p) (cs : List (Option Str)) (s : St) : R s.fs (E.contexts ps cs s).1.fs := by
  induction cs generalizing s with
  | nil => exact refl _
  | cons c cs ih =>
    have h := walk_rel refl trans hg he ps hp c 0 s
    cases cs with
    | nil =>
      rw [Env.contexts]
      split
      next hx => rw [hx] at h; exact h
      next hx => rw [hx] at h; exact h
    | cons c' cs =>
      rw [Env.contexts]
      · split
        next hx => rw [hx] at h; exact h
        next hx =>
          rw [hx] at h
          split
          · exact h
          · exact trans _ _ _ h (ih _)
      · simp

theorem fromLoop_rel (ctx : Str) (l : List Str) (hl : ∀ p ∈ l, Name p) (s : St) : R s.fs (E.fromLoop ctx l s).1.fs := by
  induction l generalizing s with
  | nil => exact refl _
  | cons nm l ih =>
    rw [Env.fromLoop]
    split
    · exact ih (fun p h => hl p (by simp [h])) _
    · have h := doimport_rel refl trans hg he nm (hl nm (by simp)) (some ctx) (qual (some ctx) nm) s
      split
      next hx => rw [hx] at h; exact h
      next hx => rw [hx] at h; exact h
      next hx => rw [hx] at h; exact trans _ _ _ h (ih (fun p h => hl p (by simp [h])) _)

theorem import_rel (name : Str) (imp : Option Str) (fromlist : Option (List Str)) (level : Int) (s : St)
    (hp : ∀ p ∈ nameSplit name, Name p) (hl : ∀ l, fromlist = some l → ∀ p ∈ l, Name p) :
    R s.fs (E.importHook name imp fromlist level s).1.fs := by
  have h := contexts_rel refl trans hg he (nameSplit name) hp (contextsOf s name level imp) s
  unfold Env.importHook
  simp only
  split
  next hx => rw [hx] at h; exact h
  next s' _ _ hx =>
    rw [hx] at h
    split
    · split
      · exact h
      · split <;> exact h
    · split
      · split <;> exact h
      next names =>
        split
        · exact h
        next c _ =>
          split
          · exact h
          · split
            · exact h
            · have h2 := fromLoop_rel refl trans hg he c names (hl names rfl) s'
              split
              next hy => rw [hy] at h2; exact trans _ _ _ h h2
              next hy => rw [hy] at h2; exact trans _ _ _ h h2
end

/-- **C78, importing writes over nothing.** Without a cache directory, an import (absolute or relative, with whatever the
imported modules themselves import) leaves every file as it was, byte code excepted: no Python source and no template is overwritten. -/
theorem C78_files_kept (E : Env) (hc : E.cacheDirs = []) (hx : Suffixes E) (he : ∀ fq m s, Keeps s.fs (E.exec fq m s).1.fs)
    (name : Str) (imp : Option Str) (fromlist : Option (List Str)) (level : Int) (s : St)
    (hp : ∀ p ∈ nameSplit name, Name p) (hl : ∀ l, fromlist = some l → ∀ p ∈ l, Name p) :
    Keeps s.fs (E.importHook name imp fromlist level s).1.fs :=
  import_rel (R := Keeps) (fun _ _ _ _ h => h) (fun _ _ _ h1 h2 p f hp hf => h2 p f hp (h1 p f hp hf))
    (fun fs d nm hn => touches_keeps (getmod_touches E fs d nm hc hn hx)) he name imp fromlist level s hp hl

/-- **C78, byte code stays true.** If byte code that is not older than its source says what its source says, this is still so after an import. -/
theorem C78_byte_code_stays_true (E : Env) (hc : E.cacheDirs = []) (hx : Suffixes E) (htag : '/' ∉ E.tag) (hld : ∀ c, E.loads (E.dumps c) = some c)
    (he : ∀ fq m s, Fresh E s.fs → Fresh E (E.exec fq m s).1.fs)
    (name : Str) (imp : Option Str) (fromlist : Option (List Str)) (level : Int) (s : St)
    (hp : ∀ p ∈ nameSplit name, Name p) (hl : ∀ l, fromlist = some l → ∀ p ∈ l, Name p) (hf : Fresh E s.fs) :
    Fresh E (E.importHook name imp fromlist level s).1.fs :=
  import_rel (R := fun a b => Fresh E a → Fresh E b) (fun _ h => h) (fun _ _ _ h1 h2 h => h2 (h1 h))
    (fun fs d nm hn h => touches_fresh htag hld (getmod_touches E fs d nm hc hn hx) h) he name imp fromlist level s hp hl hf

/-! ### Relative imports -/

/-- The code named `g` (`__name__`) stands in the package `ps`: it is that package, or a module in it that is no package. -/
inductive Within (s : St) (ps : List Str) : Str → Prop
  | package {m : Mod} {d : Str} (hm : s.mods.get (dotted ps) = some (some m)) (hd : m.pkg = some d) : Within s ps (dotted ps)
  | module_ {q : Str} (hq : '.' ∉ q) (hn : ∀ m, s.mods.get (dotted (ps ++ [q])) = some (some m) → m.pkg = none) :
      Within s ps (dotted (ps ++ [q]))

theorem contexts_within {s : St} {ps : List Str} {g name : Str} {level : Int} (hne : ps ≠ []) (hp : Parts ps) (hw : Within s ps g)
    (hr : name = [] ∨ level > 0) : contextsOf s name level (some g) = [ctxOf ps, none] := by
  have hps := dotted_ne_nil hne hp
  have hc : ctxOf ps = some (dotted ps) := by simp [ctxOf, hne]
  rw [hc]
  unfold contextsOf
  cases hw with
  | package hm hd =>
    simp only
    rw [if_pos ⟨hr, hps⟩, hm]
    rename_i m d
    obtain ⟨a, b, c, p, e⟩ := m
    simp only at hd
    subst hd
    rfl
  | module_ hq hn =>
    rename_i q
    have h1 : dotted (ps ++ [q]) = dotted ps ++ '.' :: q := dotted_snoc ps q hne
    have h2 : ModuleName.packageName (dotted (ps ++ [q])) = dotted ps := ((ModuleName.C54_last_dot _).1 _ _ h1 hq).1
    have h3 : dotted (ps ++ [q]) ≠ [] := by rw [h1]; simp
    simp only
    rw [if_pos ⟨hr, h3⟩, h2]
    cases hg : s.mods.get (dotted (ps ++ [q])) with
    | none => simp only [if_pos hps]
    | some o =>
      cases o with
      | none => simp only [if_pos hps]
      | some m =>
        have := hn m hg
        obtain ⟨a, b, c, p, e⟩ := m
        simp only at this
        subst this
        simp only [if_pos hps]

/-- The first template of that name in the directory is what `getmod` gives. -/
theorem getmod_template {E : Env} {fs : FS} {d nm : Str} (hpy : NoPython E fs d nm)
    {xs ys : List Str} {x : Str} (hx : E.tmplExts = xs ++ x :: ys) (hxs : ∀ z ∈ xs, Missing fs (join d (nm ++ z)))
    {f : File} {code : Str} (hf : fs.files.get (join d (nm ++ x)) = some f) (ht : E.template nm f.data = some code) (hok : E.pyOk code = true) :
    ∃ fs' l, E.getmod fs d nm = (fs', .ok (some l)) ∧ l.code = some code ∧ l.pkg = none := by
  unfold Env.getmod
  rw [pyGetmod_missing hpy]
  simp only
  rw [hx, tryTemplates_skip _ _ hxs, Env.tryTemplates, if_pos (by simp [FS.exists_, hf])]
  unfold Env.compile
  rw [hf]
  simp only [Option.bind_some, ht, hok, if_true]
  exact ⟨_, _, rfl, rfl, rfl⟩

/-- **C78, relative imports.** `from .a.b.nm import x`, in code of the package `ps`: where the package `ps.a.b` has been imported, `nm`
has not, and its directory has the template `nm` and no Python module of that name, a module with the template's code is entered under the
full name `ps.a.b.nm`, is run, and is what the import gives. -/
theorem C78_relative_import (E : Env) (s : St) (ps qs : List Str) (nm d g : Str) (names : List Str) (level : Int) (hps : ps ≠ [])
    (hp : Parts (ps ++ qs ++ [nm])) (hw : Within s ps g) (hlev : level > 0)
    (hl : AllLoaded s (ps ++ qs)) (hnew : s.mods.get (dotted (ps ++ qs ++ [nm])) = none) (hr : Reaches E s nm d (ps ++ qs)) (hpy : NoPython E s.fs d nm)
    (xs ys : List Str) (x : Str) (hx : E.tmplExts = xs ++ x :: ys) (hxs : ∀ z ∈ xs, Missing s.fs (join d (nm ++ z)))
    (f : File) (code : Str) (hf : s.fs.files.get (join d (nm ++ x)) = some f) (ht : E.template nm f.data = some code) (hok : E.pyOk code = true) :
    ∃ m s1, m.code = some code ∧ s1.mods.get (dotted (ps ++ qs ++ [nm])) = some (some m) ∧
      (∀ k, k ≠ dotted (ps ++ qs ++ [nm]) → s1.mods.get k = s.mods.get k) ∧
      (∀ s2, E.exec (dotted (ps ++ qs ++ [nm])) m s1 = (s2, true) →
        E.importHook (dotted (qs ++ [nm])) (some g) (some names) level s = (s2, .error .run)) ∧
      (∀ s2, E.exec (dotted (ps ++ qs ++ [nm])) m s1 = (s2, false) → s2.mods.get (dotted (ps ++ qs ++ [nm])) = some (some m) →
        E.importHook (dotted (qs ++ [nm])) (some g) (some names) level s = (s2, .ok (some m))) := by
  obtain ⟨fs', l, hg, hc, hk⟩ := getmod_template hpy hx hxs hf ht hok
  obtain ⟨s', e1, e2, e3, e4⟩ := find_reaches hr hg
  have hpq : ps ++ qs ≠ [] := by simp [hps]
  have hqn : Parts (qs ++ [nm]) := fun p h => hp p (by simp only [List.mem_append] at h ⊢; rcases h with h | h <;> simp [h])
  have hps' : Parts ps := fun p h => hp p (by simp [h])
  refine ⟨⟨s'.next, l.file, l.code, l.pkg, l.orig⟩,
    { s' with mods := s'.mods.set (dotted (ps ++ qs ++ [nm])) (some ⟨s'.next, l.file, l.code, l.pkg, l.orig⟩), next := s'.next + 1 },
    hc, Dict.get_set_self _ _ _, fun k hk => ?_, fun s2 hx2 => ?_, fun s2 hx2 h2 => ?_⟩
  · show (s'.mods.set _ _).get k = _
    rw [Dict.get_set_ne _ _ hk, e1]
  all_goals
    unfold Env.importHook
    rw [contexts_within hps hps' hw (Or.inr hlev), nameSplit_dotted (by simp) hqn]
    have hwk := walk_loaded E s ps qs [nm] 0 hl
    simp only [Env.contexts]
    rw [hwk, Env.walk, qual_ctxOf, hnew]
    simp only
    rw [show ctxOf (ps ++ qs) = if ps ++ qs = [] then none else some (dotted (ps ++ qs)) from rfl, e4]
    unfold Env.enter
    simp only [hc]
    rw [hc] at hx2
    simp only [hx2]
  simp only [Env.walk]
  rw [if_pos (Or.inl (by omega))]
  rw [hc] at h2
  simp only [St.module, h2, Option.bind_some, hk]

/-- **C78, relative imports of nothing.** `from .a.b.nm import x`: where the package `ps.a.b` is there and has no `nm`, the import is refused,
and `a.b.nm` is not looked for elsewhere. -/
theorem C78_relative_no_such_module (E : Env) (s : St) (ps qs : List Str) (nm g : Str) (names : Option (List Str)) (level : Int) (hps : ps ≠ [])
    (hqs : qs ≠ []) (hp : Parts (ps ++ qs ++ [nm])) (hw : Within s ps g) (hlev : level > 0)
    (hl : AllLoaded s (ps ++ qs)) (hnew : s.mods.get (dotted (ps ++ qs ++ [nm])) = none) (hr : Nowhere E s nm (ps ++ qs)) (hn : s.mods.keys.Nodup) :
    ∃ s', E.importHook (dotted (qs ++ [nm])) (some g) names level s = (s', .error (.notFound (dotted (ps ++ qs ++ [nm])))) ∧
      (∀ k, s'.mods.get k = s.mods.get k) ∧ s'.fs = s.fs := by
  obtain ⟨s', e1, e2, e3, e4⟩ := find_nowhere hr
  have hpq : ps ++ qs ≠ [] := by simp [hps]
  have hqn : Parts (qs ++ [nm]) := fun p h => hp p (by simp only [List.mem_append] at h ⊢; rcases h with h | h <;> simp [h])
  have hps' : Parts ps := fun p h => hp p (by simp [h])
  have hql : 0 < qs.length := by
    cases qs with
    | nil => exact absurd rfl hqs
    | cons q qs => simp
  have hne : dotted (ps ++ qs) ≠ dotted (ps ++ qs ++ [nm]) := by
    rw [dotted_snoc _ _ hpq]
    intro he
    exact absurd (congrArg List.length he) (by simp)
  refine ⟨{ s' with mods := (s'.mods.set (dotted (ps ++ qs ++ [nm])) none).del (dotted (ps ++ qs ++ [nm])) }, ?_, fun k => ?_, e2⟩
  · unfold Env.importHook
    rw [contexts_within hps hps' hw (Or.inr hlev), nameSplit_dotted (by simp) hqn]
    have hwk := walk_loaded E s ps qs [nm] 0 hl
    simp only [Env.contexts]
    rw [hwk, Env.walk, qual_ctxOf, hnew]
    simp only
    rw [show ctxOf (ps ++ qs) = if ps ++ qs = [] then none else some (dotted (ps ++ qs)) from rfl, e4]
    simp only
    rw [if_pos (Or.inl (by omega))]
    simp only [Dict.get_set_self]
    rw [if_neg]
    generalize hz : ps ++ qs = zs at hr
    cases hr with
    | path hb h => exact absurd hz hpq
    | @package _ m d hps hm hd hne2 hdir h ha =>
      subst hz
      simp only [if_neg hpq, Option.any_some, St.hasattr, Nat.zero_add]
      rw [Dict.get_set_ne _ _ hne, e1, hm, e3]
      simp [ha]
  · have hn' : (s'.mods.set (dotted (ps ++ qs ++ [nm])) none).keys.Nodup := Dict.nodup_set _ _ _ (by rw [e1]; exact hn)
    simp only
    by_cases hk : k = dotted (ps ++ qs ++ [nm])
    · rw [hk, Dict.get_del _ hn', if_pos rfl, hnew]
    · rw [Dict.get_del_ne _ hk, Dict.get_set_ne _ _ hk, e1]

/-- **C78, `from . import nm`.** In code of the package `ps` this gives the package, after the template `nm` in its directory has been entered
under `ps.nm` and run. -/
theorem C78_from_package_import (E : Env) (s : St) (ps : List Str) (nm d g : Str) (level : Int) (hps : ps ≠ [])
    (hp : Parts (ps ++ [nm])) (hw : Within s ps g) (pm : Mod) (hpm : s.mods.get (dotted ps) = some (some pm)) (hpd : pm.pkg = some d) (hd : d ≠ []) (hdir : d ∈ s.fs.dirs)
    (hat : (pm.uid, nm) ∉ s.attrs) (hpy : NoPython E s.fs d nm)
    (xs ys : List Str) (x : Str) (hx : E.tmplExts = xs ++ x :: ys) (hxs : ∀ z ∈ xs, Missing s.fs (join d (nm ++ z)))
    (f : File) (code : Str) (hf : s.fs.files.get (join d (nm ++ x)) = some f) (ht : E.template nm f.data = some code) (hok : E.pyOk code = true) :
    ∃ m s1, m.code = some code ∧ s1.mods.get (dotted (ps ++ [nm])) = some (some m) ∧
      (∀ k, k ≠ dotted (ps ++ [nm]) → s1.mods.get k = s.mods.get k) ∧
      E.importHook [] (some g) (some [nm]) level s =
        match E.exec (dotted (ps ++ [nm])) m s1 with
        | (s2, true) => (s2, .error .run)
        | (s2, false) => (s2, .ok (some pm)) := by
  obtain ⟨fs', l, hg, hc, hk⟩ := getmod_template hpy hx hxs hf ht hok
  obtain ⟨s', e1, e2, e3, e4⟩ := find_reaches (.package hps hpm hpd hd hdir) hg
  have hps' : Parts ps := fun p h => hp p (by simp [h])
  refine ⟨⟨s'.next, l.file, l.code, l.pkg, l.orig⟩,
    { s' with mods := s'.mods.set (dotted (ps ++ [nm])) (some ⟨s'.next, l.file, l.code, l.pkg, l.orig⟩), next := s'.next + 1 },
    hc, Dict.get_set_self _ _ _, fun k hk => ?_, ?_⟩
  · show (s'.mods.set _ _).get k = _
    rw [Dict.get_set_ne _ _ hk, e1]
  · unfold Env.importHook
    rw [contexts_within hps hps' hw (Or.inl rfl), show ModuleName.nameSplit [] = [] from rfl]
    have hcx : ctxOf ps = some (dotted ps) := by simp [ctxOf, hps]
    simp only [Env.contexts, Env.walk]
    rw [if_pos (Or.inr trivial)]
    simp only [hcx, St.module, hpm, Option.bind_some, hpd, Env.fromLoop]
    have hh : s.hasattr (dotted ps) nm = false := by simp [St.hasattr, hpm, hat]
    have hq : qual (some (dotted ps)) nm = dotted (ps ++ [nm]) := by rw [← hcx]; exact qual_ctxOf ps nm
    have e5 := e4 (dotted (ps ++ [nm]))
    rw [if_neg hps] at e5
    rw [hh, hq, e5]
    unfold Env.enter
    simp only [hc, Bool.false_eq_true, if_false]
    rcases E.exec _ _ _ with ⟨s2, b⟩
    cases b <;> rfl

/-! ### Where the code falls short -/

/-- A world for examples: one directory on `sys.path`; the code of a template is its text; byte code is the code with a mark. -/
def demo (exec : Str → Mod → St → St × Bool) : Env where
  now := 10
  path := [c!"/w"]
  builtin := fun n => n == c!"sys"
  exts := [c!".so"]
  tag := c!"cpython-311"
  pyOk := fun _ => true
  dumps := fun c => 'b' :: c
  loads := fun b => match b with | 'b' :: c => some c | _ => none
  writable := fun _ => true
  tmplExts := [c!".tmpl"]
  template := fun _ t => some t
  cacheDirs := []
  exec := exec

/-- A new process that sees the given files. -/
def start (files : Dict Str File) (dirs : List Str) : St := ⟨⟨files, dirs, c!"/w"⟩, [], [], [], 0⟩

/-- Modules that do nothing when they are run. -/
def quiet : Str → Mod → St → St × Bool := fun _ _ s => (s, false)

/-- **The edited template is not seen.** A template was imported: the search in its directory `d` left the files `files'`. In a new process (`s2`),
whatever the template says by then and however new it is, importing it runs the old code, from the `.py` file written at the first import. -/
theorem C78_edited_template_counterexample (E : Env) (fs : FS) (nm d : Str) (hc : E.cacheDirs = []) (hn : Name nm) (hx : Suffixes E)
    (htag : '/' ∉ E.tag) (hld : ∀ c, E.loads (E.dumps c) = some c) (hw : E.writable (join d nm ++ c!".py") = true)
    (hpy : NoPython E fs d nm) (hnp : join d nm ∉ fs.dirs) (x : Str) (ys : List Str) (hxs : E.tmplExts = x :: ys) (f : File) (code : Str)
    (hf : fs.files.get (join d (nm ++ x)) = some f) (ht : E.template nm f.data = some code) (hok : E.pyOk code = true)
    (hso : ∀ y ∈ E.exts, join d (nm ++ x) ≠ join d nm ++ y ∧ join d nm ++ c!".py" ≠ join d nm ++ y ∧ ¬ c!".pyc" <:+ join d nm ++ y)
    (s2 : St) (ps : List Str) (imp : Option Str) (hp : Parts (ps ++ [nm])) (hl : AllLoaded s2 ps)
    (hnew : s2.mods.get (dotted (ps ++ [nm])) = none) (hr : Reaches E s2 nm d ps) (hdirs : s2.fs.dirs = fs.dirs)
    (hsame : ∀ p, p ≠ join d (nm ++ x) → s2.fs.files.get p = (E.getmod fs d nm).1.files.get p) :
    ∃ m s1, m.code = some code ∧ s1.mods.get (dotted (ps ++ [nm])) = some (some m) ∧
      (∀ k, k ≠ dotted (ps ++ [nm]) → s1.mods.get k = s2.mods.get k) ∧
      E.importHook (dotted (ps ++ [nm])) imp none 0 s2 =
        match E.exec (dotted (ps ++ [nm])) m s1 with
        | (s3, true) => (s3, .error .run)
        | (s3, false) => (s3, s3.module ((ps ++ [nm]).headD [])) := by
  obtain ⟨y, y1, y2, y3⟩ := hx x (by simp [hxs])
  have htg := target_eq (E := E) hc (d := d) hn y1 y2 y3
  have hne1 : join d nm ++ c!".py" ≠ join d (nm ++ x) := by
    intro he
    have := hpy (join d nm ++ c!".py") (by simp [pythonNames])
    rw [he, Missing, hf] at this
    exact absurd this.1 (by simp)
  have hne2 : E.pyc (join d nm ++ c!".py") ≠ join d (nm ++ x) := by
    intro he
    have := hpy (E.pyc (join d nm ++ c!".py")) (by simp [pythonNames])
    rw [he, Missing, hf] at this
    exact absurd this.1 (by simp)
  have hne3 : join d nm ++ c!".py" ≠ E.pyc (join d nm ++ c!".py") := fun he => py_not_pyc _ (he ▸ pyc_suffix E _)
  have hm := hpy (E.pyc (join d nm ++ c!".py")) (by simp [pythonNames])
  have hg : (E.getmod fs d nm).1 =
      if E.writable (E.pyc (join d nm ++ c!".py")) then
        (fs.write E.now (join d nm ++ c!".py") code).write E.now (E.pyc (join d nm ++ c!".py")) (E.dumps code)
      else fs.write E.now (join d nm ++ c!".py") code := by
    unfold Env.getmod
    rw [pyGetmod_missing hpy]
    simp only
    rw [hxs, Env.tryTemplates, if_pos (by simp [FS.exists_, hf])]
    unfold Env.compile
    rw [hf]
    simp only [Option.bind_some, ht, htg, hw, hok, if_true, Bool.true_and]
  have hpyf : s2.fs.files.get (join d nm ++ c!".py") = some ⟨E.now, code⟩ := by
    rw [hsame _ hne1, hg]
    split
    · show ((fs.files.set _ _).set _ _).get _ = _
      rw [Dict.get_set_ne _ _ hne3, Dict.get_set_self]
    · exact Dict.get_set_self _ _ _
  refine C78_python_first E s2 ps nm d imp hp hl hnew hr (hdirs ▸ hnp) (fun z hz => ?_) ⟨E.now, code⟩ hpyf hok (fun c hc' _ => ?_)
  · obtain ⟨z1, z2, z3⟩ := hso z hz
    have hmz := hpy (join d nm ++ z) (by simp [pythonNames, hz])
    refine ⟨?_, hdirs ▸ hmz.2⟩
    rw [hsame _ (Ne.symm z1), hg]
    have z4 : join d nm ++ z ≠ E.pyc (join d nm ++ c!".py") := fun he => z3 (he ▸ pyc_suffix E _)
    split
    · show ((fs.files.set _ _).set _ _).get _ = _
      rw [Dict.get_set_ne _ _ z4, Dict.get_set_ne _ _ (Ne.symm z2)]; exact hmz.1
    · show (fs.files.set _ _).get _ = _
      rw [Dict.get_set_ne _ _ (Ne.symm z2)]; exact hmz.1
  · rw [hsame _ hne2, hg] at hc'
    split at hc'
    · change ((fs.files.set _ _).set _ _).get _ = _ at hc'
      rw [Dict.get_set_self] at hc'
      obtain rfl := Option.some.inj hc'
      exact Or.inr (hld _)
    · change (fs.files.set _ _).get _ = _ at hc'
      rw [Dict.get_set_ne _ _ (Ne.symm hne3), hm.1] at hc'
      cases hc'

example : let E := demo quiet
    let fs : FS := ⟨[(c!"/w/t.tmpl", ⟨1, c!"old"⟩)], [c!"/w"], c!"/w"⟩
    let s2 := start ((E.getmod fs c!"/w" c!"t").1.files.set c!"/w/t.tmpl" ⟨99, c!"new"⟩) [c!"/w"]
    (E.importHook c!"t" none none 0 s2).2 = .ok (some ⟨0, c!"/w/__pycache__/t.cpython-311.pyc", some c!"old", none, none⟩) ∧
    (∀ y ∈ E.exts, join c!"/w" (c!"t" ++ c!".tmpl") ≠ join c!"/w" c!"t" ++ y ∧ join c!"/w" c!"t" ++ c!".py" ≠ join c!"/w" c!"t" ++ y ∧
      (c!".pyc").isSuffixOf (join c!"/w" c!"t" ++ y) = false) := by
  decide +kernel

/-- Byte code written in the same second as an edit of the source, or after a source with an older date was put in its place, is used instead of the source. -/
theorem C78_same_second_counterexample :
    ∃ m, ((demo quiet).importHook c!"t" none none 0 (start
        [(c!"/w/t.py", ⟨7, c!"new"⟩), (c!"/w/__pycache__/t.cpython-311.pyc", ⟨7, c!"bold"⟩)] [c!"/w"])).2 = .ok (some m) ∧
      m.code = some c!"old" := ⟨_, rfl, rfl⟩

/-- A module that raises when it is run stays in `sys.modules`: the second import of it succeeds. -/
theorem C78_broken_module_counterexample (text : Str) :
    let E := demo fun _ _ s => (s, true)
    let r := E.importHook c!"t" none none 0 (start [(c!"/w/t.tmpl", ⟨1, text⟩)] [c!"/w"])
    r.2 = .error .run ∧ ∃ m, (E.importHook c!"t" none none 0 r.1).2 = .ok (some m) ∧ m.code = some text :=
  ⟨rfl, _, rfl, rfl⟩

/-- `import t.x` where `t` is a module and no package is a `KeyError`, which `except ImportError` does not catch. -/
theorem C78_no_package_counterexample (text : Str) :
    ((demo quiet).importHook c!"t.x" none none 0 (start [(c!"/w/t.tmpl", ⟨1, text⟩)] [c!"/w"])).2 = .error (.key c!"t.x") := rfl

/-- Byte code that cannot be read and has no source is a `TypeError`, and a template beside it is not looked for. -/
theorem C78_bad_byte_code_counterexample (text : Str) :
    ((demo quiet).importHook c!"t" none none 0 (start
      [(c!"/w/t.tmpl", ⟨1, text⟩), (c!"/w/__pycache__/t.cpython-311.pyc", ⟨7, c!"?"⟩)] [c!"/w"])).2 = .error .type_ := rfl

/-- The number of dots of a relative import is not used: `from .. import x` is `from . import x`. -/
theorem C78_dots_counterexample (E : Env) (name : Str) (imp : Option Str) (fromlist : Option (List Str)) (s : St) (n : Nat) :
    E.importHook name imp fromlist (n + 1) s = E.importHook name imp fromlist 1 s := by
  have : contextsOf s name (n + 1) imp = contextsOf s name 1 imp := by
    unfold contextsOf
    cases imp with
    | none => rfl
    | some g => simp only [show ((n : Int) + 1 > 0) = True from eq_true (by omega), show ((1 : Int) > 0) = True from eq_true (by omega)]
  unfold Env.importHook
  rw [this]

/-- A directory of `sys.path` that was made after the first import is not seen, ever. -/
theorem C78_late_directory_counterexample (text : Str) :
    let s1 := ((demo quiet).importHook c!"u" none none 0 (start [] [])).1
    ((demo quiet).importHook c!"t" none none 0 { s1 with fs := ⟨[(c!"/w/t.tmpl", ⟨1, text⟩)], [c!"/w"], c!"/w"⟩ }).2 = .error (.notFound c!"t") := rfl

/-- A relative import that was found outside of the package leaves `None` behind, and the template put
into the package later is not found. -/
theorem C78_relative_counterexample :
    let E := demo quiet
    let dirs := [c!"/w", c!"/w/p"]
    let files : Dict Str File := [(c!"/w/p/__init__.py", ⟨1, []⟩), (c!"/w/t.py", ⟨1, c!"one"⟩)]
    let s0 := (E.importHook c!"p" none none 0 (start files dirs)).1
    let s1 := (E.importHook c!"t" (some c!"p") (some []) 1 s0).1
    s1.mods.get c!"p.t" = some none ∧
    (E.importHook c!"p.t" none none 0 { s1 with fs := ⟨s1.fs.files.set c!"/w/p/t.tmpl" ⟨5, c!"two"⟩, dirs, c!"/w"⟩ }).2 =
      .error (.notFound c!"p.t") := by decide +kernel

/-- `from a.b import c`, where `a` is a module with an attribute `b`, gives `a`, not `b`. -/
theorem C78_attribute_counterexample :
    let E := demo fun _ m s => ({ s with attrs := (m.uid, c!"b") :: s.attrs }, false)
    ∃ m, (E.importHook c!"a.b" none (some [c!"c"]) 0 (start [(c!"/w/a.py", ⟨1, c!"b = 1"⟩)] [c!"/w"])).2 = .ok (some m) ∧
      m.file = c!"/w/a.py" := ⟨_, rfl, rfl⟩

/-- Only the first cache directory ever set is used. -/
theorem C78_cache_directory_counterexample (E : Env) (d d' : Str) (ds : List Str) (p : Str) :
    ({ E with cacheDirs := d :: d' :: ds } : Env).target p = ({ E with cacheDirs := [d] } : Env).target p := rfl

/-- After a reload `sys.modules` has another module than those who imported it before. -/
theorem C78_reload_counterexample :
    let E := demo quiet
    let s1 := (E.importHook c!"t" none none 0 (start [(c!"/w/t.py", ⟨1, c!"text"⟩)] [c!"/w"])).1
    let s2 := (E.reload c!"t" s1).1
    ∃ m m', s1.mods.get c!"t" = some (some m) ∧ s2.mods.get c!"t" = some (some m') ∧ m.uid ≠ m'.uid :=
  ⟨⟨0, c!"/w/t.py", some c!"text", none, none⟩, ⟨1, c!"/w/__pycache__/t.cpython-311.pyc", some c!"text", none, none⟩, by decide +kernel, by decide +kernel, by decide⟩

/-! ### The hypotheses are met -/

/-- A package and a template in it, and one beside it. -/
def demoFiles : Dict Str File := [(c!"/w/p/__init__.py", ⟨1, []⟩), (c!"/w/p/t.tmpl", ⟨2, c!"Hello"⟩), (c!"/w/u.tmpl", ⟨2, c!"You"⟩)]

/-- The state after `import p`. -/
def demoState : St := ((demo quiet).importHook c!"p" none none 0 (start demoFiles [c!"/w", c!"/w/p"])).1

example : Reaches (demo quiet) demoState c!"t" c!"/w/p" [c!"p"] ∧ NoPython (demo quiet) demoState.fs c!"/w/p" c!"t" ∧
    demoState.fs.files.get c!"/w/p/t.tmpl" = some ⟨2, c!"Hello"⟩ :=
  ⟨.package (by simp) rfl rfl (by simp) (by decide), by unfold NoPython Missing; decide, rfl⟩

example : Reaches (demo quiet) demoState c!"u" c!"/w" [] ∧ NoPython (demo quiet) demoState.fs c!"/w" c!"u" :=
  ⟨.path (pre := []) (post := []) rfl rfl (by decide) (by simp), by unfold NoPython Missing; decide⟩

example : AllLoaded demoState [c!"p"] ∧ Parts [c!"p", c!"t"] := by
  refine ⟨?_, by unfold Parts; decide⟩
  intro qs hq hp
  obtain ⟨t, ht⟩ := hp
  cases qs with
  | nil => exact absurd rfl hq
  | cons q qs =>
    obtain ⟨rfl, h⟩ := List.cons.inj ht
    have : qs = [] := (List.append_eq_nil_iff.1 h).1
    subst this
    exact ⟨_, rfl⟩

example : Within demoState [c!"p"] c!"p" ∧ Within demoState [c!"p"] c!"p.page" :=
  ⟨.package (m := ⟨0, c!"/w/p/__init__.py", some [], some c!"/w/p", none⟩) rfl rfl, .module_ (q := c!"page") (by decide) (by intro m h; cases h)⟩

/-- In `p`, `from .t import x` and `from . import t` import the template `p.t`. -/
example : (((demo quiet).importHook c!"t" (some c!"p.page") (some [c!"x"]) 1 demoState).1.mods.get c!"p.t").isSome ∧
    (((demo quiet).importHook [] (some c!"p") (some [c!"t"]) 1 demoState).1.mods.get c!"p.t").isSome := ⟨rfl, rfl⟩

example : Nowhere (demo quiet) demoState c!"v" [] := by
  refine .path rfl ?_
  intro u hu d hd
  simp [demo] at hu
  subst hu
  have : d = c!"/w" := by
    have h : dirOf demoState c!"/w" = some c!"/w" := by decide
    rw [h] at hd
    exact (Option.some.inj hd).symm
  subst this
  exact ⟨by unfold NoPython Missing; decide, by unfold NoTemplate Missing; decide⟩

example : Suffixes (demo quiet) ∧ (∀ fq m s, Keeps s.fs ((demo quiet).exec fq m s).1.fs) ∧ (∀ c, (demo quiet).loads ((demo quiet).dumps c) = some c) :=
  ⟨fun x hx => ⟨c!"tmpl", by simpa [demo] using hx, by decide, by decide⟩, fun _ _ _ _ _ _ h => h, fun _ => rfl⟩

example : Fresh (demo quiet) (start demoFiles [c!"/w", c!"/w/p"]).fs := by
  intro p f c h1 h2 h3
  exfalso
  have hm := Dict.get_mem _ h2
  have hs := pyc_suffix (demo quiet) (p ++ c!".py")
  simp only [start, demoFiles, List.mem_cons, Prod.mk.injEq, List.not_mem_nil, or_false] at hm
  rcases hm with ⟨h, _⟩ | ⟨h, _⟩ | ⟨h, _⟩ <;> rw [h, ← List.isSuffixOf_iff_suffix] at hs <;> exact absurd hs (by decide)

end Cheetah.Imports
