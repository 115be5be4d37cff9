import Verif.LoadPath
import Verif.Props.Wrapper
import Verif.Props.ModuleName
/-
C93: templates loaded by their path.
-/
namespace Cheetah.LoadPath
open Wrapper (basename headPart dirname)

/-- The names in a path. -/
def parts (p : Str) : List Str := (splitCh '/' p).filter (· ≠ [])

/-- The path starts at the root. -/
def Absolute (p : Str) : Prop := p.head? = some '/'

theorem parts_app (a b : Str) : parts (a ++ '/' :: b) = parts a ++ parts b := by
  unfold parts
  rw [splitCh_append_sep, List.filter_append]

theorem parts_slashes (a : Str) : ∀ k : Str, (∀ c ∈ k, c = '/') → parts (a ++ k) = parts a
  | [], _ => by simp
  | c :: k, h => by
    have hc := h c (List.mem_cons_self ..)
    subst hc
    rw [parts_app]
    have := parts_slashes [] k fun c hc => h c (List.mem_cons_of_mem _ hc)
    rw [List.nil_append] at this
    rw [this]
    simp [parts, splitCh]

theorem strip_eq (x : Str) : ∃ k, (∀ c ∈ k, c = '/') ∧ x = (x.reverse.dropWhile (· = '/')).reverse ++ k := by
  refine ⟨(x.reverse.takeWhile (· = '/')).reverse, ?_, ?_⟩
  · intro c hc
    have h := List.all_eq_true.mp (List.all_takeWhile (p := fun c => decide (c = '/')) (l := x.reverse)) c (List.mem_reverse.mp hc)
    simpa using h
  · rw [← List.reverse_append, List.takeWhile_append_dropWhile, List.reverse_reverse]

theorem dir_of {dir name : Str} (hn : '/' ∉ name) : headPart (dir ++ '/' :: name) = dir ++ c!"/" := by
  unfold headPart
  rw [Wrapper.basename_append _ _ hn]
  have : (dir ++ '/' :: name).length - name.length = (dir ++ c!"/").length := by simp; omega
  rw [this, show dir ++ '/' :: name = (dir ++ c!"/") ++ name by simp, List.take_left]

theorem parts_ne {d : Str} (h : ∃ c ∈ d, c ≠ '/') : parts d ≠ [] := by
  induction d with
  | nil => obtain ⟨c, hc, _⟩ := h; cases hc
  | cons a as ih =>
    by_cases ha : a = '/'
    · subst ha
      have h' : ∃ c ∈ as, c ≠ '/' := by
        obtain ⟨c, hc, hn⟩ := h
        rcases List.mem_cons.mp hc with rfl | hc
        · exact absurd rfl hn
        · exact ⟨c, hc, hn⟩
      have := parts_app [] as
      rw [List.nil_append] at this
      rw [this]
      simp [ih h']
    · obtain ⟨p, ps, _, h2⟩ := splitCh_cons_ne ha as
      simp [parts, h2]

theorem split_clean {d : Str} (h : d ≠ []) : splitCh '/' (clean d) = keep (splitCh '/' d) := by
  unfold clean
  rw [if_neg h]
  have hn := splitCh_not_mem '/' d
  cases hs : splitCh '/' d with
  | nil => exact absurd hs (splitCh_ne_nil _ _)
  | cons a as =>
    rw [hs] at hn
    refine splitCh_join (by simp [keep]) fun p hp => ?_
    simp only [keep, List.mem_cons, List.mem_filter] at hp
    rcases hp with rfl | ⟨hp, _⟩
    · exact hn _ (List.mem_cons_self ..)
    · exact hn _ (List.mem_cons_of_mem _ hp)

theorem parts_clean (d : Str) : parts (clean d) = parts d := by
  by_cases h : d = []
  · subst h; rfl
  · unfold parts
    rw [split_clean h]
    cases splitCh '/' d with
    | nil => rfl
    | cons a as => simp [keep, List.filter_cons, List.filter_filter]

theorem head_split (d : Str) : Absolute d ↔ ∃ x xs, splitCh '/' d = [] :: x :: xs := by
  unfold Absolute
  cases d with
  | nil => simp [splitCh]
  | cons c cs =>
    by_cases hc : c = '/'
    · subst hc
      cases hs : splitCh '/' cs with
      | nil => exact absurd hs (splitCh_ne_nil _ _)
      | cons x xs => simp [splitCh, hs]
    · obtain ⟨p, ps, _, h2⟩ := splitCh_cons_ne hc cs
      simp [h2, hc]

theorem absolute_clean {d : Str} (h : ∃ c ∈ d, c ≠ '/') : Absolute (clean d) ↔ Absolute d := by
  have hd : d ≠ [] := by rintro rfl; obtain ⟨c, hc, _⟩ := h; cases hc
  have hp := parts_ne h
  rw [head_split, head_split, split_clean hd]
  unfold parts at hp
  cases hs : splitCh '/' d with
  | nil => exact absurd hs (splitCh_ne_nil _ _)
  | cons a as =>
    rw [hs] at hp
    constructor
    · rintro ⟨x, xs, e⟩
      simp only [keep, List.cons.injEq] at e
      obtain ⟨rfl, e⟩ := e
      cases as with
      | nil => cases e
      | cons y ys => exact ⟨y, ys, rfl⟩
    · rintro ⟨x, xs, e⟩
      simp only [List.cons.injEq] at e
      obtain ⟨rfl, rfl⟩ := e
      simp only [keep]
      cases hf : (x :: xs).filter (· ≠ []) with
      | nil => rw [List.filter_cons] at hp; simp only [ne_eq, not_true_eq_false, decide_false, Bool.false_eq_true, if_false] at hp; exact absurd hf hp
      | cons y ys => exact ⟨y, ys, rfl⟩

/-- **C93 (partial).** A template `dir/name` is looked for in the directory `dir`: in the one with the same names, from the root if `dir` is. Missing: the root itself
(`C93_root_counterexample`). -/
theorem C93_directory_partial (cwd dir name : Str) (hn : '/' ∉ name) (hd : ∃ c ∈ dir, c ≠ '/') :
    parts (searched cwd (dir ++ '/' :: name)) = parts dir ∧ (Absolute (searched cwd (dir ++ '/' :: name)) ↔ Absolute dir) := by
  obtain ⟨k, hk, e⟩ := strip_eq (dir ++ c!"/")
  have e2 : dirname (dir ++ '/' :: name) = ((dir ++ c!"/").reverse.dropWhile (· = '/')).reverse := by
    unfold dirname
    rw [dir_of hn, if_neg]
    intro h
    obtain ⟨c, hc, hne⟩ := hd
    exact hne (h c (by simp [hc]))
  generalize ((dir ++ c!"/").reverse.dropWhile (· = '/')).reverse = d at e e2
  have hp : parts d = parts dir := by
    have h1 := parts_slashes d k hk
    have h2 := parts_slashes dir c!"/" (by simp)
    rw [← h1, ← e, h2]
  have hdd : ∃ c ∈ d, c ≠ '/' := by
    obtain ⟨c, hc, hne⟩ := hd
    have hm : c ∈ d ++ k := by rw [← e]; simp [hc]
    rcases List.mem_append.mp hm with hm | hm
    · exact ⟨c, hm, hne⟩
    · exact absurd (hk c hm) hne
  have hc : clean d ≠ [] := by
    intro h
    have := parts_ne hdd
    rw [← parts_clean, h] at this
    exact this rfl
  have hs : searched cwd (dir ++ '/' :: name) = clean d := by
    unfold searched
    simp only
    rw [e2, if_neg hc]
  rw [hs, parts_clean, hp, absolute_clean hdd]
  refine ⟨rfl, ?_⟩
  unfold Absolute
  cases d with
  | nil => obtain ⟨c, hc, _⟩ := hdd; cases hc
  | cons x xs =>
    cases dir with
    | nil => obtain ⟨c, hc, _⟩ := hd; cases hc
    | cons y ys => simp only [List.cons_append, List.cons.injEq] at e; simp [e.1]

/-- **C93.** A template without a directory is looked for in the working directory. -/
theorem C93_here (cwd name : Str) (hn : '/' ∉ name) : searched cwd name = cwd := by
  have : headPart name = [] := by
    unfold headPart
    rw [Wrapper.basename_noslash hn]
    simp
  simp [searched, dirname, this, clean]

/-- **C93 (violated).** A template in the root directory is looked for in the working directory. -/
theorem C93_root_counterexample (cwd name : Str) (hn : '/' ∉ name) : searched cwd ('/' :: name) = cwd := by
  have : headPart ('/' :: name) = c!"/" := dir_of (dir := []) hn
  simp [searched, dirname, this, clean, splitCh, keep, joinStr]

theorem lastDot_at (a y : Str) (hy : '.' ∉ y) : ∀ n, a.length < n → ModuleName.lastDot (a ++ '.' :: y) n = some a.length
  | 0, h => by omega
  | n + 1, h => by
    rw [ModuleName.lastDot]
    by_cases hn : n = a.length
    · subst hn; simp
    · rw [if_neg, lastDot_at a y hy n (by omega)]
      intro hc
      rw [List.getElem?_append_right (by omega)] at hc
      obtain ⟨k, hk⟩ : ∃ k, n - a.length = k + 1 := ⟨n - a.length - 1, by omega⟩
      rw [hk, List.getElem?_cons_succ] at hc
      exact hy (List.mem_of_getElem? hc)

theorem moduleName_eq (dir nm y : Str) (h1 : '/' ∉ nm) (h2 : ∃ c ∈ nm, c ≠ '.') (h3 : '/' ∉ y) (h4 : '.' ∉ y) :
    moduleName (dir ++ '/' :: (nm ++ '.' :: y)) = nm := by
  have hs : '/' ∉ nm ++ '.' :: y := by simp [h1, h3]
  unfold moduleName
  rw [Wrapper.basename_append _ _ hs]
  unfold Imports.stem
  rw [Wrapper.basename_noslash hs, lastDot_at nm y h4 _ (by simp)]
  have hh : headPart (nm ++ '.' :: y) = [] := by
    unfold headPart
    rw [Wrapper.basename_noslash hs]
    simp
  simp only [List.take_left, hh, List.nil_append]
  rw [if_neg]
  intro h
  obtain ⟨c, hc, hne⟩ := h2
  exact hne (by simpa using List.all_eq_true.mp h c hc)

/-- **C93.** `dir/name.suffix` is looked for as `name`, with that suffix only. -/
theorem C93_suffix (dir nm y : Str) (h1 : '/' ∉ nm) (h2 : ∃ c ∈ nm, c ≠ '.') (h3 : '/' ∉ y) (h4 : '.' ∉ y) :
    moduleName (dir ++ '/' :: (nm ++ '.' :: y)) = nm ∧ suffix (dir ++ '/' :: (nm ++ '.' :: y)) = some ('.' :: y) := by
  refine ⟨moduleName_eq dir nm y h1 h2 h3 h4, ?_⟩
  unfold suffix
  rw [moduleName_eq dir nm y h1 h2 h3 h4, Wrapper.basename_append _ _ (by simp [h1, h3])]
  simp

/-- **C93.** `dir/name` without a dot is looked for as `name`, with the usual suffixes. -/
theorem C93_no_suffix (dir nm : Str) (h1 : '/' ∉ nm) (h2 : '.' ∉ nm) :
    moduleName (dir ++ '/' :: nm) = nm ∧ suffix (dir ++ '/' :: nm) = none := by
  have hm : moduleName (dir ++ '/' :: nm) = nm := by
    unfold moduleName
    rw [Wrapper.basename_append _ _ h1]
    unfold Imports.stem
    rw [Wrapper.basename_noslash h1]
    rcases ModuleName.lastDot_split nm with ⟨e, _⟩ | ⟨k, _, he, _⟩
    · rw [e]
    · exact absurd (by rw [he]; simp) h2
  refine ⟨hm, ?_⟩
  unfold suffix
  rw [hm, Wrapper.basename_append _ _ h1]
  simp

/-- **C93.** What is loaded is what `find` has found in that directory, under the name without directory and suffix; no other module changes. -/
theorem C93_modules {M : Type} (find : Str → Option Str → Str → Option M) (runs : M → Bool) (cwd : Str) (modules : Str → Option M) (path : Str) :
    (∀ m, (load find runs cwd modules path).1 = .ok m → find (searched cwd path) (suffix path) (moduleName path) = some m ∧ runs m = true ∧
      (load find runs cwd modules path).2 (moduleName path) = some m) ∧
    ((load find runs cwd modules path).1 = .error .notFound ↔ find (searched cwd path) (suffix path) (moduleName path) = none) ∧
    ((load find runs cwd modules path).1 = .error .notFound → (load find runs cwd modules path).2 = modules) ∧
    ∀ n, n ≠ moduleName path → (load find runs cwd modules path).2 n = modules n := by
  unfold load
  cases h : find (searched cwd path) (suffix path) (moduleName path) with
  | none => exact ⟨by simp, by simp, fun _ => rfl, fun _ _ => rfl⟩
  | some m =>
    cases hr : runs m
    · exact ⟨by simp [hr], by simp [hr], by simp [hr], fun n hn => by simp [hn, hr]⟩
    · refine ⟨fun m' h' => ?_, by simp [hr], by simp [hr], fun n hn => by simp [hn, hr]⟩
      simp [hr] at h'
      subst h'
      simp [hr]

/-- **C93 (violated).** A module of the same name, whatever it is, is replaced, even if the template then fails. -/
theorem C93_replaced_counterexample {M : Type} (find : Str → Option Str → Str → Option M) (runs : M → Bool) (cwd : Str) (modules : Str → Option M)
    (path : Str) (m : M) (hf : find (searched cwd path) (suffix path) (moduleName path) = some m) (hr : runs m = false) :
    (load find runs cwd modules path).1 = .error .fromTemplate ∧ (load find runs cwd modules path).2 (moduleName path) = some m := by
  unfold load
  simp [hf, hr]

example : searched c!"/home" c!"/Templates//views/index.tmpl" = c!"/Templates/views" := by decide +kernel
example : searched c!"/home" c!"views//x///string" = c!"views/x" := by decide +kernel
example : searched c!"/home" c!"//index" = c!"/home" := by decide +kernel
example : moduleName c!"views/index.tmpl" = c!"index" ∧ suffix c!"views/index.tmpl" = some c!".tmpl" ∧ suffix c!"views/index" = none := by decide +kernel
example : ∃ c ∈ c!"/Templates//views", c ≠ '/' := ⟨'T', by decide, by decide⟩
example : '/' ∉ c!"index" ∧ (∃ c ∈ c!"index", c ≠ '.') ∧ '.' ∉ c!"tmpl" := ⟨by decide, ⟨'i', by decide, by decide⟩, by decide⟩
example : (load (fun d _ n => if d = c!"views" then some n else none) (fun _ => false) c!"/home"
    (fun n => if n = c!"string" then some c!"stdlib" else none) c!"views/string.tmpl").2 c!"string" = some c!"string" := by decide +kernel

end Cheetah.LoadPath
