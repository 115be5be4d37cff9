import Verif.FileTools
/-
C59: recursive file search.  C60: source statistics.  C63: what counts as a comment.
-/
namespace Cheetah.FileTools

/-! ### Specification of the search -/

/-- `n` is an entry of the directory that is a directory itself, `c`. -/
inductive SubDir : Dir → Str → Dir → Prop
  | here (n c r) : SubDir (.sub n c r) n c
  | file (m r n c) : SubDir r n c → SubDir (.file m r) n c
  | sub (m d r n c) : SubDir r n c → SubDir (.sub m d r) n c

/-- The search reaches directory `d` at path `p`: the root, or a subdirectory, not ignored,
of a directory it reaches. -/
inductive Reaches {π : Type} (f : Finder π) (root : Dir) : Path → Dir → Prop
  | root : Reaches f root [] root
  | step {p d n c} : Reaches f root p d → SubDir d n c → n ∉ f.ignoreBasenames →
      p ++ [n] ∉ f.ignoreDirs → Reaches f root (p ++ [n]) c

/-- No directory lists a name twice. -/
inductive WF : Dir → Prop
  | nil : WF .nil
  | file {n r} : WF r → n ∉ r.names → WF (.file n r)
  | sub {n d r} : WF d → WF r → n ∉ r.names → WF (.sub n d r)

/-! ### C59 -/

variable {π : Type} (f : Finder π)

/-- The directories reached strictly below `d` at `p`. -/
def below : Path → Dir → List (Path × Dir)
  | _, .nil => []
  | p, .file _ r => below p r
  | p, .sub n d r =>
    (if filterDir f n (p ++ [n]) then (p ++ [n], d) :: below (p ++ [n]) d else []) ++ below p r

theorem subDirs_below : ∀ (p : Path) (d : Dir),
    (subDirs f p d).flatMap (fun s => s :: below f s.1 s.2) = below f p d
  | p, .nil => rfl
  | p, .file _ r => by rw [subDirs, below]; exact subDirs_below p r
  | p, .sub n d r => by
    rw [subDirs, below]
    split
    · rw [List.flatMap_cons, subDirs_below p r]
    · rw [subDirs_below p r, List.nil_append]

theorem subDirs_count : ∀ (p : Path) (d : Dir), ((subDirs f p d).map (fun s => s.2.count)).sum < d.count
  | p, .nil => by simp [subDirs, Dir.count]
  | p, .file _ r => by rw [subDirs, Dir.count]; exact subDirs_count p r
  | p, .sub n d r => by
    have := subDirs_count p r
    rw [subDirs, Dir.count]
    split
    · simp only [List.map_cons, List.sum_cons]; omega
    · omega

theorem sum_reverse (l : List Nat) : l.reverse.sum = l.sum := by
  induction l with
  | nil => rfl
  | cons a l ih => simp [ih]; omega

theorem walk_spec : ∀ (n : Nat) (st : List (Path × Dir)) (files : List Path),
    (st.map (fun s => s.2.count)).sum < n →
    ∃ vis : List (Path × Dir), walk f n st files = files ++ vis.flatMap (fun s => processDir f s.1 s.2) ∧
      vis.Perm (st.flatMap (fun s => s :: below f s.1 s.2))
  | 0, st, files, h => by omega
  | n + 1, [], files, h => ⟨[], by simp [walk], by simp⟩
  | n + 1, (p, d) :: st, files, h => by
    have h1 := subDirs_count f p d
    simp only [List.map_cons, List.sum_cons] at h
    obtain ⟨vis, e, hp⟩ := walk_spec n ((subDirs f p d).reverse ++ st) (files ++ processDir f p d) (by
      rw [List.map_append, List.sum_append, List.map_reverse, sum_reverse]; omega)
    refine ⟨(p, d) :: vis, ?_, ?_⟩
    · rw [walk, e]; simp
    · rw [List.flatMap_cons, List.cons_append]
      refine List.Perm.cons _ (hp.trans ?_)
      rw [List.flatMap_append, ← subDirs_below]
      exact ((List.reverse_perm _).flatMap_right _).append_right _

theorem findFiles_spec (root : Dir) : ∃ vis : List (Path × Dir),
    findFiles f root = vis.flatMap (fun s => processDir f s.1 s.2) ∧ vis.Perm (([], root) :: below f [] root) := by
  obtain ⟨vis, e, hp⟩ := walk_spec f (root.count + 1) [([], root)] [] (by simp)
  exact ⟨vis, by rw [findFiles, e, List.nil_append], by simpa using hp⟩

theorem filterDir_iff (n : Str) (p : Path) :
    filterDir f n p = true ↔ n ∉ f.ignoreBasenames ∧ p ∉ f.ignoreDirs := by
  simp [filterDir]

theorem subDir_below {p : Path} {d c x : Dir} {n : Str} {q : Path} (h : SubDir d n c)
    (hf : filterDir f n (p ++ [n]) = true) (hx : (q, x) = (p ++ [n], c) ∨ (q, x) ∈ below f (p ++ [n]) c) :
    (q, x) ∈ below f p d := by
  induction h with
  | here n c r =>
    rw [below, if_pos hf]
    exact List.mem_append_left _ (by rcases hx with h | h <;> simp [h])
  | file m r n c _ ih => rw [below]; exact ih hf hx
  | sub m d r n c _ ih => rw [below]; exact List.mem_append_right _ (ih hf hx)

theorem below_cases : ∀ {d : Dir} {p q : Path} {x : Dir}, (q, x) ∈ below f p d →
    ∃ n c, SubDir d n c ∧ filterDir f n (p ++ [n]) = true ∧
      ((q, x) = (p ++ [n], c) ∨ (q, x) ∈ below f (p ++ [n]) c)
  | .nil, p, q, x, h => by simp [below] at h
  | .file m r, p, q, x, h => by
    rw [below] at h
    obtain ⟨n, c, a, b⟩ := below_cases h
    exact ⟨n, c, .file _ _ _ _ a, b⟩
  | .sub m d r, p, q, x, h => by
    rw [below] at h
    rcases List.mem_append.mp h with h | h
    · split at h
      · rename_i hf
        exact ⟨m, d, .here _ _ _, hf, List.mem_cons.mp h⟩
      · cases h
    · obtain ⟨n, c, a, b⟩ := below_cases h
      exact ⟨n, c, .sub _ _ _ _ _ a, b⟩

theorem SubDir.count_lt {d c : Dir} {n : Str} (h : SubDir d n c) : c.count < d.count := by
  have pos : ∀ d : Dir, 0 < d.count := by
    intro d
    induction d with
    | nil => simp [Dir.count]
    | file _ r ih => simpa [Dir.count] using ih
    | sub _ d r ih1 ih2 => simp [Dir.count]; omega
  induction h with
  | here n c r => rw [Dir.count]; have := pos r; omega
  | file m r n c _ ih => rw [Dir.count]; exact ih
  | sub m d r n c _ ih => rw [Dir.count]; omega

theorem reaches_of_below (root : Dir) : ∀ (k : Nat) (d : Dir) (p q : Path) (x : Dir), d.count ≤ k →
    Reaches f root p d → (q, x) ∈ below f p d → Reaches f root q x
  | 0, d, p, q, x, hk, hr, h => by
    obtain ⟨n, c, a, hf, b⟩ := below_cases f h
    have := a.count_lt; omega
  | k + 1, d, p, q, x, hk, hr, h => by
    obtain ⟨n, c, a, hf, b⟩ := below_cases f h
    have hs := Reaches.step hr a ((filterDir_iff f _ _).mp hf).1 ((filterDir_iff f _ _).mp hf).2
    rcases b with b | b
    · injection b with b1 b2; rw [b1, b2]; exact hs
    · exact reaches_of_below root k c _ q x (by have := a.count_lt; omega) hs b

theorem below_trans : ∀ (k : Nat) (d c x : Dir) (p q : Path) (n : Str), d.count ≤ k →
    (q, x) ∈ below f p d → SubDir x n c → filterDir f n (q ++ [n]) = true → (q ++ [n], c) ∈ below f p d
  | 0, d, c, x, p, q, n, hk, h, hs, hf => by
    obtain ⟨n, c, a, _, b⟩ := below_cases f h
    have := a.count_lt; omega
  | k + 1, d, c, x, p, q, n, hk, h, hs, hf => by
    obtain ⟨m, e, a, hf', b⟩ := below_cases f h
    refine subDir_below f a hf' (.inr ?_)
    rcases b with b | b
    · injection b with b1 b2
      subst b1; subst b2
      exact subDir_below f hs hf (.inl rfl)
    · exact below_trans k e c x _ q n (by have := a.count_lt; omega) b hs hf

theorem below_iff (root : Dir) (q : Path) (x : Dir) :
    (q, x) ∈ ([], root) :: below f [] root ↔ Reaches f root q x := by
  constructor
  · intro h
    rcases List.mem_cons.mp h with h | h
    · injection h with h1 h2; rw [h1, h2]; exact .root
    · exact reaches_of_below f root _ root [] q x (Nat.le_refl _) .root h
  · intro h
    induction h with
    | root => simp
    | @step p d n c h a b e ih =>
      have hf : filterDir f n (p ++ [n]) = true := (filterDir_iff f _ _).mpr ⟨b, e⟩
      refine List.mem_cons_of_mem _ ?_
      rcases List.mem_cons.mp ih with ih | ih
      · injection ih with h1 h2
        subst h1; subst h2
        exact subDir_below f a hf (.inl rfl)
      · exact below_trans f _ root c d [] p n (Nat.le_refl _) ih a hf

/-- C59: the files found are exactly the entries, of directories the search reaches, whose
name matches a pattern. -/
theorem C59_found_iff (root : Dir) (q : Path) :
    q ∈ findFiles f root ↔
      ∃ p d n pat, Reaches f root p d ∧ n ∈ d.names ∧ pat ∈ f.patterns ∧ f.glob1 pat n = true ∧ q = p ++ [n] := by
  obtain ⟨vis, e, hp⟩ := findFiles_spec f root
  rw [e]
  simp only [List.mem_flatMap, processDir, List.mem_map, List.mem_filter]
  constructor
  · rintro ⟨⟨p, d⟩, hs, pat, hpat, n, ⟨hn, hg⟩, rfl⟩
    exact ⟨p, d, n, pat, (below_iff f root p d).mp (hp.mem_iff.mp hs), hn, hpat, hg, rfl⟩
  · rintro ⟨p, d, n, pat, hr, hn, hpat, hg, rfl⟩
    exact ⟨(p, d), hp.mem_iff.mpr ((below_iff f root p d).mpr hr), pat, hpat, n, ⟨hn, hg⟩, rfl⟩

theorem below_prefix : ∀ {d : Dir} {p q : Path} {x : Dir}, (q, x) ∈ below f p d →
    ∃ n ∈ d.names, ∃ t, q = p ++ n :: t
  | .nil, p, q, x, h => by simp [below] at h
  | .file m r, p, q, x, h => by
    rw [below] at h
    obtain ⟨n, hn, t, e⟩ := below_prefix h
    exact ⟨n, by simp [Dir.names, hn], t, e⟩
  | .sub m d r, p, q, x, h => by
    rw [below] at h
    rcases List.mem_append.mp h with h | h
    · split at h
      · rcases List.mem_cons.mp h with h | h
        · injection h with h1 h2
          exact ⟨m, by simp [Dir.names], [], h1⟩
        · obtain ⟨n, hn, t, e⟩ := below_prefix h
          exact ⟨m, by simp [Dir.names], n :: t, by simpa using e⟩
      · cases h
    · obtain ⟨n, hn, t, e⟩ := below_prefix h
      exact ⟨n, by simp [Dir.names, hn], t, e⟩

theorem below_nodup : ∀ (d : Dir), WF d → ∀ (p : Path), ((below f p d).map (·.1)).Nodup
  | .nil, _, p => by simp [below]
  | .file m r, h, p => by
    cases h with
    | file h1 h2 => rw [below]; exact below_nodup r h1 p
  | .sub m d r, h, p => by
    cases h with
    | sub h1 h2 h3 =>
    rw [below, List.map_append]
    refine List.nodup_append.mpr ⟨?_, below_nodup r h2 p, ?_⟩
    · split
      · rw [List.map_cons]
        refine List.nodup_cons.mpr ⟨?_, below_nodup d h1 _⟩
        intro hm
        obtain ⟨⟨q, x⟩, hq, e⟩ := List.mem_map.mp hm
        obtain ⟨n, _, t, e'⟩ := below_prefix f hq
        simp only at e
        rw [e] at e'
        have := congrArg List.length e'
        simp at this
      · simp
    · intro a ha b hb hab
      subst hab
      obtain ⟨⟨q, x⟩, hq, e⟩ := List.mem_map.mp hb
      simp only at e
      subst e
      obtain ⟨n, hn, t, e⟩ := below_prefix f hq
      have : ∃ t', q = p ++ m :: t' := by
        split at ha
        · rcases (by simpa using ha : q = p ++ [m] ∨ ∃ x, (q, x) ∈ below f (p ++ [m]) d) with ha | ha
          · exact ⟨[], ha⟩
          · obtain ⟨y, hy⟩ := ha
            obtain ⟨k, _, t', e'⟩ := below_prefix f hy
            exact ⟨k :: t', by rw [e']; simp⟩
        · simp at ha
      obtain ⟨t', e'⟩ := this
      rw [e] at e'
      have := List.append_cancel_left e'
      injection this with h4 h5
      exact h3 (h4 ▸ hn)

theorem names_nodup : ∀ {d : Dir}, WF d → d.names.Nodup
  | .nil, _ => by simp [Dir.names]
  | .file _ _, .file h1 h2 => List.nodup_cons.mpr ⟨h2, names_nodup h1⟩
  | .sub _ _ _, .sub _ h1 h2 => List.nodup_cons.mpr ⟨h2, names_nodup h1⟩

theorem subDir_wf {d c : Dir} {n : Str} (h : SubDir d n c) : WF d → WF c := by
  induction h with
  | here n c r => intro w; cases w; assumption
  | file m r n c _ ih => intro w; cases w; exact ih ‹_›
  | sub m d r n c _ ih => intro w; cases w; exact ih ‹_›

theorem reaches_wf {root : Dir} (hw : WF root) {p : Path} {d : Dir} (h : Reaches f root p d) : WF d := by
  induction h with
  | root => exact hw
  | step _ a _ _ ih => exact subDir_wf a ih

theorem count_map_snoc (p q : Path) (n : Str) (l : List Str) :
    (l.map (fun m => p ++ [m])).count (q ++ [n]) = if p = q then l.count n else 0 := by
  induction l with
  | nil => simp
  | cons m l ih =>
    rw [List.map_cons, List.count_cons, ih, List.count_cons]
    by_cases hpq : p = q
    · subst hpq
      simp
    · have : ¬ (p ++ [m] = q ++ [n]) := by
        intro h
        exact hpq (List.append_inj_left' h rfl)
      simp [hpq, this]

theorem count_processDir (p q : Path) (d : Dir) (n : Str) :
    (processDir f p d).count (q ++ [n]) =
      if p = q then d.names.count n * (f.patterns.countP (fun pat => f.glob1 pat n)) else 0 := by
  unfold processDir
  generalize f.patterns = pats
  induction pats with
  | nil => simp
  | cons pat pats ih =>
    rw [List.flatMap_cons, List.count_append, ih, count_map_snoc, List.countP_cons]
    by_cases hpq : p = q
    · rw [if_pos hpq, if_pos hpq, if_pos hpq]
      by_cases hg : f.glob1 pat n = true
      · rw [List.count_filter hg, if_pos hg, Nat.mul_add, Nat.mul_one, Nat.add_comm]
      · have : List.count n (List.filter (f.glob1 pat) d.names) = 0 := by
          rw [List.count_eq_zero]
          intro hm
          exact hg (List.mem_filter.mp hm).2
        rw [this, if_neg hg, Nat.zero_add, Nat.add_zero]
    · simp [hpq]

/-- C59: an entry of a directory the search reaches is listed once for every pattern that
matches its name. -/
theorem C59_multiplicity (root : Dir) (hw : WF root) (p : Path) (d : Dir) (n : Str)
    (hr : Reaches f root p d) (hn : n ∈ d.names) :
    (findFiles f root).count (p ++ [n]) = f.patterns.countP (fun pat => f.glob1 pat n) := by
  obtain ⟨vis, e, hp⟩ := findFiles_spec f root
  have hmem : (p, d) ∈ vis := hp.mem_iff.mpr ((below_iff f root p d).mpr hr)
  have hnd : (vis.map (·.1)).Nodup := by
    rw [(hp.map _).nodup_iff, List.map_cons]
    refine List.nodup_cons.mpr ⟨?_, below_nodup f root hw []⟩
    intro hm
    obtain ⟨⟨q, x⟩, hq, e⟩ := List.mem_map.mp hm
    obtain ⟨m, _, t, e'⟩ := below_prefix f hq
    simp only at e
    rw [e] at e'
    simp at e'
  have hcount : d.names.count n = 1 :=
    have h1 := List.nodup_iff_count.mp (names_nodup (reaches_wf f hw hr)) n
    have h2 := List.count_pos_iff.mpr hn
    by omega
  rw [e]
  clear e hp
  induction vis with
  | nil => cases hmem
  | cons s vis ih =>
    obtain ⟨q, x⟩ := s
    rw [List.map_cons] at hnd
    obtain ⟨h1, h2⟩ := List.nodup_cons.mp hnd
    rw [List.flatMap_cons, List.count_append, count_processDir]
    rcases List.mem_cons.mp hmem with hm | hm
    · injection hm with h3 h4
      subst h3; subst h4
      have h0 : ∀ (l : List (Path × Dir)), p ∉ l.map (·.1) →
          (l.flatMap (fun s => processDir f s.1 s.2)).count (p ++ [n]) = 0 := by
        intro l hl
        induction l with
        | nil => simp
        | cons y l ihl =>
          rw [List.map_cons, List.mem_cons, not_or] at hl
          rw [List.flatMap_cons, List.count_append, count_processDir, ihl hl.2, if_neg (Ne.symm hl.1)]
      rw [h0 vis h1, if_pos rfl, hcount]; omega
    · have hne : q ≠ p := by
        rintro rfl
        exact h1 (List.mem_map.mpr ⟨_, hm, rfl⟩)
      rw [if_neg hne, ih hm h2, Nat.zero_add]

/-- C59, the part that holds: each file found is listed once, if no name is matched by two
patterns. Missing: overlapping patterns, see the counterexample. -/
theorem C59_once_partial (root : Dir) (hw : WF root)
    (hd : ∀ n, f.patterns.countP (fun pat => f.glob1 pat n) ≤ 1) : (findFiles f root).Nodup := by
  rw [List.nodup_iff_count]
  intro q
  by_cases hq : q ∈ findFiles f root
  · obtain ⟨p, d, n, pat, hr, hn, _, _, rfl⟩ := (C59_found_iff f root q).mp hq
    rw [C59_multiplicity f root hw p d n hr hn]
    exact hd n
  · rw [List.count_eq_zero.mpr hq]; omega

/-- A pattern is a suffix here, `''` matching everything. -/
def suffixFinder (pats : List Str) : Finder Str :=
  ⟨pats, fun pat n => List.isSuffixOf pat n, [c!"CVS"], []⟩

/-- `a.py`, `CVS/x.py` and `d/b.py`. -/
def sampleTree : Dir :=
  .file c!"a.py" (.sub c!"CVS" (.file c!"x.py" .nil) (.sub c!"d" (.file c!"b.py" .nil) .nil))

example : WF sampleTree := by
  refine .file (.sub (.file .nil ?_) (.sub (.file .nil ?_) .nil ?_) ?_) ?_ <;> decide

example : findFiles (suffixFinder [c!".py"]) sampleTree = [[c!"a.py"], [c!"d", c!"b.py"]] := by decide

/-- C59, violated: a file that matches two patterns is listed twice, and directories are
listed among the files. -/
theorem C59_twice_counterexample :
    findFiles (suffixFinder [c!".py", c!"a.py"]) sampleTree = [[c!"a.py"], [c!"a.py"], [c!"d", c!"b.py"]] ∧
    findFiles (suffixFinder [[]]) sampleTree = [[c!"a.py"], [c!"CVS"], [c!"d"], [c!"d", c!"b.py"]] := by decide

/-! ### C60 -/

theorem countLine_total (s : Stats) (l : Str) : (countLine s l).totalLines = s.totalLines ∧
    (countLine s l).codeLines + (countLine s l).blankLines + (countLine s l).commentLines =
      s.codeLines + s.blankLines + s.commentLines + 1 := by
  unfold countLine
  split
  · exact ⟨rfl, by simp only; omega⟩
  · split
    · exact ⟨rfl, by simp only; omega⟩
    · exact ⟨rfl, by simp only; omega⟩

theorem foldl_countLine : ∀ (ls : List Str) (s : Stats), (ls.foldl countLine s).totalLines = s.totalLines ∧
    (ls.foldl countLine s).codeLines + (ls.foldl countLine s).blankLines + (ls.foldl countLine s).commentLines =
      s.codeLines + s.blankLines + s.commentLines + ls.length
  | [], s => by simp
  | l :: ls, s => by
    have h1 := countLine_total s l
    have h2 := foldl_countLine ls (countLine s l)
    simp only [List.foldl_cons, List.length_cons]
    omega

/-- C60: for every file the kinds add up to the total. -/
theorem C60_adds_up (text : Str) :
    (getFileStats text).codeLines + (getFileStats text).blankLines + (getFileStats text).commentLines =
      (getFileStats text).totalLines := by
  unfold getFileStats
  have := foldl_countLine (Indent.splitlines text) ⟨0, 0, 0, (Indent.splitlines text).length⟩
  dsimp only at this ⊢
  omega

theorem summary_eq (d : Dict Str Stats) : ∀ s : Stats,
    d.foldl (fun s e => (⟨s.codeLines + e.2.codeLines, s.blankLines + e.2.blankLines,
      s.commentLines + e.2.commentLines, s.totalLines + e.2.totalLines⟩ : Stats)) s =
    ⟨s.codeLines + (d.map (·.2.codeLines)).sum, s.blankLines + (d.map (·.2.blankLines)).sum,
      s.commentLines + (d.map (·.2.commentLines)).sum, s.totalLines + (d.map (·.2.totalLines)).sum⟩ := by
  induction d with
  | nil => intro s; simp
  | cons e d ih =>
    intro s
    rw [List.foldl_cons, ih]
    simp only [List.map_cons, List.sum_cons, Nat.add_assoc]

theorem set_form (read : Str → Str) : ∀ (ks : List Str) (k : Str),
    Dict.set (ks.map fun k => (k, getFileStats (read k))) k (getFileStats (read k)) =
      (if k ∈ ks then ks else ks ++ [k]).map fun k => (k, getFileStats (read k))
  | [], k => by simp [Dict.set]
  | j :: ks, k => by
    rw [List.map_cons, Dict.set]
    by_cases h : k = j
    · subst h; simp
    · rw [if_neg h, set_form read ks k]
      by_cases hk : k ∈ ks
      · simp [hk]
      · simp [h, hk]

theorem fileStats_form (read : Str → Str) : ∀ (files ks : List Str), ks.Nodup → ∃ ks' : List Str, ks'.Nodup ∧
    (∀ k, k ∈ ks' ↔ k ∈ ks ∨ k ∈ files) ∧
    files.foldl (fun d f => Dict.set d f (getFileStats (read f))) (ks.map fun k => (k, getFileStats (read k))) =
      ks'.map fun k => (k, getFileStats (read k))
  | [], ks, h => ⟨ks, h, by simp, rfl⟩
  | g :: files, ks, h => by
    have hn : (if g ∈ ks then ks else ks ++ [g]).Nodup := by
      split
      · exact h
      · rename_i hg
        exact List.nodup_append.mpr ⟨h, by simp, by
          intro a ha b hb; simp at hb; subst hb; rintro rfl; exact hg ha⟩
    obtain ⟨ks', h1, h2, h3⟩ := fileStats_form read files _ hn
    refine ⟨ks', h1, ?_, by rw [List.foldl_cons, set_form]; exact h3⟩
    intro k
    rw [h2]
    split
    · rename_i hg
      simp only [List.mem_cons]
      constructor
      · rintro (h | h) <;> simp [h]
      · rintro (h | rfl | h)
        · exact .inl h
        · exact .inl hg
        · exact .inr h
    · simp only [List.mem_append, List.mem_cons, List.not_mem_nil, or_false]
      constructor
      · rintro ((h | h) | h) <;> simp [h]
      · rintro (h | h | h) <;> simp [h]

/-- C60: the summary's counters are the sums over the different files. -/
theorem C60_summary (read : Str → Str) (files : List Str) :
    ∃ ks : List Str, ks.Nodup ∧ (∀ k, k ∈ ks ↔ k ∈ files) ∧
      summary (fileStats read files) =
        ⟨(ks.map fun k => (getFileStats (read k)).codeLines).sum,
         (ks.map fun k => (getFileStats (read k)).blankLines).sum,
         (ks.map fun k => (getFileStats (read k)).commentLines).sum,
         (ks.map fun k => (getFileStats (read k)).totalLines).sum⟩ := by
  obtain ⟨ks, h1, h2, h3⟩ := fileStats_form read files [] (by simp)
  refine ⟨ks, h1, by simpa using h2, ?_⟩
  unfold summary fileStats
  rw [List.map_nil] at h3
  rw [h3, summary_eq]
  simp only [List.map_map, Nat.zero_add, Function.comp_def]

/-- C60: the summary adds up too. -/
theorem C60_summary_adds_up (read : Str → Str) (files : List Str) :
    (summary (fileStats read files)).codeLines + (summary (fileStats read files)).blankLines +
      (summary (fileStats read files)).commentLines = (summary (fileStats read files)).totalLines := by
  obtain ⟨ks, _, _, e⟩ := C60_summary read files
  rw [e]
  clear e
  dsimp only
  rename_i h1 h2
  clear h1 h2
  induction ks with
  | nil => rfl
  | cons k ks ih =>
    have := C60_adds_up (read k)
    simp only [List.map_cons, List.sum_cons]
    omega

example : getFileStats c!"x\n \n # c\n" = ⟨1, 1, 1, 3⟩ := by decide +kernel

/-! ### C63 -/

/-- C63, violated: an empty line counts as code, and so does a comment line that does not
start with exactly one blank. -/
theorem C63_counterexample :
    getFileStats c!"\n\n" = ⟨2, 0, 0, 2⟩ ∧ getFileStats c!"# a\n    # b\n" = ⟨2, 0, 0, 2⟩ := by decide +kernel

/-- C63, the part that holds: a line counted as a comment is one, after a single blank, and a
line counted as blank is a single blank, so neither is code. Missing: that the other comments
and blank lines are counted as such. -/
theorem C63_counted_partial (s : Stats) (line : Str) :
    ((countLine s line).commentLines ≠ s.commentLines ↔ ∃ c r, isSpace c = true ∧ line = c :: '#' :: r) ∧
    ((countLine s line).blankLines ≠ s.blankLines ↔ ∃ c, isSpace c = true ∧ line = [c]) := by
  have hc : isComment line = true ↔ ∃ c r, isSpace c = true ∧ line = c :: '#' :: r := by
    match line with
    | [] => simp [isComment]
    | [c] => simp [isComment]
    | c :: d :: r =>
      simp only [isComment, Bool.and_eq_true, decide_eq_true_eq]
      constructor
      · rintro ⟨h, rfl⟩; exact ⟨c, r, h, rfl⟩
      · rintro ⟨c', r', h, e⟩
        injection e with e1 e2
        injection e2 with e2 e3
        exact ⟨e1 ▸ h, e2⟩
  have hb : isBlank line = true ↔ ∃ c, isSpace c = true ∧ line = [c] := by
    match line with
    | [] => simp [isBlank]
    | [c] => simp [isBlank]
    | c :: d :: r => simp [isBlank]
  have hx : isComment line = true → isBlank line = true → False := by
    rw [hc, hb]
    rintro ⟨c, r, _, rfl⟩ ⟨d, _, e⟩
    cases e
  rw [← hc, ← hb]
  unfold countLine
  by_cases h1 : isComment line = true
  · rw [if_pos h1]
    simp [h1]
    cases h : isBlank line with
    | false => rfl
    | true => exact absurd h (fun h => hx h1 h)
  · rw [if_neg h1]
    by_cases h2 : isBlank line = true
    · rw [if_pos h2]; simp [h1, h2]
    · rw [if_neg h2]; simp [h1, h2]

end Cheetah.FileTools
