import Verif.ClassCode
import Verif.StrConst
/-
C89: the class code that a template shows.
-/
namespace Cheetah.ClassCode

/-- Some line of the text, other than its first one, begins with `q`. -/
def LaterLine (q s : Str) : Prop := ∃ l ∈ (splitCh '\n' s).tail, ∃ r, l = q ++ r

/-- Some line of the text begins with `q`. -/
def AnyLine (q s : Str) : Prop := ∃ l ∈ splitCh '\n' s, ∃ r, l = q ++ r

theorem splitCh_head (s : Str) : (splitCh '\n' s).head? = some (s.takeWhile (· != '\n')) := by
  induction s with
  | nil => rfl
  | cons c cs ih =>
    by_cases h : c = '\n'
    · subst h; simp [splitCh, List.takeWhile]
    · obtain ⟨a, as, h1, h2⟩ := splitCh_cons_ne h cs
      have : (c != '\n') = true := by simpa using h
      rw [h1] at ih
      rw [h2]
      simp only [List.head?_cons, Option.some.injEq] at ih ⊢
      rw [ih]
      simp [List.takeWhile, this]

theorem take_prefix {q : Str} (hq : '\n' ∉ q) (r : Str) : ∃ t, (q ++ r).takeWhile (· != '\n') = q ++ t := by
  refine ⟨r.takeWhile (· != '\n'), ?_⟩
  rw [List.takeWhile_append_of_pos]
  intro a ha
  simp only [bne_iff_ne, ne_eq]
  exact fun h => hq (h ▸ ha)

theorem later_cons (q s : Str) (c : Char) : LaterLine q s → LaterLine q (c :: s) := by
  rintro ⟨l, hl, hr⟩
  refine ⟨l, ?_, hr⟩
  by_cases h : c = '\n'
  · subst h
    simp only [splitCh, ↓reduceIte, List.tail_cons]
    exact List.mem_of_mem_tail hl
  · obtain ⟨a, as, h1, h2⟩ := splitCh_cons_ne h s
    rw [h1] at hl
    rw [h2]
    exact hl

theorem later_nl {q : Str} (hq : '\n' ∉ q) (r : Str) : LaterLine q ('\n' :: (q ++ r)) := by
  obtain ⟨t, ht⟩ := take_prefix hq r
  refine ⟨q ++ t, ?_, t, rfl⟩
  have := splitCh_head (q ++ r)
  rw [ht] at this
  simp only [splitCh, ↓reduceIte, List.tail_cons]
  exact List.mem_of_mem_head? this

theorem find_first {q : Str} (hq : '\n' ∉ q) (b : Str) : ∀ a : Str, ¬ LaterLine q a → find ('\n' :: q) (a ++ '\n' :: (q ++ b)) = some a.length := by
  intro a
  induction a with
  | nil =>
    intro _
    have : startsWith ('\n' :: (q ++ b)) ('\n' :: q) = true := startsWith_iff.mpr ⟨b, rfl⟩
    simp [find, this]
  | cons c cs ih =>
    intro h
    have h' : ¬ LaterLine q cs := fun x => h (later_cons q cs c x)
    have hn : startsWith (c :: (cs ++ '\n' :: (q ++ b))) ('\n' :: q) = false := by
      rw [Bool.eq_false_iff]
      intro hs
      obtain ⟨r, hr⟩ := startsWith_iff.mp hs
      simp only [List.cons_append, List.cons.injEq] at hr
      obtain ⟨rfl, hr⟩ := hr
      rcases List.append_eq_append_iff.mp hr with ⟨t, h1, h2⟩ | ⟨t, h1, h2⟩
      · cases t with
        | nil =>
          have h3 : cs = q := by simpa using h1.symm
          subst h3
          exact h (by simpa using later_nl hq [])
        | cons d t =>
          simp only [List.cons_append, List.cons.injEq] at h2
          exact hq (by rw [h1]; simp [← h2.1])
      · subst h1
        exact h (later_nl hq t)
    simp [find, hn, ih h']

theorem find_le {q : Str} (hq : '\n' ∉ q) : ∀ s : Str, LaterLine q s → ∀ b, ∃ n, find ('\n' :: q) (s ++ b) = some n ∧ n < s.length := by
  intro s
  induction s with
  | nil => rintro ⟨l, hl, _⟩; simp [splitCh] at hl
  | cons c cs ih =>
    intro h b
    by_cases hs : startsWith (c :: (cs ++ b)) ('\n' :: q) = true
    · exact ⟨0, by simp [find, hs], by simp⟩
    · have hs' : startsWith (c :: (cs ++ b)) ('\n' :: q) = false := by simpa using hs
      have h' : LaterLine q cs := by
        obtain ⟨l, hl, r, rfl⟩ := h
        by_cases hc : c = '\n'
        · subst hc
          simp only [splitCh, ↓reduceIte, List.tail_cons] at hl
          cases hcs : splitCh '\n' cs with
          | nil => exact absurd hcs (splitCh_ne_nil _ _)
          | cons x xs =>
            rw [hcs] at hl
            rcases List.mem_cons.mp hl with e | hl
            · exfalso
              have hh := splitCh_head cs
              rw [hcs] at hh
              simp only [List.head?_cons, Option.some.injEq] at hh
              have hx := List.takeWhile_append_dropWhile (p := (· != '\n')) (l := cs)
              rw [← hh, ← e] at hx
              apply hs
              rw [startsWith_iff]
              refine ⟨r ++ (cs.dropWhile (· != '\n') ++ b), ?_⟩
              conv_lhs => rw [← hx]
              simp
            · exact ⟨_, by rw [hcs]; exact hl, r, rfl⟩
        · obtain ⟨a, as, h1, h2⟩ := splitCh_cons_ne hc cs
          rw [h2] at hl
          exact ⟨_, by rw [h1]; exact hl, r, rfl⟩
      obtain ⟨n, hn, hl⟩ := ih h' b
      exact ⟨n + 1, by simp [find, hs', hn], by simp; omega⟩

theorem join_cons {p : Str} {ps : List Str} (h : ps ≠ []) : joinStr c!"\n" (p :: ps) = p ++ '\n' :: joinStr c!"\n" ps := by
  cases ps with
  | nil => exact absurd rfl h
  | cons q qs => simp [joinStr]

theorem join_app {xs ys : List Str} (hx : xs ≠ []) (hy : ys ≠ []) : joinStr c!"\n" (xs ++ ys) = joinStr c!"\n" xs ++ '\n' :: joinStr c!"\n" ys := by
  induction xs with
  | nil => exact absurd rfl hx
  | cons x xs ih =>
    cases xs with
    | nil => rw [List.singleton_append, join_cons hy]; rfl
    | cons z zs =>
      rw [List.cons_append, join_cons (by simp), ih (by simp), join_cons (p := x) (by simp)]
      simp

theorem split_join_parts : ∀ {ps : List Str}, ps ≠ [] → splitCh '\n' (joinStr c!"\n" ps) = ps.flatMap (splitCh '\n')
  | [], h => absurd rfl h
  | [p], _ => by simp [joinStr]
  | p :: q :: ps, _ => by
    rw [join_cons (by simp), splitCh_append_sep, split_join_parts (by simp)]
    simp

theorem later_join {q p : Str} {ps : List Str} : LaterLine q (joinStr c!"\n" (p :: ps)) ↔ LaterLine q p ∨ ∃ x ∈ ps, AnyLine q x := by
  unfold LaterLine AnyLine
  rw [split_join_parts (by simp)]
  cases hp : splitCh '\n' p with
  | nil => exact absurd hp (splitCh_ne_nil _ _)
  | cons a as =>
    simp only [List.flatMap_cons, hp, List.cons_append, List.tail_cons, List.mem_append, List.mem_flatMap]
    constructor
    · rintro ⟨l, h | ⟨x, hx, hl⟩, r⟩
      · exact .inl ⟨l, h, r⟩
      · exact .inr ⟨x, hx, l, hl, r⟩
    · rintro (⟨l, h, r⟩ | ⟨x, hx, l, hl, r⟩)
      · exact ⟨l, .inl h, r⟩
      · exact ⟨l, .inr ⟨x, hx, hl⟩, r⟩

theorem anyLine_dec {q s : Str} : AnyLine q s ↔ (splitCh '\n' s).any (startsWith · q) = true := by
  unfold AnyLine
  simp [List.any_eq_true, startsWith_iff]

/-- In front of the classes there is a line that begins with `q`: in the header, behind its first line, or in another part. -/
def InFront (q : Str) (p : Parts) : Prop :=
  LaterLine q p.header ∨ AnyLine q p.docstring ∨ AnyLine q p.imports ∨ AnyLine q p.constants ∨ AnyLine q p.special

/-- The lines of the frame begin with neither of the two texts that are looked for. -/
theorem frame_lines {q : Str} (hq : q = c!"class " ∨ q = c!"## END CLASS DEFINITION") :
    ∀ x ∈ flat (ModuleText.heading c!"DEPENDENCIES") ++ flat (ModuleText.heading c!"MODULE CONSTANTS") ++ flat ModuleText.versionTest ++
      flat (ModuleText.heading c!"CLASSES") ++ [[]], ¬ AnyLine q x := by
  intro x hx
  rw [anyLine_dec]
  revert x
  rcases hq with rfl | rfl <;> decide +kernel

theorem front_lines {q : Str} (hq : q = c!"class " ∨ q = c!"## END CLASS DEFINITION") (p : Parts) :
    LaterLine q (joinStr c!"\n" (front p)) ↔ InFront q p := by
  have hf := frame_lines hq
  unfold front InFront
  simp only [List.cons_append, List.nil_append, later_join]
  refine or_congr Iff.rfl ?_
  simp only [List.mem_cons, List.mem_append, List.append_assoc] at hf ⊢
  constructor
  · rintro ⟨x, hx, ha⟩
    have := hf x
    grind
  · rintro (h | h | h | h)
    all_goals exact ⟨_, by simp, h⟩

theorem module_split (p : Parts) :
    ∃ b, moduleDef p = joinStr c!"\n" (front p) ++ '\n' :: (p.classes ++ '\n' :: '\n' :: (c!"## END CLASS DEFINITION" ++ b)) := by
  refine ⟨'\n' :: joinStr c!"\n" (back p), ?_⟩
  unfold moduleDef
  rw [List.append_assoc, join_app (by simp [front]) (by simp), List.cons_append, List.cons_append, List.cons_append, List.nil_append,
    join_cons (by simp), join_cons (by simp), join_cons (by simp [back])]
  simp

theorem find_end (p : Parts) (h2 : ¬ InFront c!"## END CLASS DEFINITION" p) (h3 : ¬ AnyLine c!"## END CLASS DEFINITION" p.classes) :
    find c!"\n## END CLASS DEFINITION" (moduleDef p) = some (joinStr c!"\n" (front p) ++ '\n' :: (p.classes ++ c!"\n")).length := by
  obtain ⟨b, hb⟩ := module_split p
  rw [hb]
  have := find_first (q := c!"## END CLASS DEFINITION") (by decide) b (joinStr c!"\n" (front p) ++ '\n' :: (p.classes ++ c!"\n")) ?_
  · simpa using this
  · have e : joinStr c!"\n" (front p) ++ '\n' :: (p.classes ++ c!"\n") = joinStr c!"\n" (front p ++ [p.classes, []]) := by
      rw [join_app (by simp [front]) (by simp), join_cons (by simp)]; simp [joinStr]
    rw [e]
    intro h
    have h' : front p = p.header :: (front p).tail := by simp [front]
    rw [h', List.cons_append, later_join] at h
    have hf := (front_lines (q := c!"## END CLASS DEFINITION") (.inr rfl) p)
    rw [h', later_join] at hf
    rcases h with h | ⟨x, hx, ha⟩
    · exact h2 (hf.mp (.inl h))
    · rcases List.mem_append.mp hx with hx | hx
      · exact h2 (hf.mp (.inr ⟨x, hx, ha⟩))
      · simp only [List.mem_cons, List.not_mem_nil, or_false] at hx
        rcases hx with rfl | rfl
        · exact h3 ha
        · rw [anyLine_dec] at ha; revert ha; decide

/-- **C89 (partial).** The class code of a compiled template is the text of its class between two line breaks, for every template whose
module has no other line beginning with `class ` in front of the class and none beginning with `## END CLASS DEFINITION` in front of
or in it. Missing: the other templates, and objects that were not compiled from a source; see the counterexamples. -/
theorem C89_class_code_partial (p : Parts) (rest : Str) (hc : p.classes = c!"class " ++ rest) (h1 : ¬ InFront c!"class " p)
    (h2 : ¬ InFront c!"## END CLASS DEFINITION" p) (h3 : ¬ AnyLine c!"## END CLASS DEFINITION" p.classes) :
    generatedClassCode (some (moduleDef p)) = .ok (some (c!"\n" ++ p.classes ++ c!"\n")) := by
  obtain ⟨b, hb⟩ := module_split p
  have f1 : find c!"\nclass " (moduleDef p) = some (joinStr c!"\n" (front p)).length := by
    rw [hb, hc]
    simp only [List.append_assoc]
    exact find_first (q := c!"class ") (by decide) _ _ (fun h => h1 ((front_lines (.inl rfl) p).mp h))
  have f2 := find_end p h2 h3
  unfold generatedClassCode
  simp only [f1, f2, slice, Option.getD_some]
  rw [hb]
  have e : joinStr c!"\n" (front p) ++ '\n' :: (p.classes ++ '\n' :: '\n' :: (c!"## END CLASS DEFINITION" ++ b)) =
      (joinStr c!"\n" (front p) ++ '\n' :: (p.classes ++ c!"\n")) ++ ('\n' :: (c!"## END CLASS DEFINITION" ++ b)) := by simp
  rw [e, List.take_left, List.drop_left]
  simp

/-- **C89 (violated).** A line of the class that begins like the end marker, as text that a method writes can have, cuts the class code:
the rest of the class is missing. -/
theorem C89_cut_counterexample (p : Parts) (rest : Str) (hc : p.classes = c!"class " ++ rest) (h1 : ¬ InFront c!"class " p)
    (h3 : LaterLine c!"## END CLASS DEFINITION" p.classes) :
    ∃ part, generatedClassCode (some (moduleDef p)) = .ok (some part) ∧ part.length < (c!"\n" ++ p.classes).length := by
  obtain ⟨b, hb⟩ := module_split p
  have f1 : find c!"\nclass " (moduleDef p) = some (joinStr c!"\n" (front p)).length := by
    rw [hb, hc]
    simp only [List.append_assoc]
    exact find_first (q := c!"class ") (by decide) _ _ (fun h => h1 ((front_lines (.inl rfl) p).mp h))
  have hl : LaterLine c!"## END CLASS DEFINITION" (joinStr c!"\n" (front p ++ [p.classes])) := by
    have h' : front p = p.header :: (front p).tail := by simp [front]
    rw [h', List.cons_append, later_join]
    obtain ⟨l, hl, hr⟩ := h3
    exact .inr ⟨p.classes, by simp, l, List.mem_of_mem_tail hl, hr⟩
  obtain ⟨n, hn, hlt⟩ := find_le (by decide) _ hl ('\n' :: '\n' :: (c!"## END CLASS DEFINITION" ++ b))
  have e : joinStr c!"\n" (front p ++ [p.classes]) ++ '\n' :: '\n' :: (c!"## END CLASS DEFINITION" ++ b) = moduleDef p := by
    rw [hb, join_app (by simp [front]) (by simp)]; simp [joinStr]
  rw [e] at hn
  refine ⟨((moduleDef p).take n).drop (joinStr c!"\n" (front p)).length, by simp only [generatedClassCode, f1, hn, slice, Option.getD_some], ?_⟩
  rw [join_app (by simp [front]) (by simp)] at hlt
  simp only [List.length_drop, List.length_take, joinStr, List.length_append, List.length_cons, List.length_nil] at hlt ⊢
  omega

/-- **C89 (violated).** A line in front of the class that begins with `class `, as a module's docstring can have, is shown with all
that follows it. -/
theorem C89_docstring_counterexample (p : Parts) (h1 : AnyLine c!"class " p.docstring)
    (h2 : ¬ InFront c!"## END CLASS DEFINITION" p) (h3 : ¬ AnyLine c!"## END CLASS DEFINITION" p.classes) :
    ∃ more, generatedClassCode (some (moduleDef p)) = .ok (some (more ++ c!"\n" ++ p.classes ++ c!"\n")) ∧ more ≠ [] := by
  obtain ⟨b, hb⟩ := module_split p
  have f2 := find_end p h2 h3
  have hl : LaterLine c!"class " (joinStr c!"\n" (front p)) := (front_lines (.inl rfl) p).mpr (.inr (.inl h1))
  obtain ⟨n, hn, hlt⟩ := find_le (by decide) _ hl ('\n' :: (p.classes ++ '\n' :: '\n' :: (c!"## END CLASS DEFINITION" ++ b)))
  rw [← hb] at hn
  refine ⟨(joinStr c!"\n" (front p)).drop n, ?_, ?_⟩
  · unfold generatedClassCode
    simp only [hn, f2, slice, Option.getD_some]
    rw [hb]
    have e : joinStr c!"\n" (front p) ++ '\n' :: (p.classes ++ '\n' :: '\n' :: (c!"## END CLASS DEFINITION" ++ b)) =
        (joinStr c!"\n" (front p) ++ '\n' :: (p.classes ++ c!"\n")) ++ ('\n' :: (c!"## END CLASS DEFINITION" ++ b)) := by simp
    rw [e, List.take_left, List.drop_append_of_le_length (by omega)]
    simp
  · intro h
    have := congrArg List.length h
    simp at this
    omega

/-- **C89 (violated).** Without a compilation there is no module code, and asking for the class code is an error, not `None`. -/
theorem C89_none_counterexample : generatedModuleCode none = none ∧ generatedClassCode none = .error .attributeError := ⟨rfl, rfl⟩

theorem laterLine_dec {q s : Str} : LaterLine q s ↔ (splitCh '\n' s).tail.any (startsWith · q) = true := by
  unfold LaterLine
  simp [List.any_eq_true, startsWith_iff]

/-- A small module. -/
def demo : Parts :=
  { header := c!"#!/usr/bin/env python\n\n#  class of 1999\n", docstring := c!"\"\"\"A page with one class of greeting\n\"\"\"\n", imports := c!"import sys\nimport os",
    constants := c!"VFN=valueForName", special := c!"__CHEETAH_docstring__ = ''",
    classes := c!"class hello(Template):\n\n    def respond(self, trans=None):\n        write('''Hello\nclass ## END CLASS DEFINITION''')\n", name := c!"hello" }

example : ¬ InFront c!"class " demo := by simp only [InFront, laterLine_dec, anyLine_dec]; decide +kernel
example : ¬ InFront c!"## END CLASS DEFINITION" demo := by simp only [InFront, laterLine_dec, anyLine_dec]; decide +kernel
example : ¬ AnyLine c!"## END CLASS DEFINITION" demo.classes := by simp only [anyLine_dec]; decide +kernel
example : ∃ rest, demo.classes = c!"class " ++ rest := ⟨_, rfl⟩
example : generatedClassCode (some (moduleDef demo)) = .ok (some (c!"\n" ++ demo.classes ++ c!"\n")) := by decide +kernel

/-- The same with text in the class that has the end marker at the start of a line. -/
def cut : Parts :=
  { demo with classes := c!"class hello(Template):\n\n    def respond(self, trans=None):\n        write('''Hello\n## END CLASS DEFINITION''')\n" }

example : LaterLine c!"## END CLASS DEFINITION" cut.classes := by simp only [laterLine_dec]; decide +kernel
example : ¬ InFront c!"class " cut := by simp only [InFront, laterLine_dec, anyLine_dec]; decide +kernel
example : generatedClassCode (some (moduleDef cut)) =
    .ok (some c!"\nclass hello(Template):\n\n    def respond(self, trans=None):\n        write('''Hello") := by decide +kernel

/-! The literal that the compiler writes for a text of two lines has such a line. -/
example : LaterLine c!"## END CLASS DEFINITION" (StrConst.literal (fun _ => true) c!"Hello\n## END CLASS DEFINITION\n") := by
  simp only [laterLine_dec]; decide +kernel

/-- The same with a docstring of two lines, made of the texts of two comments `##doc-module:`. -/
def told : Parts := { demo with docstring := Doc.moduleDocstring [c!"Pages of each", c!"class of members"] }

example : AnyLine c!"class " told.docstring := by simp only [anyLine_dec]; decide +kernel
example : ¬ InFront c!"## END CLASS DEFINITION" told := by simp only [InFront, laterLine_dec, anyLine_dec]; decide +kernel

end Cheetah.ClassCode
