import Verif.Props.Header
import Verif.ClassBody
/-
Which method or value a name of the compiled class stands for.
-/
namespace Cheetah.EndToEnd
open Driver Parser
open Compile (Lang)
open ClassBody

/-! ### Specification: how Python reads a class statement -/

/-- What a name of a class is bound to: a function, with its decorators, the text behind its name, and its lines; or the value of an expression. -/
inductive Member where
  | fn (decorators : List Str) (sig : Str) (body : List (Nat × Str))
  | val (expr : Str)
  deriving DecidableEq, Repr

/-- `x = e` -/
def assignment (s : Str) : Option (Str × Str) :=
  match (s.drop (headWord s).length).dropWhile (· == ' ') with
  | '=' :: e => some (headWord s, e.dropWhile (· == ' '))
  | _ => none

/-- The names that the lines of a class body bind, in order, and the lines in front of the first statement. A `def` has the lines
behind it that are further in; a decorator belongs to the statement behind it. -/
def readBody : List (Nat × Str) → List (Nat × Str) × List (Str × Member)
  | [] => ([], [])
  | (n, s) :: rest =>
    let (b, ms) := readBody rest
    if 1 < n then ((n, s) :: b, ms)
    else match stripPrefix? c!"def " s with
      | some r => ([], (headWord r, .fn [] (r.drop (headWord r).length) b) :: ms)
      | none =>
        if s.head? = some '@' then
          match ms with
          | (x, .fn ds sig body) :: ms => ([], (x, .fn (s :: ds) sig body) :: ms)
          | ms => ([], ms)
        else match assignment s with
          | some (x, e) => ([], (x, .val e) :: ms)
          | none => ([], ms)

/-- What the name stands for in the class that the statement makes: a later binding replaces an earlier one. -/
def memberOf (lines : List (Nat × Str)) (x : Str) : Option Member :=
  (((readBody (lines.drop 1)).2.filter (·.1 = x)).getLast?).map Prod.snd

/-- The names that the compiler gives to attributes of its own. -/
def compilersNames (cf : Cf) : List Str :=
  [c!"_CHEETAH__instanceInitialized", c!"_CHEETAH_version", c!"_CHEETAH_versionTuple", c!"_CHEETAH_genTime", c!"_CHEETAH_genTimestamp", c!"_CHEETAH_src",
   c!"_CHEETAH_srcLastModified", c!"__metaclass__", c!"__str__", c!"_mainCheetahMethod_for_" ++ cf.className]

/-- Arguments as Python reads them: of a class method the first is the class, and a static method has no `self`. -/
def spelledArgs (decorators : List Str) (args : List (Str × Option Str)) : List Str :=
  let spell (a : Str × Option Str) : Str := match a.2 with | some d => a.1 ++ c!"=" ++ d | none => a.1
  if c!"@classmethod" ∈ decorators then args.map fun a => spell (if a.1 = c!"self" then (c!"cls", a.2) else a)
  else if c!"@staticmethod" ∈ decorators then (args.filter fun a => a.1 ≠ c!"self").map spell
  else args.map spell

/-- The method as a member of the class. -/
def asMember (m : Meth) : Member := .fn m.decorators (c!"(" ++ joinStr c!", " (spelledArgs m.decorators m.args) ++ c!"):") m.chunks

/-- The constructor that the compiler writes: it calls that of the base class, and sets the instance up if that has not been done. -/
def initMember (cf : Cf) : Member :=
  .fn [] c!"(self, *args, **KWs):"
    [(cf.initLev, c!"super(" ++ cf.className ++ c!", self).__init__(*args, **KWs)"),
     (2, c!"if not self._CHEETAH__instanceInitialized:"),
     (3, c!"cheetahKWArgs = {}"),
     (3, c!"allowedKWs = 'searchList namespaces filter filtersLib errorCatcher'.split()"),
     (3, c!"for k,v in KWs.items():"),
     (4, c!"if k in allowedKWs: cheetahKWArgs[k] = v"),
     (3, c!"self._initCheetahInstance(**cheetahKWArgs)")]

/-- The method has a name, its decorators look like decorators, and its lines are indented. -/
structure Neat (m : Meth) : Prop where
  word : Word m.name
  decorators : ∀ s ∈ m.decorators, s.head? = some '@'
  deep : ∀ p ∈ m.chunks, 1 < p.1

/-! ### Lemmas -/

theorem assignment_eq {v e : Str} (hv : Word v) (he : e.head? ≠ some ' ') : assignment (v ++ c!" = " ++ e) = some (v, e) := by
  have h1 : headWord (v ++ c!" = " ++ e) = v := by
    unfold headWord
    rw [show v ++ c!" = " ++ e = v ++ (' ' :: ('=' :: ' ' :: e)) by simp]
    exact (takeWhile_stop (fun c hc => hv.all c hc) (by rintro _ ⟨⟩; decide)).1
  unfold assignment
  rw [h1, show v ++ c!" = " ++ e = v ++ (' ' :: '=' :: ' ' :: e) by simp, List.drop_left]
  simp only [List.dropWhile_cons, beq_self_eq_true, if_true]
  have h2 : e.dropWhile (· == ' ') = e := by
    cases e with
    | nil => rfl
    | cons c r =>
      have : c ≠ ' ' := by intro h; apply he; rw [h]; rfl
      rw [List.dropWhile_cons]; simp [this]
  simp [h2]

/-- The lines are statements that bind these names. -/
def Gives (S : List (Nat × Str)) (M : List (Str × Member)) : Prop :=
  ∀ rest, (readBody rest).1 = [] → readBody (S ++ rest) = ([], M ++ (readBody rest).2)

theorem Gives.nil : Gives [] [] := fun rest h => by
  rw [List.nil_append, List.nil_append, ← h]

theorem Gives.append {S S' : List (Nat × Str)} {M M' : List (Str × Member)} (h : Gives S M) (h' : Gives S' M') : Gives (S ++ S') (M ++ M') := by
  intro rest hr
  have h2 := h' rest hr
  rw [List.append_assoc, h (S' ++ rest) (by rw [h2]), h2, List.append_assoc]

theorem gives_flat {α : Type} {f : α → List (Nat × Str)} {g : α → Str × Member} : ∀ (l : List α), (∀ a ∈ l, Gives (f a) [g a]) → Gives (l.flatMap f) (l.map g)
  | [], _ => .nil
  | a :: l, h => by
    rw [List.flatMap_cons, List.map_cons, ← List.singleton_append]
    exact (h a List.mem_cons_self).append (gives_flat l fun b hb => h b (List.mem_cons_of_mem _ hb))

theorem gives_note {s : Str} (h1 : stripPrefix? c!"def " s = none) (h2 : s.head? ≠ some '@') (h3 : assignment s = none) : Gives [(1, s)] [] := by
  intro rest hr
  rw [List.singleton_append, readBody]
  simp only [show ¬ 1 < 1 by omega, if_false, h1, h2, h3, List.nil_append]

theorem gives_val {s v e : Str} (h1 : stripPrefix? c!"def " s = none) (h2 : s.head? ≠ some '@') (h3 : assignment s = some (v, e)) : Gives [(1, s)] [(v, .val e)] := by
  intro rest hr
  rw [List.singleton_append, readBody]
  simp only [show ¬ 1 < 1 by omega, if_false, h1, h2, h3, List.singleton_append]

theorem readBody_deep : ∀ (b rest : List (Nat × Str)), (∀ p ∈ b, 1 < p.1) → (readBody rest).1 = [] → readBody (b ++ rest) = (b, (readBody rest).2)
  | [], rest, _, h => by rw [List.nil_append, ← h]
  | (n, s) :: b, rest, hb, h => by
    rw [List.cons_append, readBody, readBody_deep b rest (fun p hp => hb p (List.mem_cons_of_mem _ hp)) h]
    simp only [show 1 < n from hb (n, s) List.mem_cons_self, if_true]

theorem gives_fn {n sig : Str} {b : List (Nat × Str)} (hn : ∀ c ∈ n, identChar c = true) (hs : ∀ c, sig.head? = some c → identChar c = false) (hb : ∀ p ∈ b, 1 < p.1) :
    Gives ((1, c!"def " ++ n ++ sig) :: b) [(n, .fn [] sig b)] := by
  intro rest hr
  have h1 : stripPrefix? c!"def " (c!"def " ++ n ++ sig) = some (n ++ sig) := by
    rw [List.append_assoc]; exact strip_hit _ _
  have h2 : headWord (n ++ sig) = n := (takeWhile_stop hn hs).1
  rw [List.cons_append, readBody, readBody_deep b rest hb hr]
  simp only [show ¬ 1 < 1 by omega, if_false, h1, h2, List.drop_left, List.singleton_append]

theorem gives_decorated {n sig : Str} {b : List (Nat × Str)} (hn : ∀ c ∈ n, identChar c = true) (hs : ∀ c, sig.head? = some c → identChar c = false) (hb : ∀ p ∈ b, 1 < p.1) :
    ∀ (ds : List Str), (∀ s ∈ ds, s.head? = some '@') → Gives (ds.map (1, ·) ++ (1, c!"def " ++ n ++ sig) :: b) [(n, .fn ds sig b)]
  | [], _ => gives_fn hn hs hb
  | d :: ds, h => by
    intro rest hr
    have hd := h d List.mem_cons_self
    have h1 : stripPrefix? c!"def " d = none := by
      cases d with
      | nil => cases hd
      | cons c r =>
        injection hd with hd
        subst hd
        rfl
    have ih := gives_decorated hn hs hb ds (fun s hs => h s (List.mem_cons_of_mem _ hs)) rest hr
    rw [List.map_cons, List.cons_append, List.cons_append, readBody, ih]
    simp only [show ¬ 1 < 1 by omega, if_false, h1, hd, if_true, List.singleton_append]

theorem argTexts_eq (m : Meth) : ClassBody.argTexts m = spelledArgs m.decorators m.args := by
  unfold ClassBody.argTexts spelledArgs
  by_cases hc : c!"@classmethod" ∈ m.decorators
  · rw [if_pos hc]
    induction m.args with
    | nil => rfl
    | cons a l ih =>
      obtain ⟨a, d⟩ := a
      rw [List.filterMap_cons, List.map_cons, ih]
      by_cases ha : a = c!"self"
      · subst ha
        cases d <;> simp [hc]
      · cases d <;> simp [ha]
  · rw [if_neg hc]
    by_cases hst : c!"@staticmethod" ∈ m.decorators
    · rw [if_pos hst]
      induction m.args with
      | nil => rfl
      | cons a l ih =>
        obtain ⟨a, d⟩ := a
        rw [List.filterMap_cons, ih]
        by_cases ha : a = c!"self"
        · subst ha
          simp [hc, hst]
        · cases d <;> simp [ha]
    · rw [if_neg hst]
      induction m.args with
      | nil => rfl
      | cons a l ih =>
        obtain ⟨a, d⟩ := a
        rw [List.filterMap_cons, List.map_cons, ih]
        cases d <;> simp [hc, hst]

theorem gives_method {m : Meth} (h : Neat m) : Gives (methodLines m) [(m.name, asMember m)] := by
  unfold methodLines signature asMember
  rw [List.append_assoc, List.singleton_append, ← argTexts_eq]
  have := gives_decorated (n := m.name) (sig := c!"(" ++ joinStr c!", " (ClassBody.argTexts m) ++ c!"):") (b := m.chunks) (fun c hc => h.word.all c hc) (by rintro _ ⟨⟩; decide) h.deep m.decorators h.decorators
  convert this using 3
  simp

theorem gives_init {cf : Cf} (hl : 1 < cf.initLev) : Gives (initLines cf) [(c!"__init__", initMember cf)] := by
  have := gives_fn (n := c!"__init__") (sig := c!"(self, *args, **KWs):") (b := (initLines cf).tail) (by decide) (by rintro _ ⟨⟩; decide) (by
    intro p hp
    simp only [initLines, List.tail_cons, List.mem_cons, List.not_mem_nil, or_false] at hp
    rcases hp with rfl | rfl | rfl | rfl | rfl | rfl | rfl <;> simp [hl])
  exact this

theorem gives_methods {cf : Cf} (hl : 1 < cf.initLev) {cc : CC} (hm : ∀ m ∈ cc.finished, Neat m) :
    Gives (methodsPart cf cc) ((c!"__init__", initMember cf) :: cc.finished.map fun m => (m.name, asMember m)) := by
  have h1 : Gives [(1, List.replicate 50 '#'), (1, c!"## CHEETAH GENERATED METHODS")] [] :=
    Gives.append (S := [(1, List.replicate 50 '#')]) (M := []) (gives_note (by decide) (by decide) (by decide)) (gives_note (by decide) (by decide) (by decide))
  have := (h1.append (gives_init hl)).append (gives_flat (f := methodLines) (g := fun m => (m.name, asMember m)) cc.finished fun m h => gives_method (hm m h))
  exact this

/-- One line that binds one of the names. -/
def Binds (N : List Str) (s : Str) : Prop := ∃ x v, x ∈ N ∧ Gives [(1, s)] [(x, v)]

theorem gives_lines {N : List Str} : ∀ (l : List Str), (∀ s ∈ l, Binds N s) → ∃ M : List (Str × Member), (∀ p ∈ M, p.1 ∈ N) ∧ Gives (l.map (1, ·)) M
  | [], _ => ⟨[], by simp, .nil⟩
  | s :: l, h => by
    obtain ⟨x, v, h1, h2⟩ := h s List.mem_cons_self
    obtain ⟨M, h3, h4⟩ := gives_lines l fun t ht => h t (List.mem_cons_of_mem _ ht)
    refine ⟨(x, v) :: M, ?_, ?_⟩
    · intro p hp
      rcases List.mem_cons.1 hp with rfl | hp
      · exact h1
      · exact h3 p hp
    · have := h2.append h4
      exact this

theorem word_no_def {v r : Str} (hv : Word v) (hd : v ≠ c!"def") : stripPrefix? c!"def " (v ++ c!" = " ++ r) = none ∧ (v ++ c!" = " ++ r).head? ≠ some '@' := by
  have hall := hv.all
  obtain ⟨c, w, hcw, h1, h2⟩ := hv
  refine ⟨?_, ?_⟩
  · cases hs : stripPrefix? c!"def " (v ++ c!" = " ++ r) with
    | none => rfl
    | some t =>
      exfalso
      have h3 := strip_some hs
      have h4 : headWord (v ++ c!" = " ++ r) = v := by
        rw [show v ++ c!" = " ++ r = v ++ (' ' :: ('=' :: ' ' :: r)) by simp]
        exact (takeWhile_stop hall (by rintro _ ⟨⟩; decide)).1
      rw [h3] at h4
      exact hd (h4.symm.trans (takeWhile_stop (a := c!"def") (t := ' ' :: t) (by decide) (by rintro _ ⟨⟩; decide)).1)
  · rw [hcw]
    simp
    rintro rfl
    exact absurd h1 (by decide)

theorem binds_line {N : List Str} {v r : Str} (hv : Word v) (hd : v ≠ c!"def") (hN : v ∈ N) : Binds N (v ++ c!" = " ++ r) := by
  obtain ⟨h1, h2⟩ := word_no_def (r := r) hv hd
  refine ⟨v, .val (r.dropWhile (· == ' ')), hN, gives_val h1 h2 ?_⟩
  have h4 : headWord (v ++ c!" = " ++ r) = v := by
    rw [show v ++ c!" = " ++ r = v ++ (' ' :: ('=' :: ' ' :: r)) by simp]
    exact (takeWhile_stop hv.all (by rintro _ ⟨⟩; decide)).1
  unfold assignment
  rw [h4, show v ++ c!" = " ++ r = v ++ (' ' :: '=' :: ' ' :: r) by simp, List.drop_left]
  simp

theorem main_word {cf : Cf} (hc : Word cf.className) : Word (c!"_mainCheetahMethod_for_" ++ cf.className) ∧ c!"_mainCheetahMethod_for_" ++ cf.className ≠ c!"def" := by
  refine ⟨⟨'_', _, rfl, by decide, ?_⟩, by simp⟩
  intro c hc'
  rcases List.mem_append.1 hc' with h | h
  · exact (show ∀ c ∈ c!"mainCheetahMethod_for_", identChar c = true by decide) c h
  · exact hc.all c h

theorem binds_firsts {o : Opts} {cf : Cf} : ∀ s ∈ firstAttribs o, Binds (compilersNames cf) s := by
  have one : ∀ (v r : Str), (match v with | [] => false | c :: r => Parser.identStart c && r.all identChar) = true → v ≠ c!"def" → v ∈ compilersNames cf → Binds (compilersNames cf) (v ++ c!" = " ++ r) :=
    fun v r h1 h2 h3 => binds_line (demo_word h1) h2 h3
  intro s hs
  unfold firstAttribs at hs
  rcases List.mem_append.1 hs with hs | hs
  · rcases List.mem_append.1 hs with hs | hs
    · rcases List.mem_append.1 hs with hs | hs
      · simp only [List.mem_cons, List.not_mem_nil, or_false] at hs
        rcases hs with rfl | rfl | rfl
        · exact one c!"_CHEETAH__instanceInitialized" c!"False" (by decide) (by decide) (by simp [compilersNames])
        · exact one c!"_CHEETAH_version" c!"__CHEETAH_version__" (by decide) (by decide) (by simp [compilersNames])
        · exact one c!"_CHEETAH_versionTuple" c!"__CHEETAH_versionTuple__" (by decide) (by decide) (by simp [compilersNames])
      · split at hs
        · simp only [List.mem_cons, List.not_mem_nil, or_false] at hs
          rcases hs with rfl | rfl
          · exact one c!"_CHEETAH_genTime" c!"__CHEETAH_genTime__" (by decide) (by decide) (by simp [compilersNames])
          · exact one c!"_CHEETAH_genTimestamp" c!"__CHEETAH_genTimestamp__" (by decide) (by decide) (by simp [compilersNames])
        · simp at hs
    · simp only [List.mem_cons, List.not_mem_nil, or_false] at hs
      rcases hs with rfl | rfl
      · exact one c!"_CHEETAH_src" c!"__CHEETAH_src__" (by decide) (by decide) (by simp [compilersNames])
      · exact one c!"_CHEETAH_srcLastModified" c!"__CHEETAH_srcLastModified__" (by decide) (by decide) (by simp [compilersNames])
  · split at hs
    · simp at hs
    · simp only [List.mem_cons, List.not_mem_nil, or_false] at hs
      subst hs
      exact one c!"__metaclass__" o.metaclass (by decide) (by decide) (by simp [compilersNames])

theorem gives_attribs {o : Opts} {cf : Cf} (hc : Word cf.className) {cc : CC} {as : List (Str × Str)} (has : cc.attribs = as.map fun a => a.1 ++ c!" = " ++ a.2)
    (hw : ∀ a ∈ as, Word a.1 ∧ a.1 ≠ c!"def" ∧ a.2.head? ≠ some ' ') :
    ∃ G K, (∀ p ∈ G, p.1 ∈ compilersNames cf) ∧ (∀ p ∈ K, p.1 = c!"__str__") ∧
      Gives (attribsPart o cf cc) (G ++ (as.map fun a => (a.1, Member.val a.2)) ++ K ++
        [(c!"_mainCheetahMethod_for_" ++ cf.className, .val (pyRepr cf.printable cc.mainName))]) := by
  have h1 : Gives [(1, List.replicate 50 '#'), (1, c!"## CHEETAH GENERATED ATTRIBUTES")] [] :=
    Gives.append (S := [(1, List.replicate 50 '#')]) (M := []) (gives_note (by decide) (by decide) (by decide)) (gives_note (by decide) (by decide) (by decide))
  obtain ⟨G, hG, hG2⟩ := gives_lines (N := compilersNames cf) (firstAttribs o) binds_firsts
  have h2 : Gives (cc.attribs.map (1, ·)) (as.map fun a => (a.1, Member.val a.2)) := by
    have := gives_flat (f := fun a : Str × Str => [(1, a.1 ++ c!" = " ++ a.2)]) (g := fun a => (a.1, Member.val a.2)) as (fun a ha => by
      obtain ⟨k1, k2, k3⟩ := hw a ha
      obtain ⟨n1, n2⟩ := word_no_def (r := a.2) k1 k2
      exact gives_val n1 n2 (assignment_eq k1 k3))
    have e : as.flatMap (fun a : Str × Str => [(1, a.1 ++ c!" = " ++ a.2)]) = cc.attribs.map (1, ·) := by
      rw [has, List.map_map]
      clear has hw this
      induction as with
      | nil => rfl
      | cons a as ih => rw [List.flatMap_cons, ih]; rfl
    rw [← e]
    exact this
  obtain ⟨K, hK, hK2⟩ : ∃ K : List (Str × Member), (∀ p ∈ K, p.1 = c!"__str__") ∧
      Gives ((if cc.mainName = c!"respond" ∧ o.strMethod then [c!"def __str__(self): return self.respond()"] else []).map ((1 : Nat), ·)) K := by
    split
    · refine ⟨[(c!"__str__", .fn [] c!"(self): return self.respond()" [])], by simp, ?_⟩
      exact gives_fn (n := c!"__str__") (sig := c!"(self): return self.respond()") (b := []) (by decide) (by rintro _ ⟨⟩; decide) (by simp)
    · exact ⟨[], by simp, .nil⟩
  obtain ⟨m1, m2⟩ := main_word hc
  obtain ⟨n1, n2⟩ := word_no_def (r := pyRepr cf.printable cc.mainName) m1 m2
  have hrep : (pyRepr cf.printable cc.mainName).head? ≠ some ' ' := by
    unfold pyRepr reprQuote
    dsimp only
    split <;> simp
  have h3 := gives_val n1 n2 (assignment_eq m1 hrep)
  refine ⟨G, K, hG, hK, ?_⟩
  have := h1.append (((hG2.append h2).append hK2).append h3)
  unfold attribsPart attribs
  simp only [List.map_append] at this ⊢
  exact this

/-- The last that is bound to the name. -/
def lastOf (M : List (Str × Member)) (x : Str) : Option Member := ((M.filter (·.1 = x)).getLast?).map Prod.snd

theorem lastOf_append (A B : List (Str × Member)) (x : Str) : lastOf (A ++ B) x = (lastOf B x).or (lastOf A x) := by
  unfold lastOf
  rw [List.filter_append, List.getLast?_append]
  cases (B.filter (·.1 = x)).getLast? <;> simp

theorem lastOf_none {M : List (Str × Member)} {x : Str} (h : ∀ p ∈ M, p.1 ≠ x) : lastOf M x = none := by
  unfold lastOf
  rw [List.filter_eq_nil_iff.2 (by simpa using h)]
  rfl

theorem lastOf_map {α : Type} (l : List α) (n : α → Str) (f : α → Member) (x : Str) :
    lastOf (l.map fun a => (n a, f a)) x = ((l.filter fun a => n a = x).getLast?).map f := by
  unfold lastOf
  rw [List.filter_map, List.getLast?_map, Option.map_map]
  rfl

theorem memberOf_eq {c : Nat × Str} {S : List (Nat × Str)} {M : List (Str × Member)} (h : Gives S M) (x : Str) : memberOf (c :: S) x = lastOf M x := by
  have := h [] rfl
  rw [List.append_nil] at this
  unfold memberOf lastOf
  rw [List.drop_succ_cons, List.drop_zero, this]
  simp [readBody]

/-! ### The properties -/

/-- C81, for every class that the compiler makes: a name means what the last `#attr` says that assigns it. Without one it means the method of that
name that was finished last, and `__init__` means the compiler's constructor unless there is such a method. All other names are those of the base class.
(Names of the compiler's own attributes aside.) -/
theorem C81_names_of_a_class (o : Opts) (ho : o.methodsFirst = true) (cf : Cf) (hl : 1 < cf.initLev) (hc : Word cf.className) (cc : CC) (hm : ∀ m ∈ cc.finished, Neat m)
    (as : List (Str × Str)) (has : cc.attribs = as.map fun a => a.1 ++ c!" = " ++ a.2) (hw : ∀ a ∈ as, Word a.1 ∧ a.1 ≠ c!"def" ∧ a.2.head? ≠ some ' ')
    (x : Str) (hx : x ∉ compilersNames cf) :
    memberOf (classLines o cf cc) x =
      match (as.filter fun a => a.1 = x).getLast? with
      | some a => some (.val a.2)
      | none =>
        match (cc.finished.filter fun m => m.name = x).getLast? with
        | some m => some (asMember m)
        | none => if x = c!"__init__" then some (initMember cf) else none := by
  obtain ⟨G, K, hG, hK, hA⟩ := gives_attribs (o := o) hc has hw
  have hM := gives_methods hl hm
  unfold classLines
  rw [ho, if_pos rfl, memberOf_eq (hM.append hA)]
  have x1 : lastOf [(c!"_mainCheetahMethod_for_" ++ cf.className, Member.val (pyRepr cf.printable cc.mainName))] x = none :=
    lastOf_none (by
      intro p hp e
      apply hx
      rw [← e]
      simp only [List.mem_cons, List.not_mem_nil, or_false] at hp
      subst hp
      simp [compilersNames])
  have x2 : lastOf K x = none := lastOf_none fun p hp e => hx (by rw [← e, hK p hp]; simp [compilersNames])
  have x3 : lastOf G x = none := lastOf_none fun p hp e => hx (by rw [← e]; exact hG p hp)
  rw [lastOf_append, lastOf_append, lastOf_append, lastOf_append, x1, x2, x3, lastOf_map, ← List.singleton_append, lastOf_append, lastOf_map]
  simp only [Option.none_or, Option.or_none]
  cases (as.filter fun a => a.1 = x).getLast? with
  | some a => rfl
  | none =>
    cases (cc.finished.filter fun m => m.name = x).getLast? with
    | some m => rfl
    | none =>
      by_cases h : x = c!"__init__"
      · subst h; rfl
      · rw [if_neg h]
        simp only [Option.map_none, Option.none_or]
        exact lastOf_none (by simpa using fun e => h e.symm)

/-- With the methods written last, methods replace attributes. -/
theorem C81_methods_last (o : Opts) (ho : o.methodsFirst = false) (cf : Cf) (hl : 1 < cf.initLev) (hc : Word cf.className) (cc : CC) (hm : ∀ m ∈ cc.finished, Neat m)
    (as : List (Str × Str)) (has : cc.attribs = as.map fun a => a.1 ++ c!" = " ++ a.2) (hw : ∀ a ∈ as, Word a.1 ∧ a.1 ≠ c!"def" ∧ a.2.head? ≠ some ' ')
    (x : Str) (hx : x ∉ compilersNames cf) :
    memberOf (classLines o cf cc) x =
      match (cc.finished.filter fun m => m.name = x).getLast? with
      | some m => some (asMember m)
      | none =>
        if x = c!"__init__" then some (initMember cf)
        else ((as.filter fun a => a.1 = x).getLast?).map fun a => .val a.2 := by
  obtain ⟨G, K, hG, hK, hA⟩ := gives_attribs (o := o) hc has hw
  have hM := gives_methods hl hm
  unfold classLines
  rw [ho, if_neg (by simp), memberOf_eq (hA.append hM)]
  have x1 : lastOf [(c!"_mainCheetahMethod_for_" ++ cf.className, Member.val (pyRepr cf.printable cc.mainName))] x = none :=
    lastOf_none (by
      intro p hp e
      apply hx
      rw [← e]
      simp only [List.mem_cons, List.not_mem_nil, or_false] at hp
      subst hp
      simp [compilersNames])
  have x2 : lastOf K x = none := lastOf_none fun p hp e => hx (by rw [← e, hK p hp]; simp [compilersNames])
  have x3 : lastOf G x = none := lastOf_none fun p hp e => hx (by rw [← e]; exact hG p hp)
  rw [lastOf_append, lastOf_append, lastOf_append, lastOf_append, x1, x2, x3, lastOf_map, ← List.singleton_append, lastOf_append, lastOf_map]
  simp only [Option.none_or, Option.or_none]
  cases (cc.finished.filter fun m => m.name = x).getLast? with
  | some m => rfl
  | none =>
    by_cases h : x = c!"__init__"
    · subst h; rfl
    · rw [if_neg h]
      rw [lastOf_none (x := x) (M := [(c!"__init__", initMember cf)]) (by simpa using fun e => h e.symm)]
      rfl

/-- The name of the main method is always that of the method the template's text was compiled into: an attribute of the class has it, whatever the
template assigns. -/
theorem C81_main_method (o : Opts) (ho : o.methodsFirst = true) (cf : Cf) (hl : 1 < cf.initLev) (hc : Word cf.className) (cc : CC) (hm : ∀ m ∈ cc.finished, Neat m)
    (as : List (Str × Str)) (has : cc.attribs = as.map fun a => a.1 ++ c!" = " ++ a.2) (hw : ∀ a ∈ as, Word a.1 ∧ a.1 ≠ c!"def" ∧ a.2.head? ≠ some ' ') :
    memberOf (classLines o cf cc) (c!"_mainCheetahMethod_for_" ++ cf.className) = some (.val (pyRepr cf.printable cc.mainName)) := by
  obtain ⟨G, K, hG, hK, hA⟩ := gives_attribs (o := o) hc has hw
  have hM := gives_methods hl hm
  unfold classLines
  rw [ho, if_pos rfl, memberOf_eq (hM.append hA), lastOf_append, lastOf_append]
  simp [lastOf]

/-! ### From the source -/

/-- The attributes that the directives assign, and the expressions. -/
def assignedBy (ts : List Top) : List (Str × Ex) :=
  ts.filterMap fun
    | .attr v e => some (v, e)
    | _ => none

/-- What the names of the class stand for: the attributes `attrs`, the method `main` with the text of the document, and its definitions, in this
order; then the constructor. -/
def Stands (o : Opts) (cf : Cf) (cc : CC) (attrs : List (Str × Ex)) (main : Str) (d : Doc) : Prop :=
  ∀ x, x ∉ compilersNames cf →
    match (attrs.filter fun a => a.1 = x).getLast? with
    | some a => memberOf (classLines o cf cc) x = some (.val a.2.py)
    | none =>
      if x = main then ∃ m, MainDoes cf main m d ∧ memberOf (classLines o cf cc) x = some (asMember m)
      else match ((defsOf d).filter fun f => f.name = x).getLast? with
        | some f => ∃ m, Implements cf m f ∧ memberOf (classLines o cf cc) x = some (asMember m)
        | none => memberOf (classLines o cf cc) x = if x = c!"__init__" then some (initMember cf) else none

theorem forall₂_last {cf : Cf} {ms : List Meth} {fs : List Def} (h : List.Forall₂ (Implements cf) ms fs) (x : Str) :
    match (fs.filter fun f => f.name = x).getLast? with
    | some f => ∃ m, Implements cf m f ∧ (ms.filter fun m => m.name = x).getLast? = some m
    | none => (ms.filter fun m => m.name = x).getLast? = none := by
  have : List.Forall₂ (Implements cf) (ms.filter fun m => m.name = x) (fs.filter fun f => f.name = x) := by
    induction h with
    | nil => exact .nil
    | @cons m f ms fs h1 _ ih =>
      have e : m.name = f.name := h1.1
      by_cases hx : f.name = x
      · rw [List.filter_cons_of_pos (by simpa [e] using hx), List.filter_cons_of_pos (by simpa using hx)]
        exact .cons h1 ih
      · rw [List.filter_cons_of_neg (by simpa [e] using hx), List.filter_cons_of_neg (by simpa using hx)]
        exact ih
  revert this
  generalize (ms.filter fun m => m.name = x) = a
  generalize (fs.filter fun f => f.name = x) = b
  intro this
  have last : ∀ {a : List Meth} {b : List Def}, List.Forall₂ (Implements cf) a b → match b.getLast? with
      | some f => ∃ m, Implements cf m f ∧ a.getLast? = some m
      | none => a.getLast? = none := by
    intro a b h
    induction h with
    | nil => rfl
    | @cons m f ms fs h1 h2 ih =>
      cases h2 with
      | nil => exact ⟨m, h1, rfl⟩
      | cons h3 h4 =>
        rw [List.getLast?_cons_cons, List.getLast?_cons_cons]
        exact ih
  exact last this

theorem stands_of {o : Opts} (ho : o.methodsFirst = true) {cf : Cf} (hl : 1 < cf.initLev) (hc : Word cf.className) {cc : CC} {tok : Str → Option Nat} {ts : List Top}
    (hts : ∀ t ∈ ts, t.Ok tok ∧ ∀ v e, t = .attr v e → v ≠ c!"def") {ms : List Meth} {m : Meth} {main : Str} {d : Doc} (h1 : cc.finished = ms ++ [m]) (h2 : cc.attribs = attrsOf ts)
    (h3 : MainDoes cf main m d) (h4 : List.Forall₂ (Implements cf) ms (defsOf d)) (h5 : ∀ x ∈ ms ++ [m], Settled cf x) (h6 : cc.mainName = main) :
    memberOf (classLines o cf cc) (c!"_mainCheetahMethod_for_" ++ cf.className) = some (.val (pyRepr cf.printable main)) ∧ Stands o cf cc (assignedBy ts) main d := by
  have hneat : ∀ m ∈ cc.finished, Neat m := by
    rw [h1]
    intro y hy
    obtain ⟨a, b, c⟩ := h5 y hy
    exact ⟨a, by rw [b]; simp, fun p hp => Nat.lt_of_lt_of_le hl (c p hp)⟩
  have hattr : cc.attribs = ((assignedBy ts).map fun a => (a.1, a.2.py)).map fun a => a.1 ++ c!" = " ++ a.2 := by
    rw [h2, List.map_map]
    unfold attrsOf assignedBy
    rw [List.map_filterMap]
    congr 1
    funext t
    cases t <;> rfl
  have hw : ∀ a ∈ (assignedBy ts).map fun a => (a.1, a.2.py), Word a.1 ∧ a.1 ≠ c!"def" ∧ a.2.head? ≠ some ' ' := by
    intro a ha
    obtain ⟨b, hb, rfl⟩ := List.mem_map.1 ha
    obtain ⟨t, ht, hb⟩ := List.mem_filterMap.1 hb
    cases t <;> simp at hb
    rename_i v e
    subst hb
    obtain ⟨k1, k2⟩ := hts _ ht
    obtain ⟨d, r, q1, q2⟩ := k1.2.2.py_head
    refine ⟨k1.1, k2 _ _ rfl, ?_⟩
    show e.py.head? ≠ _
    rw [q1]
    simp
    rintro rfl
    exact absurd q2 (by decide +kernel)
  refine ⟨h6 ▸ C81_main_method o ho cf hl hc cc hneat _ hattr hw, fun x hx => ?_⟩
  have key := C81_names_of_a_class o ho cf hl hc cc hneat _ hattr hw x hx
  rw [List.filter_map, List.getLast?_map] at key
  have e : ((assignedBy ts).filter ((fun a => decide (a.1 = x)) ∘ fun a => (a.1, a.2.py))) = (assignedBy ts).filter fun a => a.1 = x := rfl
  rw [e] at key
  cases hlast : ((assignedBy ts).filter fun a => a.1 = x).getLast? with
  | some a =>
    rw [hlast] at key
    exact key
  | none =>
    rw [hlast, h1, List.filter_append] at key
    simp only [Option.map_none] at key
    dsimp only
    split
    · rename_i hxm
      have : m.name = x := h3.1.trans hxm.symm
      rw [List.filter_cons_of_pos (by simpa using this), List.getLast?_append] at key
      exact ⟨m, h3, key⟩
    · rename_i hxm
      have : m.name ≠ x := fun h => hxm (h.symm.trans h3.1)
      rw [List.filter_cons_of_neg (by simpa using this), List.filter_nil, List.append_nil] at key
      have hf := forall₂_last h4 x
      cases hd : ((defsOf d).filter fun f => f.name = x).getLast? with
      | some f =>
        rw [hd] at hf
        obtain ⟨y, y1, y2⟩ := hf
        rw [y2] at key
        exact ⟨y, y1, key⟩
      | none =>
        rw [hd] at hf
        dsimp only at hf
        rw [hf] at key
        exact key

/-- C81, from the source, for a template without `#extends`. A name of the class that its source is compiled to means: the value that the last `#attr` gives it; else, if it is
the name of the main method, the method with the template's text; else the method of the `#def` or `#block` of that name which ends last; else nothing that the
base class `Template` does not have, other than a constructor. -/
theorem C81_names_of_a_template_partial {h : Parser.Env} (hp : Tame h) (hx : h.exprExtends = false) {cf : Cf} (hu : Usual cf) (hpr : Printable cf.printable)
    (hlev : 1 < cf.initLev) (hcn : Word cf.className) (o : Opts) (ho : o.methodsFirst = true)
    (hl : cf.legacyImports = true) (ts : List Top) (hts : ∀ t ∈ ts, (t.Ok h.tok ∧ ∀ v e, t = .attr v e → v ≠ c!"def") ∧ Quiet t)
    (imps : List Imp) (hg : ∀ i ∈ imps, i.Good) (hi : importsOf ts = imps.map Imp.text)
    (d : Doc) (hok : d.Ok h.tok true none) (hr : Regular cf d) (hs : h.src = ts.flatMap Top.src ++ d.src) :
    ∃ cmds cc, h.parse fullSt = .ok cmds ∧ CC.compile cf cmds = .ok cc ∧
      (classLines o cf cc).head? = some (0, c!"class " ++ cf.className ++ c!"(Template):") ∧
      memberOf (classLines o cf cc) (c!"_mainCheetahMethod_for_" ++ cf.className) = some (.val (pyRepr cf.printable (mainOf cf.mainForSub c!"respond" ts))) ∧
      Stands o cf cc (assignedBy ts) (mainOf cf.mainForSub c!"respond" ts) d := by
  obtain ⟨cmds, cc, ms, m, h1, h2, h3, h4, h5, h6, h7, h8, h9, h10, h11, h12, h13⟩ :=
    header_compiled hp hx hu hpr hl ts (fun t ht => ⟨(hts t ht).1.1, (hts t ht).2⟩) imps hg hi d hok hr hs
  refine ⟨cmds, cc, h1, h2, ?_, stands_of ho hlev hcn (fun t ht => (hts t ht).1) h3 h7 h10 h11 h12 h13⟩
  unfold classLines
  rw [h5, List.head?_cons]
  simp

/-- C81, from the source, for a template with one `#extends`: the class statement names the base classes, and the names of the class stand for what the
directives around it and the rest of the source say. -/
theorem C81_names_of_a_template_with_base_partial {h : Parser.Env} (hp : Tame h) (hx : h.exprExtends = false) {cf : Cf} (hu : Usual cf) (hpr : Printable cf.printable)
    (hlev : 1 < cf.initLev) (hcn : Word cf.className) (o : Opts) (ho : o.methodsFirst = true)
    (hsub : Word cf.mainForSub) (hl : cf.legacyImports = true) (ha : cf.autoImport = true) (us : List Top) (kss : List (List Str)) (ts : List Top)
    (hus : ∀ t ∈ us, (t.Ok h.tok ∧ ∀ v e, t = .attr v e → v ≠ c!"def") ∧ Quiet t) (hts : ∀ t ∈ ts, (t.Ok h.tok ∧ ∀ v e, t = .attr v e → v ≠ c!"def") ∧ Quiet t)
    (imps imps' : List Imp) (hg : ∀ i ∈ imps, i.Good) (hg' : ∀ i ∈ imps', i.Good) (hi : importsOf us = imps.map Imp.text) (hi' : importsOf ts = imps'.map Imp.text)
    (hne : kss ≠ []) (hk : ∀ ks ∈ kss, Parts ks ∧ ks ≠ [c!"object"] ∧ ∀ k ∈ ks, Word k) (hun : AllUnseen (givenAtStart ++ imps.flatMap Imp.given) kss)
    (d : Doc) (hok : d.Ok h.tok true none) (hr : Regular cf d) (hs : h.src = (us ++ .extends_ kss :: ts).flatMap Top.src ++ d.src) :
    ∃ cmds cc, h.parse fullSt = .ok cmds ∧ CC.compile cf cmds = .ok cc ∧
      (classLines o cf cc).head? = some (0, c!"class " ++ cf.className ++ c!"(" ++ joinStr c!", " (kss.map className) ++ c!"):") ∧
      memberOf (classLines o cf cc) (c!"_mainCheetahMethod_for_" ++ cf.className) = some (.val (pyRepr cf.printable (mainOf cf.mainForSub cf.mainForSub ts))) ∧
      Stands o cf cc (assignedBy (us ++ ts)) (mainOf cf.mainForSub cf.mainForSub ts) d := by
  obtain ⟨cmds, cc, ms, m, h1, h2, h3, h4, h5, h6, _, h7, h8, h9, h10, h11, h12, h13⟩ :=
    based_compiled hp hx hu hpr hsub hl ha us kss ts (fun t ht => ⟨(hus t ht).1.1, (hus t ht).2⟩) (fun t ht => ⟨(hts t ht).1.1, (hts t ht).2⟩)
      imps imps' hg hg' hi hi' hne hk hun d hok hr hs
  refine ⟨cmds, cc, h1, h2, ?_, stands_of ho hlev hcn (fun t ht => (List.mem_append.1 ht).elim (fun k => (hus t k).1) fun k => (hts t k).1) h3 h7 h10 h11 h12 h13⟩
  unfold classLines
  rw [h5, List.head?_cons]

/-! ### Examples -/

/-- What the name stands for in the class compiled from the source. -/
def demoMember (src x : Str) : Option Member :=
  match (Parser.demoEnv src).parse fullSt with
  | .error _ => none
  | .ok cmds =>
    match CC.compile Driver.demoCf cmds with
    | .error _ => none
    | .ok cc => memberOf (classLines { methodsFirst := true } Driver.demoCf cc) x

/-- The lines of the method. -/
def demoBody : Option Member → List Str
  | some (.fn _ _ body) => body.map Prod.snd
  | _ => []

/-- C81 does not make every definition a method of the class: one with the name of the main method is lost, and nothing is reported. The class has one method `respond`, and
the text of the definition is not in it. -/
theorem C81_definition_lost_counterexample :
    c!"write('''Hello\n''')" ∈ demoBody (demoMember c!"#def respond\nHi\n#end def\nHello\n" c!"respond") ∧
    c!"write('''Hi\n''')" ∉ demoBody (demoMember c!"#def respond\nHi\n#end def\nHello\n" c!"respond") ∧
    c!"write('''Hi\n''')" ∈ demoBody (demoMember c!"#def greet\nHi\n#end def\nHello\n" c!"greet") := by
  decide +kernel

/-- Nor is the main method always there: an attribute with its name hides it. -/
theorem C81_main_method_hidden_counterexample : demoMember c!"#attr $respond = None\nHello\n" c!"respond" = some (.val c!"None") := by
  decide +kernel

/-- The last of several definitions is the one that counts. -/
example : c!"write('''B\n''')" ∈ demoBody (demoMember c!"#def f\nA\n#end def\n#def f\nB\n#end def\n" c!"f") ∧
    c!"write('''A\n''')" ∉ demoBody (demoMember c!"#def f\nA\n#end def\n#def f\nB\n#end def\n" c!"f") := by
  decide +kernel

example : demoMember c!"Hello\n" c!"__init__" = some (initMember Driver.demoCf) := by decide +kernel
example : demoMember c!"Hello\n" c!"f" = none := by decide +kernel

/-- A class with two methods of one name, a class method and a value. -/
def demoCC : CC := { CC.start Driver.demoCf with
  finished := [{ uid := 1, name := c!"f", lev := 2, args := [(c!"self", none)], chunks := [(2, c!"return 1")] },
    { uid := 2, name := c!"f", lev := 2, args := [(c!"self", none), (c!"x", some c!"2")], chunks := [(2, c!"return x")] },
    { uid := 3, name := c!"g", lev := 2, args := [(c!"self", none)], decorators := [c!"@classmethod"], chunks := [(2, c!"return cls")] }],
  attribs := [c!"a = 1", c!"a = 2"], active := [] }

theorem demoCC_neat : ∀ m ∈ demoCC.finished, Neat m := by
  intro m hm
  simp only [demoCC, List.mem_cons, List.not_mem_nil, or_false] at hm
  rcases hm with rfl | rfl | rfl <;> exact ⟨demo_word (by decide), by decide, by decide⟩

/-- The attributes meet the condition. -/
theorem demoCC_attrs : ∀ a ∈ [(c!"a", c!"1"), (c!"a", c!"2")], Word a.1 ∧ a.1 ≠ c!"def" ∧ a.2.head? ≠ some ' ' := by
  intro a ha
  simp only [List.mem_cons, List.not_mem_nil, or_false] at ha
  rcases ha with rfl | rfl <;> exact ⟨demo_word (by decide), by decide, by decide⟩

example (x : Str) (hx : x ∉ compilersNames Driver.demoCf) :=
  C81_names_of_a_class {} rfl Driver.demoCf (by decide) (demo_word (by decide)) demoCC demoCC_neat [(c!"a", c!"1"), (c!"a", c!"2")] rfl demoCC_attrs x hx
example : memberOf (classLines {} Driver.demoCf demoCC) c!"a" = some (.val c!"2") :=
  C81_names_of_a_class {} rfl Driver.demoCf (by decide) (demo_word (by decide)) demoCC demoCC_neat [(c!"a", c!"1"), (c!"a", c!"2")] rfl demoCC_attrs c!"a" (by decide)
example : memberOf (classLines {} Driver.demoCf demoCC) c!"g" = some (.fn [c!"@classmethod"] c!"(cls):" [(2, c!"return cls")]) :=
  C81_names_of_a_class {} rfl Driver.demoCf (by decide) (demo_word (by decide)) demoCC demoCC_neat [(c!"a", c!"1"), (c!"a", c!"2")] rfl demoCC_attrs c!"g" (by decide)
example : memberOf (classLines { methodsFirst := false } Driver.demoCf demoCC) c!"f" = some (.fn [] c!"(self, x=2):" [(2, c!"return x")]) :=
  C81_methods_last { methodsFirst := false } rfl Driver.demoCf (by decide) (demo_word (by decide)) demoCC demoCC_neat [(c!"a", c!"1"), (c!"a", c!"2")] rfl demoCC_attrs c!"f" (by decide)
example := C81_main_method {} rfl Driver.demoCf (by decide) (demo_word (by decide)) demoCC demoCC_neat [(c!"a", c!"1"), (c!"a", c!"2")] rfl demoCC_attrs

/-- The source of the header's example, without `#extends`. -/
example := C81_names_of_a_template_partial (demo_tame ((demoUp ++ demoDown).flatMap Top.src ++ demoRest.src)) rfl demo_usual
  ⟨fun c h1 h2 => by simp [Driver.demoCf, h1, h2], fun c h => by simp [Driver.demoCf]; omega⟩ (by decide) (demo_word (by decide)) {} rfl rfl (demoUp ++ demoDown)
  (fun t ht => ⟨⟨((List.mem_append.1 ht).elim (demoUp_ok t) (demoDown_ok t)).1, by
    rintro v e rfl
    simp [demoUp, demoDown] at ht
    rw [ht.1]; decide⟩, ((List.mem_append.1 ht).elim (demoUp_ok t) (demoDown_ok t)).2⟩)
  [.names [c!"m"] [⟨[c!"Page"], none⟩], .modules [⟨[c!"os"], none⟩]] (by simp [Imp.Good, Driver.Parts, PyName]) rfl demoRest demoRest_ok ⟨trivial, .nil, rfl⟩ rfl

/-- And with it. -/
example := C81_names_of_a_template_with_base_partial (demo_tame demoSrc) rfl demo_usual
  ⟨fun c h1 h2 => by simp [Driver.demoCf, h1, h2], fun c h => by simp [Driver.demoCf]; omega⟩ (by decide) (demo_word (by decide)) {} rfl
  (demo_word (by decide)) rfl rfl demoUp demoBases demoDown
  (fun t ht => ⟨⟨(demoUp_ok t ht).1, by rintro v e rfl; simp [demoUp] at ht; rw [ht.1]; decide⟩, (demoUp_ok t ht).2⟩)
  (fun t ht => ⟨⟨(demoDown_ok t ht).1, by rintro v e rfl; simp [demoDown] at ht⟩, (demoDown_ok t ht).2⟩)
  [.names [c!"m"] [⟨[c!"Page"], none⟩]] [.modules [⟨[c!"os"], none⟩]] (by simp [Imp.Good, Driver.Parts, PyName]) (by simp [Imp.Good, Driver.Parts, PyName]) rfl rfl
  (by decide) (by
    intro ks hks
    simp only [demoBases, List.mem_cons, List.not_mem_nil, or_false] at hks
    rcases hks with rfl | rfl
    · exact ⟨by simp [Driver.Parts, PyName], by decide, by simp; exact demo_word (by decide)⟩
    · refine ⟨by simp [Driver.Parts, PyName], by decide, ?_⟩
      simp
      exact ⟨demo_word (by decide), demo_word (by decide)⟩)
  (by
    refine ⟨?_, ?_, trivial⟩
    · intro h; simp at h
    · intro _ n h1 h2; obtain rfl | rfl : n = 1 ∨ n = 2 := (by simp at h2; omega)
      all_goals decide)
  demoRest demoRest_ok ⟨trivial, .nil, rfl⟩ rfl

end Cheetah.EndToEnd
