import Verif.GenVar
import Verif.PyStr
import Verif.Props.NameMapper
/-
C30: the Python expression generated for a placeholder means what the placeholder says,
read from left to right.
-/
namespace Cheetah.GenVar
open NameMapper
variable {Obj σ : Type}

/-! ### Reading the generated expression as Python does -/

/-- Python expressions of the form the compiler generates. `rest` is text of the form
`(...)`, `[...]` and combinations, applied to the value before it. -/
inductive PyE where
  | var (name : Str)
  | vffsl (name : Str) (ac : Bool)
  | vfsl (name : Str) (ac : Bool)
  | vfn (e : PyE) (name : Str) (ac : Bool)
  | trail (e : PyE) (rest : Str)
  deriving DecidableEq, Repr

def identChar (c : Char) : Bool := c.isAlphanum || c == '_'

def readBool (s : Str) : Option (Bool × Str) :=
  match stripPrefix? c!"True" s with
  | some r => some (true, r)
  | none => (stripPrefix? c!"False" s).map fun r => (false, r)

/-- The end of a lookup call: `"name",True)` and what follows. -/
def readName (s : Str) : Option (Str × Bool × Str) := do
  let name := s.takeWhile (· != '"')
  let s ← stripPrefix? c!"\"," (s.dropWhile (· != '"'))
  let (b, s) ← readBool s
  let s ← stripPrefix? c!")" s
  some (name, b, s)

/-- Read an expression from the left; `trailers` finds the calls and subscripts at the start
of a text. -/
def readExpr (trailers : Str → Str × Str) : Nat → Str → Option (PyE × Str)
  | 0, _ => none
  | fuel + 1, s =>
    match stripPrefix? c!"VFN(" s with
    | some s => do
      let (e, s) ← readExpr trailers fuel s
      let s ← stripPrefix? c!",\"" s
      let (name, b, s) ← readName s
      some (.trail (.vfn e name b) (trailers s).1, (trailers s).2)
    | none =>
      match stripPrefix? c!"VFFSL(SL,\"" s with
      | some s => do
        let (name, b, s) ← readName s
        some (.trail (.vffsl name b) (trailers s).1, (trailers s).2)
      | none =>
        match stripPrefix? c!"VFSL([locals()]+SL+[globals(), builtin],\"" s with
        | some s => do
          let (name, b, s) ← readName s
          some (.trail (.vfsl name b) (trailers s).1, (trailers s).2)
        | none =>
          let name := s.takeWhile identChar
          let s := s.dropWhile identChar
          if name = [] then none
          else some (.trail (.var name) (trailers s).1, (trailers s).2)

/-- What Python knows where the expression is evaluated: objects, the calling method's frame,
the search list, the value of plain variables, and what applying a call or subscript text to
an object does. -/
structure Scope (Obj σ : Type) where
  w : World Obj σ
  frame : Frame Obj
  searchList : List Obj
  var : σ → Str → Except Exc Obj
  apply : σ → Obj → Str → Except Exc Obj × σ

/-- Sequencing of lookups. -/
def thenDo (r : Except Exc Obj × σ) (k : σ → Obj → Except Exc Obj × σ) : Except Exc Obj × σ :=
  match r with
  | (.ok v, s) => k s v
  | (.error e, s) => (.error e, s)

def outcome (r : NameMapper.Res Obj σ) : Except Exc Obj × σ := (r.val, r.st)

/-- Python's evaluation, with the lookup functions of the NameMapper. -/
def eval (sc : Scope Obj σ) (s : σ) : PyE → Except Exc Obj × σ
  | .var name => (sc.var s name, s)
  | .vffsl name ac => outcome (valueFromFrameOrSearchList sc.w ac s sc.frame sc.searchList name)
  | .vfsl name ac =>
    outcome (valueFromSearchList sc.w ac s
      (sc.frame.locals :: sc.searchList ++ [sc.frame.globals, sc.frame.builtins]) name)
  | .vfn e name ac => thenDo (eval sc s e) fun s v => outcome (valueForName sc.w ac s v name)
  | .trail e rest => if rest = [] then eval sc s e else thenDo (eval sc s e) fun s v => sc.apply s v rest

/-! ### The specification: one step per component -/

/-- A placeholder as written: components, each with the calls or subscripts after it. -/
abbrev Comps := List (Str × Str)

/-- The step for one component on the object `o`: get the key or attribute, autocall it unless it
is called explicitly, then apply what follows it. -/
def step (sc : Scope Obj σ) (useAC : Bool) (s : σ) (o : Obj) (c : Str × Str) : Except Exc Obj × σ :=
  match nextObj sc.w s o c.1 with
  | .error e => (.error e, s)
  | .ok v =>
    thenDo (outcome (autocall sc.w (useAC && c.2.head? != some '(') s v)) fun s v =>
      if c.2 = [] then (.ok v, s) else sc.apply s v c.2

def steps (sc : Scope Obj σ) (useAC : Bool) : σ → Obj → Comps → Except Exc Obj × σ
  | s, o, [] => (.ok o, s)
  | s, o, c :: cs => thenDo (step sc useAC s o c) fun s v => steps sc useAC s v cs

/-- The first namespace that has the name. -/
def firstWith (sc : Scope Obj σ) (s : σ) (key : Str) : List Obj → Except Exc Obj
  | [] => .error (.notFound (notFoundMsg key))
  | ns :: rest =>
    match hasKey sc.w s ns key with
    | .error e => .error e
    | .ok true => .ok ns
    | .ok false => firstWith sc s key rest

/-- The meaning of a placeholder: the first component is looked up in the namespaces (locals,
search list, globals, builtins), or is a plain Python variable when the search list is
switched off; then each component in turn. -/
def meaning (sc : Scope Obj σ) (st : Settings) (s : σ) : Comps → Except Exc Obj × σ
  | [] => (.error (.other 0), s)
  | (k, rest) :: cs =>
    if st.useSearchList then
      match firstWith sc s k (sc.frame.locals :: sc.searchList ++ [sc.frame.globals, sc.frame.builtins]) with
      | .error e => (.error e, s)
      | .ok ns => steps sc st.useAutocalling s ns ((k, rest) :: cs)
    else
      match sc.var s k with
      | .error e => (.error e, s)
      | .ok v =>
        thenDo (if rest = [] then (.ok v, s) else sc.apply s v rest) fun s v =>
          steps sc st.useAutocalling s v cs

/-- Forget the text of NotFound messages. -/
def forget : Exc → Exc
  | .notFound _ => .notFound []
  | e => e

def modMsg (r : Except Exc Obj × σ) : Except Exc Obj × σ := (r.1.mapError forget, r.2)

/-! ### Segments: what the parser reads -/

/-- The components of the placeholder `names₁ rest₁ . names₂ rest₂ ...`. -/
def comps (segs : List (List Str × Str)) : Comps :=
  segs.flatMap fun (ks, rest) => ks.dropLast.map (·, []) ++ (ks.getLast?.toList.map (·, rest))

/-- As read: dotted names. -/
def dotted (segs : List (List Str × Str)) : List (Str × Str) :=
  segs.map fun (ks, rest) => (joinStr c!"." ks, rest)

/-- An identifier. -/
def Ident (k : Str) : Prop := k ≠ [] ∧ ∀ c ∈ k, identChar c = true

/-- Text that Python recognises as calls and subscripts wherever the compiler puts it. -/
def Trailers (trailers : Str → Str × Str) (rest : Str) : Prop :=
  (rest = [] ∨ rest.head? = some '(' ∨ rest.head? = some '[') ∧
  ∀ t, (t = [] ∨ t.head? = some ',' ∨ t.head? = some ')') → trailers (rest ++ t) = (rest, t)

structure Readable (trailers : Str → Str × Str) (segs : List (List Str × Str)) : Prop where
  ne : segs ≠ []
  idents : ∀ g ∈ segs, g.1 ≠ [] ∧ ∀ k ∈ g.1, Ident k
  rests : ∀ g ∈ segs, Trailers trailers g.2
  none : Trailers trailers []
  /-- `VFN`, `VFFSL`, `VFSL` are names of the generated module -/
  first : ∀ k, (comps segs).head?.map (·.1) = some k → k ≠ c!"VFN" ∧ k ≠ c!"VFFSL" ∧ k ≠ c!"VFSL"


/-! ### Chunks and components -/

theorem join_snoc (ks : List Str) (h : ks ≠ []) (k : Str) :
    joinStr c!"." (ks ++ [k]) = joinStr c!"." ks ++ '.' :: k := by
  induction ks with
  | nil => exact absurd rfl h
  | cons a as ih =>
    cases as with
    | nil => simp [joinStr]
    | cons b bs =>
      have := ih (by simp)
      simp only [List.cons_append, joinStr, List.append_assoc] at this ⊢
      rw [this]

theorem ident_no_dot {k : Str} (h : Ident k) : '.' ∉ k := by
  intro hm; have := h.2 _ hm; revert this; decide

theorem ident_no_quote {k : Str} (h : Ident k) : '"' ∉ k := by
  intro hm; have := h.2 _ hm; revert this; decide

theorem rfind_none {c : Char} {s : Str} (h : c ∉ s) : rfind c s = none := by
  induction s with
  | nil => rfl
  | cons d s ih =>
    simp only [List.mem_cons, not_or] at h
    simp [rfind, ih h.2, Ne.symm h.1]

theorem rfind_append (c : Char) (a b : Str) (h : c ∉ b) : rfind c (a ++ c :: b) = some a.length := by
  induction a with
  | nil => simp [rfind, rfind_none h]
  | cons d a ih => simp [rfind, ih]

theorem find_none {c : Char} {s : Str} (h : c ∉ s) : find c s = none := by
  induction s with
  | nil => rfl
  | cons d s ih =>
    simp only [List.mem_cons, not_or] at h
    simp [find, ih h.2, Ne.symm h.1]

theorem find_append (c : Char) (a b : Str) (h : c ∉ a) : find c (a ++ c :: b) = some a.length := by
  induction a with
  | nil => simp [find]
  | cons d a ih =>
    simp only [List.mem_cons, not_or] at h
    simp [find, ih h.2, Ne.symm h.1]

theorem join_ne_nil {ks : List Str} (h : ks ≠ []) (hi : ∀ k ∈ ks, Ident k) : joinStr c!"." ks ≠ [] := by
  cases ks with
  | nil => exact absurd rfl h
  | cons a as =>
    have := (hi a (by simp)).1
    cases as with
    | nil => simpa [joinStr] using this
    | cons b bs => simp [joinStr]

/-- What a chunk stands for. -/
def Rep (c : Chunk) (cc : Comps) : Prop :=
  ∃ ks : List Str, ks ≠ [] ∧ (∀ k ∈ ks, Ident k) ∧ c.name = joinStr c!"." ks ∧
    ((c.ac = true ∧ c.rest = [] ∧ cc = ks.map (·, [])) ∨
     (∃ k, ks = [k] ∧ cc = [(k, c.rest)] ∧ c.rest ≠ [] ∧ c.ac = !(c.rest.head? == some '(')))

inductive Reps : List Chunk → Comps → Prop where
  | nil : Reps [] []
  | cons {c cs cc ccs} : Rep c cc → Reps cs ccs → Reps (c :: cs) (cc ++ ccs)

theorem Reps.append {a b x y} (h : Reps a x) (h' : Reps b y) : Reps (a ++ b) (x ++ y) := by
  induction h with
  | nil => exact h'
  | cons hr _ ih => rw [List.cons_append, List.append_assoc]; exact .cons hr ih

theorem snoc_of_ne_nil {α : Type} : ∀ (l : List α), l ≠ [] → ∃ a b, l = a ++ [b]
  | [], h => absurd rfl h
  | [x], _ => ⟨[], x, rfl⟩
  | x :: y :: l, _ => by
    obtain ⟨a, b, h⟩ := snoc_of_ne_nil (y :: l) (by simp)
    exact ⟨x :: a, b, by rw [h]; rfl⟩

theorem drop_sep (a : Str) (c : Char) (b : Str) : (a ++ c :: b).drop (a.length + 1) = b := by
  induction a with
  | nil => rfl
  | cons d a ih => simpa using ih

theorem splitChunk_reps (ks : List Str) (rest : Str) (hk : ks ≠ []) (hi : ∀ k ∈ ks, Ident k) :
    Reps (splitChunk (joinStr c!"." ks) rest) (ks.dropLast.map (·, []) ++ (ks.getLast?.toList.map (·, rest))) ∧
    ∀ c ∈ splitChunk (joinStr c!"." ks) rest, c.rest = [] ∨ c.rest = rest := by
  obtain ⟨a, b, rfl⟩ := snoc_of_ne_nil ks hk
  simp only [List.dropLast_concat, List.getLast?_concat, Option.toList, List.map_cons, List.map_nil]
  have hb := hi b (by simp)
  have ha : ∀ k ∈ a, Ident k := fun k hk => hi k (by simp [hk])
  by_cases hr : rest = []
  · subst hr
    refine ⟨?_, by simp [splitChunk]⟩
    have : Reps [⟨joinStr c!"." (a ++ [b]), true, []⟩] (((a ++ [b]).map (·, ([] : Str))) ++ []) :=
      .cons ⟨a ++ [b], hk, hi, rfl, Or.inl ⟨rfl, rfl, rfl⟩⟩ .nil
    simpa [splitChunk] using this
  · unfold splitChunk
    rw [if_neg hr]
    by_cases hae : a = []
    · subst hae
      simp only [List.nil_append, joinStr, rfind_none (ident_no_dot hb), Option.getD_none, if_true]
      refine ⟨?_, by simp⟩
      have : Reps [⟨b, !(rest.head? == some '('), rest⟩] ([(b, rest)] ++ []) :=
        .cons ⟨[b], by simp, by simpa using hb, rfl, Or.inr ⟨b, rfl, rfl, hr, rfl⟩⟩ .nil
      simpa using this
    · rw [join_snoc a hae, rfind_append _ _ _ (ident_no_dot hb)]
      have hl : (joinStr c!"." a).length ≠ 0 := by simpa using join_ne_nil hae ha
      simp only [Option.getD_some, if_neg hl]
      refine ⟨?_, by simp⟩
      have : Reps [⟨joinStr c!"." a, true, []⟩, ⟨b, !(rest.head? == some '('), rest⟩]
          ((a.map (·, ([] : Str))) ++ ([(b, rest)] ++ [])) :=
        .cons ⟨a, hae, ha, rfl, Or.inl ⟨rfl, rfl, rfl⟩⟩
          (.cons ⟨[b], by simp, by simpa using hb, rfl, Or.inr ⟨b, rfl, rfl, hr, rfl⟩⟩ .nil)
      have e : (joinStr c!"." a ++ '.' :: b).drop ((joinStr c!"." a).length + 1) = b := drop_sep _ _ _
      rw [e]
      simpa using this

theorem nameChunks_reps (segs : List (List Str × Str)) (hi : ∀ g ∈ segs, g.1 ≠ [] ∧ ∀ k ∈ g.1, Ident k) :
    Reps (nameChunks (dotted segs)) (comps segs) ∧
    ∀ c ∈ nameChunks (dotted segs), c.rest = [] ∨ ∃ g ∈ segs, c.rest = g.2 := by
  induction segs with
  | nil => exact ⟨.nil, by simp [nameChunks, dotted]⟩
  | cons g segs ih =>
    obtain ⟨ks, rest⟩ := g
    obtain ⟨h1, h2⟩ := ih (fun g hg => hi g (by simp [hg]))
    obtain ⟨h3, h4⟩ := splitChunk_reps ks rest (hi (ks, rest) (by simp)).1 (hi (ks, rest) (by simp)).2
    refine ⟨by simpa [nameChunks, dotted, comps] using h3.append h1, ?_⟩
    intro c hc
    simp only [nameChunks, dotted, List.map_cons, List.flatMap_cons, List.mem_append] at hc
    rcases hc with hc | hc
    · rcases h4 c hc with h | h
      · exact Or.inl h
      · exact Or.inr ⟨(ks, rest), by simp, h⟩
    · rcases h2 c hc with h | ⟨g, hg, h⟩
      · exact Or.inl h
      · exact Or.inr ⟨g, by simp [hg], h⟩

/-! ### Reading back -/

/-- The expression for the first chunk. -/
def astFirst (st : Settings) (c : Chunk) : PyE :=
  if st.useSearchList then
    if st.useStackFrames then .trail (.vffsl c.name (st.useAutocalling && c.ac)) c.rest
    else .trail (.vfsl c.name (st.useAutocalling && c.ac)) c.rest
  else
    match find '.' c.name with
    | some i => .trail (.vfn (.trail (.var (c.name.take i)) []) (c.name.drop (i + 1)) (st.useAutocalling && c.ac)) c.rest
    | none => .trail (.var c.name) c.rest

def astMore (st : Settings) (e : PyE) (c : Chunk) : PyE :=
  .trail (.vfn e c.name (st.useAutocalling && c.ac)) c.rest

theorem takeWhile_quote {a : Str} (h : '"' ∉ a) (t : Str) :
    (a ++ '"' :: t).takeWhile (· != '"') = a ∧ (a ++ '"' :: t).dropWhile (· != '"') = '"' :: t := by
  induction a with
  | nil => simp
  | cons c a ih =>
    simp only [List.mem_cons, not_or] at h
    have := ih h.2
    have hc : (c != '"') = true := by simpa using Ne.symm h.1
    simp [List.takeWhile, List.dropWhile, hc, this]

theorem readName_eq (name : Str) (h : '"' ∉ name) (b : Bool) (t : Str) :
    readName (name ++ (c!"\"," ++ (reprBool b ++ (c!")" ++ t)))) = some (name, b, t) := by
  have h1 := takeWhile_quote h (',' :: (reprBool b ++ (c!")" ++ t)))
  unfold readName
  simp only [List.cons_append, List.nil_append] at h1 ⊢
  rw [h1.1, h1.2]
  cases b <;> rfl

theorem join_no_quote {ks : List Str} (hi : ∀ k ∈ ks, Ident k) : '"' ∉ joinStr c!"." ks := by
  induction ks with
  | nil => simp [joinStr]
  | cons a as ih =>
    have ha := ident_no_quote (hi a (by simp))
    have := ih (fun k hk => hi k (by simp [hk]))
    cases as with
    | nil => simpa [joinStr] using ha
    | cons b bs => simp [joinStr, ha, this]

theorem stripPrefix_some {p s r : Str} (h : stripPrefix? p s = some r) : s = p ++ r := by
  induction p generalizing s with
  | nil => simpa [stripPrefix?] using h
  | cons a p ih =>
    cases s with
    | nil => simp [stripPrefix?] at h
    | cons c cs =>
      by_cases hac : a = c
      · subst hac; rw [stripPrefix?, if_pos rfl] at h; rw [ih h]; rfl
      · rw [stripPrefix?, if_neg hac] at h; cases h

theorem takeWhile_ident {k t : Str} (hk : Ident k) (ht : ∀ c, t.head? = some c → identChar c = false) :
    (k ++ t).takeWhile identChar = k ∧ (k ++ t).dropWhile identChar = t := by
  replace hk := hk.2
  induction k with
  | nil =>
    cases t with
    | nil => simp
    | cons c t => simp [ht c rfl]
  | cons c k ih =>
    have hc := hk c (by simp)
    have := ih (fun c hc => hk c (by simp [hc]))
    simp [List.takeWhile, List.dropWhile, hc, this]

/-- The names the compiler's own functions have in the generated module. -/
def Fresh (k : Str) : Prop := k ≠ c!"VFN" ∧ k ≠ c!"VFFSL" ∧ k ≠ c!"VFSL"

theorem not_prefix {k t p r : Str} (hk : Ident k) (ht : ∀ c, t.head? = some c → identChar c = false)
    (hp : Ident p) (hr : ∀ c, r.head? = some c → identChar c = false) (hne : k ≠ p) (hrn : r ≠ []) :
    stripPrefix? (p ++ r) (k ++ t) = none := by
  cases h : stripPrefix? (p ++ r) (k ++ t) with
  | none => rfl
  | some x =>
    have h1 := stripPrefix_some h
    have h2 := (takeWhile_ident hk ht).1
    rw [h1, List.append_assoc, (takeWhile_ident hp ?_).1] at h2
    · exact absurd h2.symm hne
    · intro c hc
      apply hr c
      cases r with
      | nil => exact absurd rfl hrn
      | cons d r => simpa using hc

theorem read_var {tr : Str → Str × Str} {k rest t : Str} (hk : Ident k) (hf : Fresh k) (hr : Trailers tr rest)
    (ht : t = [] ∨ t.head? = some ',' ∨ t.head? = some ')') (n : Nat) :
    readExpr tr (n + 1) (k ++ (rest ++ t)) = some (.trail (.var k) rest, t) := by
  have hnext : ∀ c, (rest ++ t).head? = some c → identChar c = false := by
    intro c hc
    cases rest with
    | nil =>
      rcases ht with rfl | ht | ht
      · simp at hc
      · simp only [List.nil_append] at hc; rw [ht] at hc; cases hc; decide
      · simp only [List.nil_append] at hc; rw [ht] at hc; cases hc; decide
    | cons d rest =>
      simp at hc; subst hc
      rcases hr.1 with h | h | h
      · cases h
      · simp at h; subst h; decide
      · simp at h; subst h; decide
  have p1 : stripPrefix? c!"VFN(" (k ++ (rest ++ t)) = none :=
    not_prefix (p := c!"VFN") (r := c!"(") hk hnext ⟨by simp, by decide⟩ (by intro c hc; simp at hc; subst hc; decide) hf.1 (by simp)
  have p2 : stripPrefix? c!"VFFSL(SL,\"" (k ++ (rest ++ t)) = none :=
    not_prefix (p := c!"VFFSL") (r := c!"(SL,\"") hk hnext ⟨by simp, by decide⟩ (by intro c hc; simp at hc; subst hc; decide) hf.2.1 (by simp)
  have p3 : stripPrefix? c!"VFSL([locals()]+SL+[globals(), builtin],\"" (k ++ (rest ++ t)) = none :=
    not_prefix (p := c!"VFSL") (r := c!"([locals()]+SL+[globals(), builtin],\"") hk hnext ⟨by simp, by decide⟩
      (by intro c hc; simp at hc; subst hc; decide) hf.2.2 (by simp)
  obtain ⟨h1, h2⟩ := takeWhile_ident hk hnext
  simp only [readExpr, p1, p2, p3, h1, h2, if_neg hk.1, hr.2 t ht]

theorem read_first {tr : Str → Str × Str} (st : Settings) {c : Chunk} {cc : Comps} (hc : Rep c cc)
    (hf : ∀ k, cc.head?.map (·.1) = some k → Fresh k) (hr : Trailers tr c.rest) (h0 : Trailers tr [])
    {t : Str} (ht : t = [] ∨ t.head? = some ',' ∨ t.head? = some ')') (n : Nat) :
    readExpr tr (n + 2) (genFirst st c ++ t) = some (astFirst st c, t) := by
  obtain ⟨ks, hne, hid, hname, hcase⟩ := hc
  have hq : '"' ∉ c.name := hname ▸ join_no_quote hid
  unfold genFirst astFirst
  cases hsl : st.useSearchList with
  | true =>
    simp only [Bool.not_true, Bool.false_eq_true, if_false]
    cases hsf : st.useStackFrames with
    | true =>
      simp only [if_true, List.append_assoc]
      have p1 : ∀ x, stripPrefix? c!"VFN(" (c!"VFFSL(SL,\"" ++ x) = none := fun _ => rfl
      have p2 : ∀ x, stripPrefix? c!"VFFSL(SL,\"" (c!"VFFSL(SL,\"" ++ x) = some x := fun _ => rfl
      rw [readExpr, p1, p2]
      simp only [readName_eq _ hq, bind, Option.bind, hr.2 t ht]
    | false =>
      simp only [Bool.false_eq_true, if_false, if_true, List.append_assoc]
      have p1 : ∀ x, stripPrefix? c!"VFN(" (c!"VFSL([locals()]+SL+[globals(), builtin],\"" ++ x) = none := fun _ => rfl
      have p2 : ∀ x, stripPrefix? c!"VFFSL(SL,\"" (c!"VFSL([locals()]+SL+[globals(), builtin],\"" ++ x) = none := fun _ => rfl
      have p3 : ∀ x, stripPrefix? c!"VFSL([locals()]+SL+[globals(), builtin],\""
          (c!"VFSL([locals()]+SL+[globals(), builtin],\"" ++ x) = some x := fun _ => rfl
      rw [readExpr, p1, p2, p3]
      simp only [readName_eq _ hq, bind, Option.bind, hr.2 t ht]
  | false =>
    simp only [Bool.not_false, if_true]
    cases ks with
    | nil => exact absurd rfl hne
    | cons k ks =>
      have hk := hid k (by simp)
      have hfresh : Fresh k := by
        apply hf
        rcases hcase with ⟨_, _, rfl⟩ | ⟨k', hk', rfl, _⟩
        · rfl
        · cases hk'; rfl
      cases ks with
      | nil =>
        have hn : c.name = k := by simpa [joinStr] using hname
        rw [hn, find_none (ident_no_dot hk)]
        simp only [List.append_assoc]
        exact read_var hk hfresh hr ht _
      | cons k2 ks =>
        have hn : c.name = k ++ '.' :: joinStr c!"." (k2 :: ks) := by simpa [joinStr] using hname
        have hq2 : '"' ∉ joinStr c!"." (k2 :: ks) := join_no_quote (fun x hx => hid x (by simp at hx ⊢; exact Or.inr hx))
        rw [hn, find_append _ _ _ (ident_no_dot hk)]
        generalize joinStr c!"." (k2 :: ks) = after at *
        have e1 : (k ++ '.' :: after).take k.length = k := by simp
        have e2 : (k ++ '.' :: after).drop (k.length + 1) = after := drop_sep _ _ _
        simp only [e1, e2, List.append_assoc]
        have p1 : ∀ x, stripPrefix? c!"VFN(" (c!"VFN(" ++ x) = some x := fun _ => rfl
        rw [readExpr, p1]
        have h1 := read_var (t := c!",\"" ++ (after ++ (c!"\"," ++ (reprBool (st.useAutocalling && c.ac) ++ (c!")" ++ (c.rest ++ t))))))
          hk hfresh h0 (by simp) n
        rw [List.nil_append] at h1
        have p2 : ∀ x, stripPrefix? c!",\"" (c!",\"" ++ x) = some x := fun _ => rfl
        simp only [h1, p2, readName_eq _ hq2, bind, Option.bind, hr.2 t ht]
        rfl

theorem read_all {tr : Str → Str × Str} (st : Settings) {c : Chunk} {cs : List Chunk} {cc ccs : Comps}
    (hc : Rep c cc) (hcs : Reps cs ccs) (hf : ∀ k, cc.head?.map (·.1) = some k → Fresh k)
    (hr : ∀ x ∈ c :: cs, Trailers tr x.rest) (h0 : Trailers tr []) :
    ∀ {t : Str}, (t = [] ∨ t.head? = some ',' ∨ t.head? = some ')') → ∀ n, cs.length ≤ n →
    readExpr tr (n + 2) (cs.foldl (genMore st) (genFirst st c) ++ t) =
      some (cs.foldl (astMore st) (astFirst st c), t) := by
  suffices h : ∀ (m : Nat) (cs : List Chunk), cs.length = m → (∀ x ∈ cs, ∃ cx, Rep x cx) →
      (∀ x ∈ c :: cs, Trailers tr x.rest) →
      ∀ {t : Str}, (t = [] ∨ t.head? = some ',' ∨ t.head? = some ')') → ∀ n, cs.length ≤ n →
      readExpr tr (n + 2) (cs.foldl (genMore st) (genFirst st c) ++ t) =
        some (cs.foldl (astMore st) (astFirst st c), t) by
    refine fun {t} ht n hn => h _ cs rfl ?_ hr ht n hn
    clear h hr hf hn
    induction hcs with
    | nil => simp
    | cons hx _ ih =>
      intro x hm
      simp at hm
      rcases hm with rfl | hm
      · exact ⟨_, hx⟩
      · exact ih x hm
  intro m
  induction m with
  | zero =>
    intro cs hl _ hr t ht n _
    have : cs = [] := List.length_eq_zero_iff.1 hl
    subst this
    exact read_first st hc hf (hr c (by simp)) h0 ht n
  | succ m ih =>
    intro cs hl hx hr t ht n hn
    obtain ⟨a, b, rfl⟩ := snoc_of_ne_nil cs (by intro h; subst h; simp at hl)
    simp only [List.foldl_append, List.foldl_cons, List.foldl_nil]
    simp only [List.length_append, List.length_singleton] at hl hn
    obtain ⟨cb, ks, hne, hid, hname, -⟩ := hx b (by simp)
    have hq : '"' ∉ b.name := hname ▸ join_no_quote hid
    obtain ⟨n', rfl⟩ : ∃ n', n = n' + 1 := ⟨n - 1, by omega⟩
    have h1 := ih a (by omega) (fun x hx' => hx x (by simp [hx'])) (fun x hx' => hr x (by simp at hx' ⊢; rcases hx' with h | h <;> simp [h]))
      (t := c!",\"" ++ (b.name ++ (c!"\"," ++ (reprBool (st.useAutocalling && b.ac) ++ (c!")" ++ (b.rest ++ t))))))
      (by simp) n' (by omega)
    unfold genMore
    unfold genMore at h1
    simp only [List.append_assoc]
    have p1 : ∀ x, stripPrefix? c!"VFN(" (c!"VFN(" ++ x) = some x := fun _ => rfl
    have p2 : ∀ x, stripPrefix? c!",\"" (c!",\"" ++ x) = some x := fun _ => rfl
    rw [readExpr, p1]
    simp only [List.append_assoc] at h1
    simp only [h1, p2, readName_eq _ hq, bind, Option.bind, (hr b (by simp)).2 t ht]
    rfl

/-! ### Meaning -/

theorem thenDo_assoc (r : Except Exc Obj × σ) (f g : σ → Obj → Except Exc Obj × σ) :
    thenDo (thenDo r f) g = thenDo r fun s v => thenDo (f s v) g := by
  obtain ⟨x, s⟩ := r
  cases x <;> rfl

theorem modMsg_thenDo {r r' : Except Exc Obj × σ} {f g : σ → Obj → Except Exc Obj × σ}
    (h : modMsg r = modMsg r') (hk : ∀ s v, modMsg (f s v) = modMsg (g s v)) :
    modMsg (thenDo r f) = modMsg (thenDo r' g) := by
  obtain ⟨x, s⟩ := r
  obtain ⟨x', s'⟩ := r'
  cases x <;> cases x' <;> simp_all [modMsg, thenDo, Except.mapError]

theorem steps_append (sc : Scope Obj σ) (ac : Bool) (a b : Comps) : ∀ (s : σ) (o : Obj),
    steps sc ac s o (a ++ b) = thenDo (steps sc ac s o a) fun s v => steps sc ac s v b := by
  induction a with
  | nil => intro s o; rfl
  | cons c a ih =>
    intro s o
    simp only [List.cons_append, steps, thenDo_assoc]
    congr 1
    funext s v
    exact ih s v

theorem steps_plain (sc : Scope Obj σ) (ac : Bool) (ks : List Str) : ∀ (s : σ) (o : Obj),
    steps sc ac s o (ks.map (·, [])) = outcome (valueForChunks sc.w ac s o ks) := by
  induction ks with
  | nil => intro s o; rfl
  | cons k ks ih =>
    intro s o
    simp only [List.map_cons, steps, step, valueForChunks]
    cases nextObj sc.w s o k with
    | error e => rfl
    | ok v =>
      simp only [List.head?_nil, if_true]
      have hac : (ac && (none : Option Char) != some '(') = ac := by simp
      rw [hac]
      cases hv : autocall sc.w ac s v with
      | mk val st calls =>
        cases val with
        | error e => rfl
        | ok v' => simp only [outcome, thenDo]; rw [ih]; rfl

theorem forget_wrap (name : Str) (e : Exc) : forget (wrapExc name e) = forget e := by
  cases e <;> rfl

theorem modMsg_wrap (r : NameMapper.Res Obj σ) (name : Str) :
    modMsg (outcome (r.wrap name)) = modMsg (outcome r) := by
  obtain ⟨v, s, c⟩ := r
  cases v <;> simp [modMsg, outcome, NameMapper.Res.wrap, Except.mapError, forget_wrap]

theorem split_join (ks : List Str) (h : ks ≠ []) (hi : ∀ k ∈ ks, Ident k) : splitCh '.' (joinStr c!"." ks) = ks :=
  splitCh_join h (fun k hk => ident_no_dot (hi k hk))

/-- One chunk on an object. -/
theorem chunk_steps (sc : Scope Obj σ) (st : Settings) {c : Chunk} {cc : Comps} (hc : Rep c cc) (s : σ) (o : Obj) :
    thenDo (outcome (valueForName' sc.w (st.useAutocalling && c.ac) s o c.name))
      (fun s v => if c.rest = [] then (.ok v, s) else sc.apply s v c.rest) =
    steps sc st.useAutocalling s o cc := by
  obtain ⟨ks, hne, hid, hname, hcase⟩ := hc
  unfold valueForName'
  rw [hname, split_join ks hne hid]
  rcases hcase with ⟨h1, h2, rfl⟩ | ⟨k, rfl, rfl, h2, h3⟩
  · rw [steps_plain, h1, h2]
    simp only [Bool.and_true, if_true]
    cases hv : outcome (valueForChunks sc.w st.useAutocalling s o ks) with
    | mk a b => cases a <;> rfl
  · have hac : (st.useAutocalling && c.rest.head? != some '(') = (st.useAutocalling && c.ac) := by
      rw [h3]; rfl
    simp only [steps, step, valueForChunks, if_neg h2, hac]
    cases nextObj sc.w s o k with
    | error e => rfl
    | ok v =>
      cases hv : autocall sc.w (st.useAutocalling && c.ac) s v with
      | mk val st' calls =>
        cases val with
        | error e => simp [outcome, thenDo, hv]
        | ok v' =>
          simp only [outcome, thenDo, hv]
          cases sc.apply st' v' c.rest with
          | mk a b => cases a <;> rfl

theorem eval_trail (sc : Scope Obj σ) (s : σ) (e : PyE) (rest : Str) :
    eval sc s (.trail e rest) = thenDo (eval sc s e) fun s v => if rest = [] then (.ok v, s) else sc.apply s v rest := by
  rw [eval]
  by_cases h : rest = []
  · simp only [if_pos h]
    cases hv : eval sc s e with
    | mk a b => cases a <;> rfl
  · simp only [if_neg h]

theorem eval_more (sc : Scope Obj σ) (st : Settings) {c : Chunk} {cc : Comps} (hc : Rep c cc) (s : σ) (e : PyE) :
    modMsg (eval sc s (astMore st e c)) =
      modMsg (thenDo (eval sc s e) fun s v => steps sc st.useAutocalling s v cc) := by
  unfold astMore
  rw [eval_trail, eval, thenDo_assoc]
  apply modMsg_thenDo rfl
  intro s v
  rw [← chunk_steps sc st hc]
  exact modMsg_thenDo (modMsg_wrap _ _) (fun _ _ => rfl)

theorem eval_foldl (sc : Scope Obj σ) (st : Settings) {cs : List Chunk} {ccs : Comps} (hcs : Reps cs ccs) :
    ∀ (s : σ) (e : PyE), modMsg (eval sc s (cs.foldl (astMore st) e)) =
      modMsg (thenDo (eval sc s e) fun s v => steps sc st.useAutocalling s v ccs) := by
  induction hcs with
  | nil =>
    intro s e
    simp only [List.foldl_nil, steps]
    cases hv : eval sc s e with
    | mk a b => cases a <;> rfl
  | cons hc _ ih =>
    intro s e
    rw [List.foldl_cons, ih]
    rw [modMsg_thenDo (eval_more sc st hc s e) (fun _ _ => rfl), thenDo_assoc]
    congr 2
    funext s v
    rw [steps_append]

theorem searchLoop_firstWith (sc : Scope Obj σ) (s : σ) (key : Str) (found : Obj → NameMapper.Res Obj σ) (l : List Obj) :
    outcome (searchLoop sc.w s key found l) =
      match firstWith sc s key l with
      | .error e => (.error e, s)
      | .ok ns => outcome (found ns) := by
  induction l with
  | nil => rfl
  | cons ns l ih =>
    simp only [searchLoop, firstWith]
    cases hasKey sc.w s ns key with
    | error e => rfl
    | ok b => cases b with
      | true => rfl
      | false => exact ih

theorem firstChunk_join (k : Str) (ks : List Str) (hi : ∀ x ∈ k :: ks, Ident x) :
    firstChunk (joinStr c!"." (k :: ks)) = k := by
  unfold firstChunk
  rw [split_join _ (by simp) hi]

theorem eval_first (sc : Scope Obj σ) (st : Settings) {c : Chunk} {cc : Comps} (hc : Rep c cc) (s : σ) :
    modMsg (eval sc s (astFirst st c)) = modMsg (meaning sc st s cc) := by
  have hc' := hc
  obtain ⟨ks, hne, hid, hname, hcase⟩ := hc'
  cases ks with
  | nil => exact absurd rfl hne
  | cons k ks =>
  have hcc : ∃ rest more, cc = (k, rest) :: more := by
    rcases hcase with ⟨_, _, rfl⟩ | ⟨k', hk', rfl, _⟩
    · exact ⟨_, _, rfl⟩
    · cases hk'; exact ⟨_, _, rfl⟩
  unfold astFirst
  cases hsl : st.useSearchList with
  | true =>
    simp only [if_true]
    have key : ∀ found : Obj → NameMapper.Res Obj σ,
        (∀ ns, modMsg (outcome (found ns)) = modMsg (outcome (valueForName' sc.w (st.useAutocalling && c.ac) s ns c.name))) →
        modMsg (thenDo (outcome (searchLoop sc.w s (firstChunk c.name) found
          (sc.frame.locals :: sc.searchList ++ [sc.frame.globals, sc.frame.builtins])))
          fun s v => if c.rest = [] then (.ok v, s) else sc.apply s v c.rest) = modMsg (meaning sc st s cc) := by
      intro found hfound
      rw [searchLoop_firstWith, hname, firstChunk_join k ks hid]
      obtain ⟨rest, more, hcc⟩ := hcc
      rw [hcc, meaning, ← hcc]
      simp only [hsl, if_true]
      cases firstWith sc s k (sc.frame.locals :: sc.searchList ++ [sc.frame.globals, sc.frame.builtins]) with
      | error e => rfl
      | ok ns =>
        simp only
        rw [← chunk_steps sc st hc]
        exact modMsg_thenDo (hfound ns) (fun _ _ => rfl)
    cases hsf : st.useStackFrames with
    | true =>
      simp only [if_true, eval_trail]
      exact key _ (fun ns => modMsg_wrap _ _)
    | false =>
      simp only [Bool.false_eq_true, if_false, eval_trail]
      exact key _ (fun ns => rfl)
  | false =>
    simp only [Bool.false_eq_true, if_false]
    cases ks with
    | nil =>
      have hn : c.name = k := by simpa [joinStr] using hname
      rw [hn, find_none (ident_no_dot (hid k (by simp)))]
      simp only [eval_trail]
      simp only [eval]
      have : cc = [(k, c.rest)] := by
        rcases hcase with ⟨_, h2, rfl⟩ | ⟨k', hk', rfl, _⟩
        · rw [h2]; rfl
        · cases hk'; rfl
      rw [this, meaning]
      simp only [hsl, Bool.false_eq_true, if_false]
      cases sc.var s k with
      | error e => rfl
      | ok v =>
        simp only [thenDo, steps]
        by_cases hr : c.rest = []
        · simp [hr]
        · simp only [if_neg hr]
          cases sc.apply s v c.rest with
          | mk a b => cases a <;> rfl
    | cons k2 ks =>
      have hn : c.name = k ++ '.' :: joinStr c!"." (k2 :: ks) := by simpa [joinStr] using hname
      have hrep : Rep ⟨joinStr c!"." (k2 :: ks), c.ac, c.rest⟩ ((k2 :: ks).map (·, [])) ∧
          cc = (k, []) :: (k2 :: ks).map (·, []) := by
        rcases hcase with ⟨h1, h2, rfl⟩ | ⟨k', hk', rfl, _⟩
        · exact ⟨⟨k2 :: ks, by simp, fun x hx => hid x (by simp at hx ⊢; exact Or.inr hx), rfl,
            Or.inl ⟨h1, h2, rfl⟩⟩, rfl⟩
        · cases hk'
      have hfind : find '.' c.name = some k.length := by
        rw [hn]; exact find_append _ _ _ (ident_no_dot (hid k (by simp)))
      rw [hfind]
      have e1 : c.name.take k.length = k := by rw [hn]; simp
      have e2 : c.name.drop (k.length + 1) = joinStr c!"." (k2 :: ks) := by rw [hn]; exact drop_sep _ _ _
      simp only [e1, e2]
      have h := eval_more sc st hrep.1 s (.trail (.var k) [])
      unfold astMore at h
      rw [h, hrep.2, meaning]
      simp only [eval, if_true, hsl, Bool.false_eq_true, if_false]
      cases sc.var s k with
      | error e => rfl
      | ok v => rfl

theorem meaning_append (sc : Scope Obj σ) (st : Settings) (s : σ) (a b : Comps) (h : a ≠ []) :
    meaning sc st s (a ++ b) = thenDo (meaning sc st s a) fun s v => steps sc st.useAutocalling s v b := by
  cases a with
  | nil => exact absurd rfl h
  | cons c a =>
    obtain ⟨k, rest⟩ := c
    simp only [List.cons_append, meaning]
    split
    · cases firstWith sc s k (sc.frame.locals :: (sc.searchList ++ [sc.frame.globals, sc.frame.builtins])) with
      | error e => rfl
      | ok ns =>
        simp only
        rw [← List.cons_append, steps_append]
    · cases sc.var s k with
      | error e => rfl
      | ok v =>
        simp only [thenDo_assoc]
        congr 1
        funext s v
        rw [steps_append]

/-- **C30.** For every placeholder, every state of the compiler settings and every scope: the
generated code is a Python expression whose evaluation does exactly what the placeholder says
component by component from left to right - same value or error (up to the text of NotFound
messages), same final state. -/
theorem C30_generated_code_means_the_placeholder (tr : Str → Str × Str) (st : Settings)
    (segs : List (List Str × Str)) (h : Readable tr segs) (sc : Scope Obj σ) (s : σ) :
    ∃ code e, genNameMapperVar st (nameChunks (dotted segs)) = some code ∧
      readExpr tr (code.length + 2) code = some (e, []) ∧
      modMsg (eval sc s e) = modMsg (meaning sc st s (comps segs)) := by
  obtain ⟨hreps, hrests⟩ := nameChunks_reps segs h.idents
  have hfirst := h.first
  have hr : ∀ x ∈ nameChunks (dotted segs), Trailers tr x.rest := by
    intro x hx
    rcases hrests x hx with h0 | ⟨g, hg, h0⟩
    · rw [h0]; exact h.none
    · rw [h0]; exact h.rests g hg
  have hne : comps segs ≠ [] := by
    have h1 := h.ne
    have h2 := h.idents
    cases segs with
    | nil => exact absurd rfl h1
    | cons g segs =>
      obtain ⟨a, b, hab⟩ := snoc_of_ne_nil g.1 (h2 g (by simp)).1
      simp [comps, hab]
  revert hreps hr
  generalize nameChunks (dotted segs) = ch
  intro hreps hr
  revert hne hfirst
  generalize hcomps : comps segs = cc
  rw [hcomps] at hreps
  intro hfirst hne
  cases hreps with
  | nil => exact absurd rfl hne
  | @cons c cs cc ccs hc hcs =>
    have hcne : cc ≠ [] := by
      obtain ⟨ks, hk, _, _, hcase⟩ := hc
      rcases hcase with ⟨_, _, rfl⟩ | ⟨k, _, rfl, _⟩
      · simpa using hk
      · simp
    refine ⟨_, cs.foldl (astMore st) (astFirst st c), rfl, ?_, ?_⟩
    · have hlen : ∀ (cs : List Chunk) (x : Str), cs.length ≤ (cs.foldl (genMore st) x).length ∧ x.length + cs.length ≤ (cs.foldl (genMore st) x).length := by
        intro cs
        induction cs with
        | nil => intro x; simp
        | cons c cs ih =>
          intro x
          have := ih (genMore st x c)
          have hg : x.length + 1 ≤ (genMore st x c).length := by simp [genMore]; omega
          simp only [List.foldl_cons, List.length_cons]
          omega
      have := read_all st hc hcs (fun k hk => hfirst k (by
          cases cc with
          | nil => exact absurd rfl hcne
          | cons a b => simpa using hk)) hr h.none (t := []) (Or.inl rfl)
          _ (hlen cs (genFirst st c)).1
      rw [List.append_nil] at this
      exact this
    · rw [eval_foldl sc st hcs, meaning_append sc st s _ _ hcne]
      exact modMsg_thenDo (eval_first sc st hc s) (fun _ _ => rfl)

/-- **C30, NameMapper switched off**: the generated code is the placeholder's own text: the
names, calls and subscripts joined by dots. -/
theorem C30_plain (st : Settings) (segs : List (List Str × Str)) (hne : segs ≠ [])
    (hi : ∀ g ∈ segs, g.1 ≠ [] ∧ ∀ k ∈ g.1, Ident k) (plain : Bool) (hp : plain = true ∨ st.useNameMapper = false) :
    genCheetahVar st plain (nameChunks (dotted segs)) =
      some (joinStr c!"." ((comps segs).map fun c => c.1 ++ c.2)) := by
  have h0 : genCheetahVar st plain (nameChunks (dotted segs)) = genPlainVar (nameChunks (dotted segs)) := by
    unfold genCheetahVar
    rcases hp with rfl | hp
    · simp
    · simp [hp]
  rw [h0]
  obtain ⟨hreps, _⟩ := nameChunks_reps segs hi
  have hnc : comps segs ≠ [] := by
    cases segs with
    | nil => exact absurd rfl hne
    | cons g segs =>
      obtain ⟨a, b, hab⟩ := snoc_of_ne_nil g.1 (hi g (by simp)).1
      simp [comps, hab]
  revert hreps hnc
  generalize nameChunks (dotted segs) = ch
  generalize comps segs = cc
  intro hreps hnc
  have jn : ∀ (a b : List Str), a ≠ [] → b ≠ [] → joinStr c!"." (a ++ b) = joinStr c!"." a ++ '.' :: joinStr c!"." b := by
    intro a b ha hb
    induction a with
    | nil => exact absurd rfl ha
    | cons x a ih =>
      cases a with
      | nil =>
        cases b with
        | nil => exact absurd rfl hb
        | cons y b => simp [joinStr]
      | cons y a =>
        have := ih (by simp)
        simp only [List.cons_append, joinStr, List.append_assoc] at this ⊢
        rw [this]
  have one : ∀ {c : Chunk} {cc : Comps}, Rep c cc → cc ≠ [] ∧ joinStr c!"." (cc.map fun c => c.1 ++ c.2) = c.name ++ c.rest := by
    intro c cc hc
    obtain ⟨ks, hk, _, hname, hcase⟩ := hc
    rcases hcase with ⟨_, h2, rfl⟩ | ⟨k, rfl, rfl, _⟩
    · refine ⟨by simpa using hk, ?_⟩
      rw [hname, h2]
      simp [Function.comp_def]
    · refine ⟨by simp, ?_⟩
      rw [hname]; simp [joinStr]
  cases hreps with
  | nil => exact absurd rfl hnc
  | @cons c cs cc ccs hc hcs =>
    simp only [genPlainVar, Option.some.injEq]
    have gen : ∀ {cs : List Chunk} {ccs : Comps}, Reps cs ccs → ∀ (pre : List Str), pre ≠ [] →
        cs.foldl (fun code c => code ++ c!"." ++ c.name ++ c.rest) (joinStr c!"." pre) =
          joinStr c!"." (pre ++ ccs.map fun c => c.1 ++ c.2) := by
      intro cs ccs h
      induction h with
      | nil => intro pre _; simp
      | @cons c cs cc ccs hc _ ih =>
        intro pre hpre
        have h1 := one hc
        rw [List.foldl_cons]
        have : joinStr c!"." pre ++ c!"." ++ c.name ++ c.rest = joinStr c!"." (pre ++ cc.map fun c => c.1 ++ c.2) := by
          rw [jn _ _ hpre (by simpa using h1.1), h1.2]
          simp
        rw [this, ih _ (by simp [hpre])]
        simp
    have h1 := one hc
    have := gen hcs (cc.map fun c => c.1 ++ c.2) (by simpa using h1.1)
    rw [h1.2] at this
    rw [this]
    simp

/-! Concrete instances. -/

/-- A scanner for calls and subscripts without string literals inside: brackets are counted. -/
def scan : Nat → Nat → Str → Str × Str
  | 0, _, s => ([], s)
  | _ + 1, _, [] => ([], [])
  | n + 1, d, c :: s =>
    if c = '(' ∨ c = '[' then ((c :: (scan n (d + 1) s).1), (scan n (d + 1) s).2)
    else if c = ')' ∨ c = ']' then
      if d = 0 then ([], c :: s) else ((c :: (scan n (d - 1) s).1), (scan n (d - 1) s).2)
    else if d = 0 then ([], c :: s)
    else ((c :: (scan n d s).1), (scan n d s).2)

def scanner (s : Str) : Str × Str := scan (s.length + 1) 0 s

theorem scanner_stop (t : Str) (ht : t = [] ∨ t.head? = some ',' ∨ t.head? = some ')') (n : Nat) :
    scan (n + 1) 0 t = ([], t) := by
  cases t with
  | nil => rfl
  | cons c t =>
    rcases ht with h | h | h
    · cases h
    · simp at h; subst h; simp [scan]
    · simp at h; subst h; simp [scan]

/-- `$a.b.c[1].d(2).x`: it is readable, and this is what is generated. -/
def exSegs : List (List Str × Str) :=
  [([c!"a", c!"b", c!"c"], c!"[1]"), ([c!"d"], c!"(2)"), ([c!"x"], [])]

example : Readable scanner exSegs := by
  have tr : ∀ (a b c : Char) (t : Str), (a = '(' ∧ c = ')' ∨ a = '[' ∧ c = ']') → (b = '1' ∨ b = '2') →
      (t = [] ∨ t.head? = some ',' ∨ t.head? = some ')') → scanner ([a, b, c] ++ t) = ([a, b, c], t) := by
    intro a b c t h hb ht
    have h1 := scanner_stop t ht t.length
    rcases h with ⟨rfl, rfl⟩ | ⟨rfl, rfl⟩ <;> rcases hb with rfl | rfl <;>
      simp [scanner, scan, h1]
  have t0 : Trailers scanner [] := ⟨Or.inl rfl, fun t ht => scanner_stop t ht _⟩
  refine ⟨by simp [exSegs], ?_, ?_, t0, ?_⟩
  · simp only [exSegs, List.mem_cons, List.not_mem_nil, or_false, Ident]
    rintro g (rfl | rfl | rfl) <;> decide
  · simp only [exSegs, List.mem_cons, List.not_mem_nil, or_false]
    rintro g (rfl | rfl | rfl)
    · exact ⟨by simp, fun t ht => tr _ _ _ _ (Or.inr ⟨rfl, rfl⟩) (Or.inl rfl) ht⟩
    · exact ⟨by simp, fun t ht => tr _ _ _ _ (Or.inl ⟨rfl, rfl⟩) (Or.inr rfl) ht⟩
    · exact t0
  · intro k hk
    have : k = c!"a" := by simpa [exSegs, comps] using hk.symm
    subst this; decide

example : genNameMapperVar ⟨true, true, true, true⟩ (nameChunks (dotted exSegs)) =
    some c!"VFN(VFN(VFN(VFFSL(SL,\"a.b\",True),\"c\",True)[1],\"d\",False)(2),\"x\",True)" := by decide

example : genCheetahVar ⟨true, true, true, true⟩ true (nameChunks (dotted exSegs)) = some c!"a.b.c[1].d(2).x" := by decide

end Cheetah.GenVar
