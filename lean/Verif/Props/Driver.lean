import Verif.Driver
import Verif.Props.ParserNest
import Verif.Props.Interval
/-
C69: what the parser accepts, the compiler can compile.
-/
namespace Cheetah.Driver
open Parser (Cmd Closes Neutral Nested)

/-! ### Specification -/

/-- The PSP text closes a PSP block. -/
def PspEnd (s : Str) : Prop := s.map Char.toLower = c!"end"

/-- The PSP text opens a PSP block: it ends with a colon or a dollar sign. -/
def PspOpen (s : Str) : Prop := ¬ PspEnd s ∧ s.head? ≠ some '=' ∧ (s.getLast? = some ':' ∨ s.getLast? = some '$')

/-- A PSP text that neither opens nor closes a block. -/
def PspPlain (s : Str) : Prop := ¬ PspEnd s ∧ (s.head? = some '=' ∨ s.getLast? ≠ some ':' ∧ s.getLast? ≠ some '$')

/-- In a `#call` region, after this command? A new method is not in the regions around it. -/
def InCall (b : Bool) : Cmd → Bool
  | .startCall _ _ => true
  | .startMethod _ _ => false
  | _ => b

/-- Properly nested commands, with PSP blocks nested too and every `#arg` inside a `#call` of its method. -/
inductive Placed : Bool → List Cmd → Prop
  | nil (b : Bool) : Placed b []
  | plain (b : Bool) (c : Cmd) (cs : List Cmd) : Neutral c → (∀ s, c = .psp s → PspPlain s) → (∀ n, c = .callArg n → b = true) →
      Placed b cs → Placed b (c :: cs)
  | block (b : Bool) (o c : Cmd) (body rest : List Cmd) : Closes o c → Placed (InCall b o) body → Placed b rest →
      Placed b (o :: body ++ c :: rest)
  | psp (b : Bool) (o c : Str) (body rest : List Cmd) : PspOpen o → PspEnd c → Placed b body → Placed b rest →
      Placed b (.psp o :: body ++ .psp c :: rest)

/-- An interval that `#cache` and placeholders understand: a number and perhaps a unit. -/
def TimeText (v : Str) : Prop := ∃ t u x n, Interval.Numeral t x ∧ Interval.Unit u n ∧ v = t ++ u

/-- An import statement whose names, after the first word `import`, are all there. -/
def GoodImport (e : Str) : Prop :=
  ∃ (a : Str) (names : List Str), e = a ++ c!"import" ++ joinStr c!"," names ∧ (∀ u v, a ++ c!"import" = u ++ c!"import" ++ v → v = []) ∧
    names ≠ [] ∧ ∀ p ∈ names, ',' ∉ p ∧ ∃ c ∈ p, isSpace c = false

/-- What is wrong with the directives' contents when compiling fails. -/
inductive Excuse (all : List Cmd) : Fail → Prop
  | pspEmpty : Cmd.psp [] ∈ all → Excuse all .index
  | elseEmpty (n : Str) (d : Bool) : Cmd.reindenting n [] d ∈ all → Excuse all .index
  | import_ (n e : Str) : Cmd.simple n e ∈ all → n = c!"import" ∨ n = c!"from" → ¬ GoodImport e → Excuse all .index
  | extends_ (e : Str) (ps : List Str) (p r k : Str) : Cmd.extends_ e ∈ all → e = joinStr c!"," ps → p ∈ ps → p = k ∨ p = r ++ c!"." ++ k →
      (∀ c ∈ k, isSpace c = true) → Excuse all .index
  | returnYield (a b : Str) : Cmd.simple c!"return" a ∈ all → Cmd.simple c!"yield" b ∈ all → Excuse all .assertion
  | cacheNoValue (as : List (Str × Option Str)) (k : Str) : Cmd.startCache as ∈ all → (k, none) ∈ as → Excuse all .type
  | cacheEmpty (as : List (Str × Option Str)) (k v : Str) : Cmd.startCache as ∈ all → (k, some v) ∈ as →
      (v = [] ∨ k = c!"timer" ∧ ∃ q s, v = q :: s ∧ (q = '"' ∨ q = '\'') ∧ s.length ≤ 1) → Excuse all .index
  | cacheNumber (as : List (Str × Option Str)) (v : Str) : Cmd.startCache as ∈ all → (c!"timer", some v) ∈ as →
      (∀ t, TimeText t → v ≠ t ∧ ∀ q c, q = '"' ∨ q = '\'' → v ≠ q :: t ++ [c]) → Excuse all .value
  | tokenEmpty (e raw : Str) (fa : Option Str) (s : Bool) : Cmd.placeholder e raw fa (.refresh []) s ∈ all → Excuse all .index
  | tokenNumber (e raw : Str) (fa : Option Str) (i : Str) (s : Bool) : Cmd.placeholder e raw fa (.refresh i) s ∈ all → ¬ TimeText i →
      Excuse all .value
  | attr (n e : Str) : Cmd.attr n e ∈ all →
      (∃ u v, n ++ c!" =" ++ e = u ++ c!"VFN(" ++ v ∨ n ++ c!" =" ++ e = u ++ c!"VFFSL(" ++ v) → Excuse all .attr

/-! ### What a method keeps -/

/-- The parts of a method that do not change when lines are added. -/
def Meth.core (m : Meth) : Meth := { m with name := [], args := [], decorators := [], pending := [], chunks := [] }

section
variable {cf : Cf} {m : Meth}

theorem core_commit : (m.commit cf).core = m.core := by unfold Meth.commit; split <;> rfl
theorem core_chunk {t : Str} : (m.chunk cf t).core = m.core := core_commit (cf := cf) (m := m)
theorem core_chunks {ts : List Str} : (m.chunks' cf ts).core = m.core := by
  unfold Meth.chunks'
  induction ts generalizing m with
  | nil => rfl
  | cons t ts ih => exact ih.trans core_chunk
theorem core_text {s : Str} : (m.text s).core = m.core := rfl
theorem core_handleWS : m.handleWS.core = m.core := by unfold Meth.handleWS; split <;> rfl
theorem core_filtered {e fa raw : Str} : (m.filtered cf e fa raw).core = m.core := by
  unfold Meth.filtered; simp only; split
  · exact core_chunks
  · exact core_chunk
theorem core_indent : m.indent.core = m.core.indent := rfl

theorem core_indenting {e : Str} : (m.indenting cf e).core = m.core.indent := by
  unfold Meth.indenting; rw [core_indent, core_chunk]

/-- What must be the same at the start and at the end of a block. -/
structure Frame where
  uid : Nat
  lev : Nat
  cache : List Str
  calls : List (Str × Str × Str)
  captures : List (Str × Str)
  filters : List Str

/-- The frame of a method. -/
def Meth.frame (m : Meth) : Frame := ⟨m.uid, m.lev, m.cache, m.calls.map fun c => (c.id, c.fn, c.args), m.captures, m.filters⟩

/-- Was there a `#return`, a `#yield`? -/
def Meth.flags (m : Meth) : Bool × Bool := (m.hasReturn, m.generator)

/-- One level deeper. -/
def Frame.up (f : Frame) : Frame := { f with lev := f.lev + 1 }

theorem frame_core {m' : Meth} (h : m'.core = m.core) : m'.frame = m.frame ∧ m'.flags = m.flags := by
  have h1 : ∀ m : Meth, m.frame = m.core.frame ∧ m.flags = m.core.flags := fun m => ⟨rfl, rfl⟩
  rw [(h1 m').1, (h1 m').2, h]
  exact ⟨rfl, rfl⟩

theorem dedent_ok {f : Frame} (h : m.frame = f.up) : ∃ m', m.dedent = .ok m' ∧ m'.frame = f ∧ m'.flags = m.flags := by
  have hl : m.lev = f.lev + 1 := congrArg Frame.lev h
  refine ⟨{ m with lev := m.lev - 1 }, ?_, ?_, rfl⟩
  · unfold Meth.dedent; rw [if_neg (by omega)]
  · show { m.frame with lev := m.lev - 1 } = f
    rw [h, hl]; rfl

theorem dedent_core {c : Meth} (h : m.core = c.indent) : ∃ m', m.dedent = .ok m' ∧ m'.core = c := by
  have hl : m.lev = c.lev + 1 := by
    have : m.core.lev = c.indent.lev := by rw [h]
    exact this
  refine ⟨{ m with lev := m.lev - 1 }, ?_, ?_⟩
  · unfold Meth.dedent; rw [if_neg (by omega)]
  · show { m.core with lev := m.lev - 1 } = c
    rw [h, hl]; rfl

theorem guarded_ok {t : Str} {b : List Str} : ∃ m', m.guarded cf t b = .ok m' ∧ m'.core = m.core := by
  unfold Meth.guarded
  exact dedent_core (by rw [core_chunks, core_indent, core_chunk])

theorem recacheTest_ok {id : Str} {test : Option Str} : ∃ m', m.recacheTest cf id test = .ok m' ∧ m'.core = m.core := by
  unfold Meth.recacheTest
  split
  · split
    · exact ⟨_, rfl, rfl⟩
    · exact guarded_ok
  · exact ⟨_, rfl, rfl⟩

theorem startCache_ok {id info : Str} {varyBy test : Option Str} {interval : Option Rat} :
    ∃ m', m.startCache cf id info varyBy test interval = .ok m' ∧ m'.core = { m.core with cache := id :: m.cache, lev := m.lev + 1 } := by
  unfold Meth.startCache
  simp only [bind, Except.bind]
  generalize h1 : ({ m with cache := id :: m.cache }.chunks' cf _) = m1
  obtain ⟨m2, h2, k2⟩ := guarded_ok (cf := cf) (m := m1) (t := c!"if _cacheRegion_" ++ id ++ c!".isNew():") (b := [c!"_RECACHE_" ++ id ++ c!" = True"])
  simp only [h2]
  generalize h3 : m2.chunk cf _ = m3
  obtain ⟨m4, h4, k4⟩ := guarded_ok (cf := cf) (m := m3) (t := c!"if _cacheItem_" ++ id ++ c!".hasExpired():") (b := [c!"_RECACHE_" ++ id ++ c!" = True"])
  simp only [h4]
  obtain ⟨m5, h5, k5⟩ := recacheTest_ok (cf := cf) (m := m4) (id := id) (test := test)
  simp only [h5]
  generalize h6 : (m5.chunk cf _).indent = m6
  obtain ⟨m7, h7, k7⟩ := guarded_ok (cf := cf) (m := m6) (t := c!"try:") (b := [c!"_output = _cacheItem_" ++ id ++ c!".renderOutput()"])
  simp only [h7]
  obtain ⟨m8, h8, k8⟩ := guarded_ok (cf := cf) (m := m7) (t := c!"except KeyError:") (b := [c!"_RECACHE_" ++ id ++ c!" = True"])
  simp only [h8]
  obtain ⟨m9, h9, k9⟩ := guarded_ok (cf := cf) (m := m8) (t := c!"else:") (b := [c!"write(_output)", c!"del _output"])
  simp only [h9]
  obtain ⟨m10, h10, k10⟩ := dedent_core (m := m9) (c := m5.core) (by rw [k9, k8, k7, ← h6, core_indent, core_chunk])
  simp only [h10]
  have e1 : m10.core = { m.core with cache := id :: m.cache } := by
    rw [k10, k5, k4, ← h3, core_chunk, k2, ← h1, core_chunks]; rfl
  split
  · refine ⟨_, rfl, ?_⟩
    rw [core_chunk, core_chunks, core_indent, core_chunk, e1]; rfl
  · refine ⟨_, rfl, ?_⟩
    rw [core_chunks, core_indent, core_chunk, e1]; rfl

theorem frame_indent : m.indent.frame = m.frame.up := rfl

theorem endCache_ok {f : Frame} {id : Str} (h : m.frame = { f with cache := id :: f.cache, lev := f.lev + 1 }) :
    ∃ m', m.endCache cf = .ok m' ∧ m'.frame = f ∧ m'.flags = m.flags := by
  have hc : m.cache = id :: f.cache := congrArg Frame.cache h
  unfold Meth.endCache
  simp only [hc]
  generalize h1 : Meth.chunks' cf _ { m with cache := f.cache } = m1
  have k1 : m1.core = { m with cache := f.cache }.core := by rw [← h1]; exact core_chunks
  obtain ⟨j1, j2⟩ := frame_core k1
  obtain ⟨m', q1, q2, q3⟩ := dedent_ok (m := m1) (f := f) (by
    rw [j1]
    show { m.frame with cache := f.cache } = _
    rw [h]; rfl)
  exact ⟨m', q1, q2, q3.trans j2⟩

theorem endCall_ok {f : Frame} {x : Str × Str × Str} (h : m.frame = { f with calls := x :: f.calls }) :
    ∃ m', m.endCall cf = .ok m' ∧ m'.frame = f ∧ m'.flags = m.flags := by
  have hc : m.calls.map (fun c => (c.id, c.fn, c.args)) = x :: f.calls := congrArg Frame.calls h
  cases hm : m.calls with
  | nil => rw [hm] at hc; cases hc
  | cons c cs =>
    unfold Meth.endCall
    simp only [hm]
    refine ⟨_, rfl, ?_⟩
    have key : ∀ m1 : Meth, m1.core = m.core → ({ m1 with calls := cs } : Meth).frame = f ∧ ({ m1 with calls := cs } : Meth).flags = m.flags := by
      intro m1 k
      obtain ⟨k1, k2⟩ := frame_core k
      refine ⟨?_, k2⟩
      show { m1.frame with calls := cs.map fun c => (c.id, c.fn, c.args) } = f
      rw [k1, h]
      rw [hm] at hc
      simp only [List.map_cons, List.cons.injEq] at hc
      rw [hc.2]
    apply key
    split
    · rw [core_chunk, core_filtered, core_chunks]
    · rw [core_chunk, core_filtered, core_chunks]

theorem endCapture_ok {f : Frame} {x : Str × Str} (h : m.frame = { f with captures := x :: f.captures }) :
    ∃ m', m.endCapture cf = .ok m' ∧ m'.frame = f ∧ m'.flags = m.flags := by
  have hc : m.captures = x :: f.captures := congrArg Frame.captures h
  unfold Meth.endCapture
  simp only [hc]
  refine ⟨_, rfl, ?_⟩
  obtain ⟨j1, j2⟩ := frame_core (m := { m with captures := f.captures }) (core_chunks (cf := cf) (m := { m with captures := f.captures }) (ts := _))
  refine ⟨j1.trans ?_, j2⟩
  show { m.frame with captures := f.captures } = f
  rw [h]

theorem closeFilter_ok {f : Frame} {x : Str} (h : m.frame = { f with filters := x :: f.filters }) :
    ∃ m', m.closeFilter cf = .ok m' ∧ m'.frame = f ∧ m'.flags = m.flags := by
  have hc : m.filters = x :: f.filters := congrArg Frame.filters h
  unfold Meth.closeFilter
  simp only [hc]
  refine ⟨_, rfl, ?_⟩
  obtain ⟨j1, j2⟩ := frame_core (m := { m with filters := f.filters }) (core_chunk (cf := cf) (m := { m with filters := f.filters }) (t := _))
  refine ⟨j1.trans ?_, j2⟩
  show { m.frame with filters := f.filters } = f
  rw [h]

theorem setFilter_ok {id f : Str} {k : Bool} {lo : Str → Str} :
    ∃ m', m.setFilter cf id f k lo = .ok m' ∧ m'.core = { m.core with filters := id :: m.filters } := by
  unfold Meth.setFilter
  simp only [bind, Except.bind]
  generalize h1 : Meth.chunk cf _ { m with filters := id :: m.filters } = m1
  have k1 : m1.core = { m.core with filters := id :: m.filters } := by rw [← h1, core_chunk]; rfl
  split
  · exact ⟨_, rfl, by rw [core_chunk, k1]⟩
  split
  · exact ⟨_, rfl, by rw [core_chunk, k1]⟩
  obtain ⟨m2, h2, k2⟩ := guarded_ok (cf := cf) (m := m1.chunk cf (c!"filterName = " ++ pyRepr cf.printable f))
    (t := c!"if \"" ++ f ++ c!"\" in self._CHEETAH__filters:") (b := [c!"_filter = self._CHEETAH__currentFilter = self._CHEETAH__filters[filterName]"])
  simp only [h2]
  obtain ⟨m3, h3, k3⟩ := guarded_ok (cf := cf) (m := m2) (t := c!"else:") (b := _)
  exact ⟨m3, h3, by rw [k3, k2, core_chunk, k1]⟩

theorem ternary_ok {a b e : Str} : ∃ m', m.ternary cf a b e = .ok m' ∧ m'.core = m.core := by
  unfold Meth.ternary
  obtain ⟨m1, h1, k1⟩ := dedent_core (m := (m.indenting cf a).filtered cf b [] []) (c := m.core) (by rw [core_filtered, core_indenting])
  obtain ⟨m2, h2, k2⟩ := dedent_core (m := (m1.indenting cf c!"else").filtered cf e [] []) (c := m.core) (by rw [core_filtered, core_indenting, k1])
  simp only [h1, bind, Except.bind]
  exact ⟨m2, h2, k2⟩

theorem setCatcher_ok {n : Str} : ∃ m', m.setCatcher cf n = .ok m' ∧ m'.core = { m.core with catching := true } := by
  unfold Meth.setCatcher
  obtain ⟨m1, h1, k1⟩ := guarded_ok (cf := cf) (m := { m with catching := true }) (t := c!"if \"" ++ n ++ c!"\" in self._CHEETAH__errorCatchers:")
    (b := [c!"self._CHEETAH__errorCatcher = self._CHEETAH__errorCatchers[\"" ++ n ++ c!"\"]"])
  simp only [h1, bind, Except.bind]
  obtain ⟨m2, h2, k2⟩ := guarded_ok (cf := cf) (m := m1) (t := c!"else:") (b := _)
  exact ⟨m2, h2, by rw [k2, k1]; rfl⟩

theorem placeLines_ok {e fa raw : Str} {s : Bool} : ∃ m', CC.placeLines cf e fa raw s m = .ok m' ∧ m'.core = m.core := by
  unfold CC.placeLines
  split
  · obtain ⟨m1, h1, k1⟩ := dedent_core (m := ((m.chunk cf c!"try:").indent.filtered cf e fa raw)) (c := m.core) (by rw [core_filtered, core_indent, core_chunk])
    simp only [h1, bind, Except.bind]
    exact ⟨_, rfl, by rw [core_chunk, k1]⟩
  · exact ⟨_, rfl, core_filtered⟩

end

/-! ### The compiler's state -/

/-- The frames of the active methods, the innermost first. -/
def CC.frames (c : CC) : List Frame := c.active.map Meth.frame

/-- `#return` and `#yield` are known from the commands; the main method can be found. -/
def FlagsOk (all : List Cmd) (m : Meth) : Prop :=
  (m.hasReturn = true → ∃ e, Cmd.simple c!"return" e ∈ all) ∧ (m.generator = true → ∃ e, Cmd.simple c!"yield" e ∈ all)

/-- What always holds. -/
structure Inv (all : List Cmd) (c : CC) : Prop where
  flags : ∀ m ∈ c.active, FlagsOk all m
  main : (Dict.get c.index c.mainName).isSome

/-- A result with the given frames, or an excuse. -/
def Good (all : List Cmd) (F : List Frame) : Except Fail CC → Prop
  | .ok c => c.frames = F ∧ Inv all c
  | .error e => Excuse all e

theorem Good.bind {all : List Cmd} {F G : List Frame} {r : Except Fail CC} {k : CC → Except Fail CC} (h : Good all F r)
    (hk : ∀ c, c.frames = F → Inv all c → Good all G (k c)) : Good all G (r >>= k) := by
  cases r with
  | ok c => exact hk c h.1 h.2
  | error e => exact h

section
variable {cf : Cf} {all : List Cmd} {c : CC} {f : Frame} {fs : List Frame}

theorem FlagsOk.same {m m' : Meth} (h : FlagsOk all m) (hf : m'.flags = m.flags) : FlagsOk all m' := by
  have h1 : m'.hasReturn = m.hasReturn := congrArg Prod.fst hf
  have h2 : m'.generator = m.generator := congrArg Prod.snd hf
  unfold FlagsOk
  rw [h1, h2]
  exact h

theorem onTop_good {g : Frame} {k : Meth → Except Fail Meth} (hc : c.frames = f :: fs) (hi : Inv all c)
    (hk : ∀ m, m.frame = f → FlagsOk all m → (∃ m', k m = .ok m' ∧ m'.frame = g ∧ FlagsOk all m') ∨ ∃ e, k m = .error e ∧ Excuse all e) :
    Good all (g :: fs) (c.onTop k) := by
  unfold CC.frames at hc
  cases ha : c.active with
  | nil => rw [ha] at hc; cases hc
  | cons m ms =>
    rw [ha, List.map_cons] at hc
    injection hc with h1 h2
    have hm := hi.flags m (by rw [ha]; simp)
    unfold CC.onTop
    simp only [ha]
    rcases hk m h1 hm with ⟨m', e1, e2, e3⟩ | ⟨e, e1, e2⟩
    · rw [e1]
      refine ⟨?_, ?_, hi.main⟩
      · show m'.frame :: ms.map Meth.frame = _
        rw [e2, h2]
      · intro x hx
        rcases List.mem_cons.1 hx with rfl | hx
        · exact e3
        · exact hi.flags x (by rw [ha]; exact List.mem_cons_of_mem _ hx)
    · rw [e1]
      exact e2

/-- A call that keeps the frame. -/
theorem onTop_core {k : Meth → Except Fail Meth} (hc : c.frames = f :: fs) (hi : Inv all c) (hk : ∀ m, ∃ m', k m = .ok m' ∧ m'.core = m.core) :
    Good all (f :: fs) (c.onTop k) := by
  refine onTop_good hc hi fun m hm hf => ?_
  obtain ⟨m', h1, h2⟩ := hk m
  obtain ⟨h3, h4⟩ := frame_core h2
  exact .inl ⟨m', h1, h3.trans hm, hf.same h4⟩

theorem top_core {k : Meth → Meth} (hc : c.frames = f :: fs) (hi : Inv all c) (hk : ∀ m, (k m).core = m.core) : Good all (f :: fs) (c.top k) :=
  onTop_core hc hi fun m => ⟨_, rfl, hk m⟩

theorem same_good {c' : CC} (hc : c.frames = f :: fs) (hi : Inv all c) (h1 : c'.active = c.active) (h2 : c'.index = c.index) (h3 : c'.mainName = c.mainName) :
    c'.frames = f :: fs ∧ Inv all c' := by
  refine ⟨?_, ?_, ?_⟩
  · unfold CC.frames at hc ⊢; rw [h1]; exact hc
  · rw [h1]; exact hi.flags
  · rw [h2, h3]; exact hi.main

/-! ### Single commands -/

theorem elseIf_nil {n : Nat} {s : Str} (h : Meth.elseIf n s = []) : s = [] := by
  cases n with
  | zero => exact h
  | succ n =>
    cases s with
    | nil => rfl
    | cons a s =>
      rw [Meth.elseIf] at h
      split at h
      · simp only at h
        split at h
        · split at h <;> simp at h
        · cases h
      · cases h

theorem afterImport_first (a b : Str) (h : ∀ u v, a ++ c!"import" = u ++ c!"import" ++ v → v = []) (n : Nat) (hn : a.length < n) :
    CC.afterImport n (a ++ c!"import" ++ b) = some b := by
  induction a generalizing n with
  | nil =>
    obtain ⟨n, rfl⟩ : ∃ k, n = k + 1 := ⟨n - 1, by omega⟩
    rfl
  | cons d a ih =>
    obtain ⟨n, rfl⟩ : ∃ k, n = k + 1 := ⟨n - 1, by omega⟩
    rw [List.cons_append, List.cons_append, CC.afterImport]
    have : stripPrefix? c!"import" (d :: (a ++ c!"import" ++ b)) = none := by
      cases hr : stripPrefix? c!"import" (d :: (a ++ c!"import" ++ b)) with
      | none => rfl
      | some r =>
        exfalso
        have h1 := stripPrefix?_some.1 hr
        have h2 : (d :: a ++ c!"import") ++ b = c!"import" ++ r := by simpa using h1
        have h3 : (d :: a ++ c!"import").take 6 = c!"import" := by
          have := congrArg (List.take 6) h2
          rwa [List.take_append_of_le_length (by simp)] at this
        have h4 := h [] ((d :: a ++ c!"import").drop 6) (by
          rw [List.nil_append]
          conv_lhs => rw [← List.take_append_drop 6 (d :: a ++ c!"import"), h3])
        have h5 := congrArg List.length h4
        simp at h5
    rw [this]
    refine ih ?_ n (by simp at hn; omega)
    intro u v huv
    exact h (d :: u) v (by rw [List.cons_append, huv]; rfl)

theorem addImported_good {vars : List Str} {raw : Option Str} (hc : c.frames = f :: fs) (hi : Inv all c) :
    Good all (f :: fs) (c.addImported cf vars raw) := by
  unfold CC.addImported
  split
  · exact ⟨hc, hi⟩
  split
  · exact same_good hc hi rfl rfl rfl
  cases raw with
  | none => exact ⟨hc, hi⟩
  | some e =>
    show Good all _ (if _ then _ else _)
    split
    · exact ⟨hc, hi⟩
    · exact top_core hc hi fun m => core_chunk

theorem import_ok {e : Str} (hx : (splitCh ',' ((CC.afterImport (e.length + 1) e).getD (e.drop 5))).any CC.blankName = true → Excuse all .index)
    (hc : c.frames = f :: fs) (hi : Inv all c) : Good all (f :: fs) (c.import_ cf e) := by
  unfold CC.import_
  simp only
  generalize c.fresh = fresh
  generalize hc' : (if (fresh || cf.legacyImports) = true then { c with imports := c.imports ++ [e] } else c) = c'
  have hs : c'.frames = f :: fs ∧ Inv all c' := by
    rw [← hc']
    refine same_good hc hi ?_ ?_ ?_ <;> split <;> rfl
  split
  · rename_i h; exact hx h
  · exact addImported_good hs.1 hs.2

theorem import_good {n e : Str} (hn : n = c!"import" ∨ n = c!"from") (hm : Cmd.simple n e ∈ all) (hc : c.frames = f :: fs) (hi : Inv all c) :
    Good all (f :: fs) (c.import_ cf e) := by
  refine import_ok (fun h => .import_ n e hm hn fun hg => ?_) hc hi
  obtain ⟨a, names, h1, h2, h3, h4⟩ := hg
  have hsp : splitCh ',' ((CC.afterImport (e.length + 1) e).getD (e.drop 5)) = names := by
    rw [h1, afterImport_first a _ h2 _ (by simp; omega)]
    exact splitCh_join h3 fun p hp => (h4 p hp).1
  have hb : names.any CC.blankName = false := by
    rw [List.any_eq_false]
    intro p hp
    obtain ⟨_, d, h5, h6⟩ := h4 p hp
    unfold CC.blankName
    simp only [List.all_eq_true, not_forall]
    exact ⟨d, h5, by simp [h6]⟩
  rw [hsp, hb] at h
  cases h

/-- Where the first `import` is, what follows it ends with what follows any other. -/
theorem afterImport_some (a b : Str) (n : Nat) (hn : a.length < n) : ∃ y, CC.afterImport n (a ++ c!"import" ++ b) = some (y ++ b) := by
  induction a generalizing n with
  | nil =>
    obtain ⟨n, rfl⟩ : ∃ k, n = k + 1 := ⟨n - 1, by omega⟩
    exact ⟨[], rfl⟩
  | cons d a ih =>
    obtain ⟨n, rfl⟩ : ∃ k, n = k + 1 := ⟨n - 1, by omega⟩
    rw [List.cons_append, List.cons_append, CC.afterImport]
    cases hr : stripPrefix? c!"import" (d :: (a ++ c!"import" ++ b)) with
    | none => exact ih n (by simp at hn; omega)
    | some r =>
      have h1 : (d :: a ++ c!"import") ++ b = c!"import" ++ r := by simpa using stripPrefix?_some.1 hr
      have h2 := congrArg (List.drop 6) h1
      rw [List.drop_append_of_le_length (by simp)] at h2
      exact ⟨(d :: a ++ c!"import").drop 6, by simpa using h2.symm⟩

/-- The names of `from M import K`, as they are read. -/
theorem fromImport_names {m k : Str} (hm : ',' ∉ m) (hk : ',' ∉ k) : ∃ y, ',' ∉ y ∧
    splitCh ',' ((CC.afterImport ((c!"from " ++ m ++ c!" import " ++ k).length + 1) (c!"from " ++ m ++ c!" import " ++ k)).getD
      ((c!"from " ++ m ++ c!" import " ++ k).drop 5)) = [y ++ c!" " ++ k] := by
  have he : c!"from " ++ m ++ c!" import " ++ k = (c!"from " ++ m ++ c!" ") ++ c!"import" ++ (c!" " ++ k) := by simp
  obtain ⟨y, h⟩ := afterImport_some (c!"from " ++ m ++ c!" ") (c!" " ++ k) ((c!"from " ++ m ++ c!" import " ++ k).length + 1) (by simp)
  rw [← he] at h
  have hno : ',' ∉ y ++ c!" " ++ k := by
    have hsub : ∀ (n : Nat) (s r : Str), CC.afterImport n s = some r → ∀ c ∈ r, c ∈ s := by
      intro n
      induction n with
      | zero => intro s r h; cases h
      | succ n ih =>
        intro s r h
        cases s with
        | nil => cases h
        | cons a s =>
          rw [CC.afterImport] at h
          cases hr : stripPrefix? c!"import" (a :: s) with
          | none => rw [hr] at h; intro c hc; exact List.mem_cons_of_mem _ (ih s r h c hc)
          | some t =>
            rw [hr] at h
            cases h
            intro c hc
            rw [stripPrefix?_some.1 hr]
            exact List.mem_append_right _ hc
    intro hmem
    have := hsub _ _ _ h ',' (by simpa using hmem)
    simp at this
    rcases this with h | h
    · exact hm h
    · exact hk h
  refine ⟨y, fun h => hno (by simp [h]), ?_⟩
  rw [h, Option.getD_some]
  rw [← List.append_assoc, splitCh_of_not_mem hno]

theorem importClass_good {m k : Str} (hm : ',' ∉ m) (hk : ',' ∉ k) (hx : (∀ c ∈ k, isSpace c = true) → Excuse all .index)
    (hc : c.frames = f :: fs) (hi : Inv all c) : Good all (f :: fs) (c.importClass cf m k) := by
  refine Good.bind (import_ok (fun h => hx ?_) hc hi) fun c1 hc1 hi1 => addImported_good hc1 hi1
  obtain ⟨y, _, h2⟩ := fromImport_names hm hk
  rw [h2] at h
  simp only [List.any_cons, List.any_nil, Bool.or_false, CC.blankName, List.all_eq_true] at h
  exact fun c hc => h c (by simp [hc])

theorem getLastD_split (s : Str) : ∃ ps, splitCh '.' s = ps ++ [(splitCh '.' s).getLastD []] ∧
    (s = (splitCh '.' s).getLastD [] ∨ ∃ r, s = r ++ c!"." ++ (splitCh '.' s).getLastD []) := by
  have hne := splitCh_ne_nil '.' s
  have hj := join_splitCh '.' s
  generalize splitCh '.' s = l at *
  obtain ⟨ps, k, rfl⟩ : ∃ ps k, l = ps ++ [k] := ⟨l.dropLast, l.getLast hne, (List.dropLast_append_getLast hne).symm⟩
  have hg : (ps ++ [k]).getLastD [] = k := by simp
  rw [hg]
  refine ⟨ps, rfl, ?_⟩
  rw [← hj]
  clear hne hj hg
  cases ps with
  | nil => exact .inl rfl
  | cons p ps =>
    right
    induction ps generalizing p with
    | nil => exact ⟨p, rfl⟩
    | cons q ps ih =>
      obtain ⟨r, hr⟩ := ih q
      refine ⟨p ++ c!"." ++ r, ?_⟩
      simp only [List.cons_append] at hr ⊢
      rw [joinStr, hr]
      simp

/-- `Good` for a result with something beside it. -/
def Good2 (all : List Cmd) (fs : List Frame) {α : Type} : Except Fail (α × CC) → Prop
  | .ok (_, c) => c.frames = fs ∧ Inv all c
  | .error x => Excuse all x

theorem oneBase_good {klass : Str} (hk : ',' ∉ klass)
    (hx : ∀ k r, klass = k ∨ klass = r ++ c!"." ++ k → (∀ c ∈ k, isSpace c = true) → Excuse all .index)
    (hc : c.frames = f :: fs) (hi : Inv all c) : Good2 all (f :: fs) (c.oneBase cf klass) := by
  have hmem : ∀ p ∈ splitCh '.' klass, ',' ∉ p := by
    intro p hp h
    refine hk ?_
    rw [← join_splitCh '.' klass]
    clear hx hk
    revert hp
    generalize splitCh '.' klass = l
    intro hp
    induction l with
    | nil => cases hp
    | cons q l ih =>
      cases l with
      | nil => cases hp with | head => exact h | tail _ h2 => cases h2
      | cons r l =>
        rw [joinStr]
        cases hp with
        | head => simp [h]
        | tail _ h2 => exact List.mem_append_right _ (ih h2)
  have hjoin : ∀ l : List Str, (∀ p ∈ l, ',' ∉ p) → ',' ∉ joinStr c!"." l := by
    intro l
    induction l with
    | nil => intro _ h; cases h
    | cons q l ih =>
      intro hl
      cases l with
      | nil => exact hl q (by simp)
      | cons r l =>
        rw [joinStr]
        intro h
        rcases List.mem_append.1 h with h | h
        · rcases List.mem_append.1 h with h | h
          · exact hl q (by simp) h
          · simp at h
        · exact ih (fun p hp => hl p (List.mem_cons_of_mem _ hp)) h
  have key : ∀ (m k : Str), ',' ∉ m → ',' ∉ k → ((∀ c ∈ k, isSpace c = true) → Excuse all .index) →
      Good2 all (f :: fs) (c.importClass cf m k >>= fun c => Except.ok (k, c) : Except Fail (Str × CC)) := by
    intro m k h1 h2 h3
    have := importClass_good (cf := cf) h1 h2 h3 hc hi
    cases hr : c.importClass cf m k with
    | error x => rw [hr] at this; exact this
    | ok c' => rw [hr] at this; exact this
  obtain ⟨ps, h1, h2⟩ := getLastD_split klass
  unfold CC.oneBase
  cases hs : splitCh '.' klass with
  | nil => exact absurd hs (splitCh_ne_nil _ _)
  | cons a l =>
    rw [hs] at h1 h2 hmem
    cases l with
    | nil =>
      show Good2 all _ (if _ then _ else _)
      split
      · exact ⟨hc, hi⟩
      · exact key klass klass hk hk (hx klass [] (.inl rfl))
    | cons b l =>
      show Good2 all _ (match CC.inImported c.imported klass a ((b :: l).dropLast) with | some b => _ | none => _)
      split
      · exact ⟨hc, hi⟩
      · have hl : (a :: b :: l).getLastD [] = (b :: l).getLastD [] := by simp
        rw [hl] at h1 h2
        have hlast : (b :: l).getLastD [] ∈ a :: b :: l := by rw [h1]; simp
        refine key _ _ ?_ (hmem _ hlast) ?_
        · split
          · exact hjoin _ hmem
          · exact hjoin _ fun p hp => hmem p ((List.dropLast_sublist _).subset hp)
        · rcases h2 with h2 | ⟨r, h2⟩
          · exact hx _ [] (.inl h2)
          · exact hx _ r (.inr h2)

theorem setBase_good {e : Str} (hm : Cmd.extends_ e ∈ all) (hc : c.frames = f :: fs) (hi : Inv all c) : Good all (f :: fs) (c.setBase cf e) := by
  unfold CC.setBase
  split
  · exact same_good hc hi rfl rfl rfl
  have key : ∀ (ks : List Str) (c : CC), (∀ k ∈ ks, k ∈ splitCh ',' e) → c.frames = f :: fs → Inv all c →
      Good2 all (f :: fs) (c.bases cf ks) := by
    intro ks
    induction ks with
    | nil => intro c _ hc hi; exact ⟨hc, hi⟩
    | cons k ks ih =>
      intro c hks hc hi
      have hk := hks k (by simp)
      have hcomma := splitCh_not_mem ',' e k hk
      have h1 := oneBase_good (cf := cf) (klass := strip k) (fun h => hcomma (strip_mem h)) (fun q r h1 h2 => ?_) hc hi
      · rw [CC.bases]
        cases hr : c.oneBase cf (strip k) with
        | error x => rw [hr] at h1; exact h1
        | ok v =>
          obtain ⟨b, c1⟩ := v
          rw [hr] at h1
          have h2 := ih c1 (fun k hk => hks k (List.mem_cons_of_mem _ hk)) h1.1 h1.2
          simp only [bind, Except.bind]
          cases hr2 : c1.bases cf ks with
          | error x => rw [hr2] at h2; exact h2
          | ok v => rw [hr2] at h2; exact h2
      · obtain ⟨a, b, h3, h4, h5⟩ := strip_spec k
        rcases h1 with h1 | h1
        · refine .extends_ e (splitCh ',' e) k [] k hm (join_splitCh ',' e).symm hk (.inl rfl) ?_
          intro c hc
          rw [h3, h1] at hc
          simp only [List.mem_append] at hc
          rcases hc with (hc | hc) | hc
          · exact h4 c hc
          · exact h2 c hc
          · exact h5.1 c hc
        · refine .extends_ e (splitCh ',' e) k (a ++ r) (q ++ b) hm (join_splitCh ',' e).symm hk (.inr ?_) ?_
          · conv_lhs => rw [h3, h1]
            simp
          · intro c hc
            rcases List.mem_append.1 hc with hc | hc
            · exact h2 c hc
            · exact h5.1 c hc
  have := key (splitCh ',' e) c (fun _ h => h) hc hi
  cases hr : c.bases cf (splitCh ',' e) with
  | error x => rw [hr] at this; exact this
  | ok v => rw [hr] at this; exact same_good this.1 this.2 rfl rfl rfl

theorem interval_error {v : Str} {e : Interval.Err} (h : Interval.genTimeInterval v = .error e) :
    v = [] ∧ e = .indexError ∨ e = .valueError ∧ v ≠ [] ∧ ¬ TimeText v := by
  by_cases hv : v = []
  · subst hv
    left
    exact ⟨rfl, by unfold Interval.genTimeInterval at h; simpa using h.symm⟩
  · right
    refine ⟨?_, hv, ?_⟩
    · have key : ∀ s n, Interval.scaled s n = .error e → e = .valueError := by
        intro s n h
        unfold Interval.scaled at h
        split at h
        · cases h
        · injection h with h; exact h.symm
      unfold Interval.genTimeInterval at h
      split at h
      · rename_i hl
        exact absurd (List.getLast?_eq_none_iff.1 hl) hv
      · repeat' split at h
        all_goals exact key _ _ h
    · rintro ⟨t, u, x, n, h1, h2, rfl⟩
      rw [Interval.C32_units h1 h2] at h
      cases h

theorem argVals_spec {as : List (Str × Option Str)} :
    (∃ vs, CC.argVals as = .ok vs ∧ as = vs.map fun a => (a.1, some a.2)) ∨ (CC.argVals as = .error .type ∧ ∃ k, (k, none) ∈ as) := by
  induction as with
  | nil => exact .inl ⟨[], rfl, rfl⟩
  | cons a as ih =>
    obtain ⟨k, v⟩ := a
    cases v with
    | none => exact .inr ⟨rfl, k, by simp⟩
    | some v =>
      rcases ih with ⟨vs, h1, h2⟩ | ⟨h1, k', h2⟩
      · exact .inl ⟨(k, v) :: vs, by rw [CC.argVals, h1]; rfl, by rw [h2]; rfl⟩
      · exact .inr ⟨by rw [CC.argVals, h1]; rfl, k', List.mem_cons_of_mem _ h2⟩

theorem fromArgList_error {vs : List (Str × Str)} {e : Interval.Err} (h : Interval.fromArgList vs = .error e) :
    ∃ k v d, (k, v) ∈ vs ∧ Interval.addArg d k v = .error e := by
  unfold Interval.fromArgList at h
  revert h
  generalize Interval.put _ _ _ = d
  intro h
  induction vs generalizing d with
  | nil => cases h
  | cons a vs ih =>
    rw [List.foldlM_cons] at h
    cases ha : Interval.addArg d a.1 a.2 with
    | error e' =>
      rw [ha] at h
      cases h
      exact ⟨a.1, a.2, d, by simp, ha⟩
    | ok d' =>
      rw [ha] at h
      obtain ⟨k, v, d'', h1, h2⟩ := ih d' h
      exact ⟨k, v, d'', List.mem_cons_of_mem _ h1, h2⟩

theorem TimeText.head {t : Str} (h : TimeText t) : ∃ c r, t = c :: r ∧ c ≠ '"' ∧ c ≠ '\'' := by
  obtain ⟨t, u, x, n, h1, h2, rfl⟩ := h
  have key : ∀ ds : Str, ds ≠ [] → (∀ c ∈ ds, c ∈ c!"0123456789") → ∀ r, ∃ c r', ds ++ r = c :: r' ∧ c ≠ '"' ∧ c ≠ '\'' := by
    intro ds h1 h2 r
    cases ds with
    | nil => exact absurd rfl h1
    | cons d ds =>
      refine ⟨d, ds ++ r, rfl, ?_, ?_⟩ <;>
      · rintro rfl
        exact absurd (h2 _ List.mem_cons_self) (by decide)
  cases h1 with
  | whole ds h3 h4 => exact key _ h3 h4 u
  | point ds fs h3 h4 h5 =>
    rw [List.append_assoc]
    exact key ds h3 h4 _

theorem addArg_error {as : List (Str × Option Str)} {k v : Str} {d : Str → Option Interval.Val} {e : Interval.Err}
    (hm : Cmd.startCache as ∈ all) (hk : (k, some v) ∈ as) (h : Interval.addArg d k v = .error e) : Excuse all (CC.failOf e) := by
  unfold Interval.addArg at h
  cases v with
  | nil =>
    simp only [Interval.unquote, bind, Except.bind] at h
    cases h
    exact .cacheEmpty as k [] hm hk (.inl rfl)
  | cons q s =>
    obtain ⟨w, hw, hcase⟩ : ∃ w, Interval.unquote (q :: s) = .ok w ∧
        ((q = '"' ∨ q = '\'') ∧ w = s.dropLast ∨ ¬ (q = '"' ∨ q = '\'') ∧ w = q :: s) := by
      unfold Interval.unquote
      by_cases hq : q = '"' ∨ q = '\''
      · exact ⟨_, if_pos hq, .inl ⟨hq, rfl⟩⟩
      · exact ⟨_, if_neg hq, .inr ⟨hq, rfl⟩⟩
    simp only [hw, bind, Except.bind] at h
    split at h
    · rename_i hkt
      subst hkt
      cases hg : Interval.genTimeInterval w with
      | ok x => rw [hg] at h; cases h
      | error e' =>
        rw [hg] at h
        cases h
        rcases interval_error hg with ⟨h1, rfl⟩ | ⟨rfl, h1, h2⟩
        · rcases hcase with ⟨h3, rfl⟩ | ⟨h3, rfl⟩
          · refine .cacheEmpty as _ _ hm hk (.inr ⟨rfl, q, s, rfl, h3, ?_⟩)
            have := congrArg List.length h1
            simp at this
            omega
          · cases h1
        · refine .cacheNumber as _ hm hk fun t ht => ⟨?_, ?_⟩
          · intro ht'
            rcases hcase with ⟨h3, rfl⟩ | ⟨h3, rfl⟩
            · obtain ⟨c, r, h4, h5, h6⟩ := ht.head
              rw [h4] at ht'
              injection ht' with h7
              subst h7
              exact h3.elim h5 h6
            · exact h2 (ht' ▸ ht)
          · intro q' c' hq ht'
            rw [List.cons_append] at ht'
            injection ht' with h7 h8
            subst h7
            rcases hcase with ⟨h3, rfl⟩ | ⟨h3, rfl⟩
            · rw [h8, List.dropLast_concat] at h2
              exact h2 ht
            · exact h3 hq
    · cases h

theorem draw_good (hc : c.frames = f :: fs) (hi : Inv all c) : (c.draw cf).2.frames = f :: fs ∧ Inv all (c.draw cf).2 := same_good hc hi rfl rfl rfl

theorem frame_of_core {m m' : Meth} {k : Meth → Meth} (h : m'.core = k m.core) (hk : (k m.core).flags = m.flags) : m'.frame = (k m.core).frame ∧ m'.flags = m.flags := by
  have h1 : m'.frame = m'.core.frame ∧ m'.flags = m'.core.flags := ⟨rfl, rfl⟩
  rw [h1.1, h1.2, h]
  exact ⟨rfl, hk⟩

theorem startCache_good {as : List (Str × Option Str)} (hm : Cmd.startCache as ∈ all) (hc : c.frames = f :: fs) (hi : Inv all c) :
    ∃ id, Good all ({ f with cache := id :: f.cache, lev := f.lev + 1 } :: fs) (c.startCache cf as) := by
  unfold CC.startCache
  rcases argVals_spec (as := as) with ⟨vs, h1, h2⟩ | ⟨h1, k, h2⟩
  · simp only [h1, bind, Except.bind]
    cases hd : Interval.fromArgList vs with
    | error e =>
      refine ⟨[], ?_⟩
      obtain ⟨k, v, d, h3, h4⟩ := fromArgList_error hd
      exact addArg_error hm (k := k) (v := v) (by rw [h2]; exact List.mem_map.2 ⟨_, h3, rfl⟩) h4
    | ok d =>
      simp only
      generalize CC.idOf _ _ = id
      refine ⟨id, onTop_good (draw_good (cf := cf) hc hi).1 (draw_good (cf := cf) hc hi).2 fun m hm hf => .inl ?_⟩
      obtain ⟨m', h3, h4⟩ := startCache_ok (cf := cf) (m := m) (id := id) (info := cf.showInfo d) (varyBy := CC.textOf (d c!"varyBy")) (test := CC.textOf (d c!"test"))
        (interval := CC.numOf (d c!"interval"))
      refine ⟨m', h3, ?_, ?_⟩
      · have : m'.frame = m'.core.frame := rfl
        rw [this, h4, ← hm]
        rfl
      · refine hf.same ?_
        have : m'.flags = m'.core.flags := rfl
        rw [this, h4]
        rfl
  · exact ⟨[], by simp only [h1, bind, Except.bind]; exact .cacheNoValue as k hm h2⟩

theorem wrapExpr_good {e raw : Str} (hc : c.frames = f :: fs) (hi : Inv all c) : (c.wrapExpr e raw).2.frames = f :: fs ∧ Inv all (c.wrapExpr e raw).2 := by
  unfold CC.wrapExpr
  split
  · split
    · exact same_good hc hi rfl rfl rfl
    · exact ⟨hc, hi⟩
  · exact ⟨hc, hi⟩

theorem placeholder_good {e raw : Str} {fa : Option Str} {tok : Interval.Token} {s : Bool} (hm : Cmd.placeholder e raw fa tok s ∈ all)
    (hc : c.frames = f :: fs) (hi : Inv all c) : Good all (f :: fs) (c.placeholder cf e raw fa tok s) := by
  unfold CC.placeholder
  cases tok with
  | none =>
    obtain ⟨h1, h2⟩ := wrapExpr_good (e := e) (raw := raw) hc hi
    exact onTop_core h1 h2 fun m => placeLines_ok
  | static => exact region _
  | refresh i =>
    simp only [Interval.genCacheInfo]
    cases hg : Interval.genTimeInterval i with
    | error er =>
      simp only [Except.map]
      rcases interval_error hg with ⟨rfl, rfl⟩ | ⟨rfl, h1, h2⟩
      · exact .tokenEmpty e raw fa s hm
      · exact .tokenNumber e raw fa i s hm h2
    | ok x => exact region _
where
  region (interval : Option Rat) : Good all (f :: fs) (do
      let (id, c) := c.draw cf
      let c ← c.onTop (Meth.startCache cf id (cf.showInfo fun _ => none) none none interval)
      let (e, c) := c.wrapExpr e raw
      let c ← c.onTop (CC.placeLines cf e (fa.getD []) raw s)
      c.onTop (Meth.endCache cf)) := by
    simp only
    refine Good.bind (F := { f with cache := (c.draw cf).1 :: f.cache, lev := f.lev + 1 } :: fs) ?_ fun c1 hc1 hi1 => ?_
    · refine onTop_good (draw_good (cf := cf) hc hi).1 (draw_good (cf := cf) hc hi).2 fun m hm hf => .inl ?_
      obtain ⟨m', h3, h4⟩ := startCache_ok (cf := cf) (m := m) (id := (c.draw cf).1) (info := cf.showInfo fun _ => none) (varyBy := none) (test := none)
        (interval := interval)
      refine ⟨m', h3, ?_, ?_⟩
      · have : m'.frame = m'.core.frame := rfl
        rw [this, h4, ← hm]
        rfl
      · refine hf.same ?_
        have : m'.flags = m'.core.flags := rfl
        rw [this, h4]
        rfl
    · obtain ⟨h1, h2⟩ := wrapExpr_good (e := e) (raw := raw) hc1 hi1
      refine Good.bind (onTop_core h1 h2 fun m => placeLines_ok) fun c2 hc2 hi2 => ?_
      refine onTop_good hc2 hi2 fun m hm hf => .inl ?_
      obtain ⟨m', q1, q2, q3⟩ := endCache_ok (cf := cf) (m := m) (f := f) hm
      exact ⟨m', q1, q2, hf.same q3⟩

theorem mapUid_good {u : Nat} {g : Meth → Meth} (hg : ∀ m, (g m).core = m.core) (hc : c.frames = f :: fs) (hi : Inv all c) :
    (c.mapUid u g).frames = f :: fs ∧ ∀ m ∈ (c.mapUid u g).active, FlagsOk all m := by
  have key : ∀ m : Meth, (if m.uid = u then g m else m).core = m.core := by
    intro m
    split
    · exact hg m
    · rfl
  constructor
  · rw [← hc]
    unfold CC.frames CC.mapUid
    simp only [List.map_map]
    refine List.map_congr_left fun m _ => ?_
    exact (frame_core (key m)).1
  · intro m hm
    simp only [CC.mapUid, List.mem_map] at hm
    obtain ⟨m0, h1, rfl⟩ := hm
    exact (hi.flags m0 h1).same (frame_core (key m0)).2

theorem get_del_ne (d : Dict Str Nat) {k k' : Str} (h : k' ≠ k) : (Dict.del d k).get k' = d.get k' := by
  induction d with
  | nil => rfl
  | cons x d ih =>
    obtain ⟨j, w⟩ := x
    simp only [Dict.del]
    split
    · rename_i hj
      subst hj
      simp [Dict.get, h]
    · simp only [Dict.get, ih]

theorem setMainName_good {n : Str} (hc : c.frames = f :: fs) (hi : Inv all c) : Good all (f :: fs) (c.setMainName n) := by
  unfold CC.setMainName
  split
  · exact ⟨hc, hi⟩
  · rename_i hne
    cases hg : Dict.get c.index c.mainName with
    | none => have := hi.main; rw [hg] at this; cases this
    | some u =>
      simp only
      obtain ⟨h1, h2⟩ := mapUid_good (u := u) (g := fun m => { m with name := n }) (fun _ => rfl) hc hi
      refine ⟨h1, h2, ?_⟩
      show (Dict.get (Dict.del (Dict.set c.index n u) c.mainName) n).isSome
      rw [get_del_ne _ hne, Dict.get_set_self]
      rfl

theorem setMainArgs_good {as : List (Str × Option Str)} (hc : c.frames = f :: fs) (hi : Inv all c) : Good all (f :: fs) (c.setMainArgs as) := by
  unfold CC.setMainArgs
  cases hg : Dict.get c.index c.mainName with
  | none => have := hi.main; rw [hg] at this; cases this
  | some u =>
    simp only
    obtain ⟨h1, h2⟩ := mapUid_good (u := u) (g := fun m => { m with args := m.args ++ as }) (fun _ => rfl) hc hi
    exact ⟨h1, h2, hi.main⟩

theorem addReturn_good {e : Str} (hm : Cmd.simple c!"return" e ∈ all) (hc : c.frames = f :: fs) (hi : Inv all c) :
    Good all (f :: fs) (c.onTop (Meth.addReturn cf e)) := by
  refine onTop_good hc hi fun m hf hfl => ?_
  unfold Meth.addReturn
  split
  · rename_i hg
    obtain ⟨b, hb⟩ := hfl.2 hg
    exact .inr ⟨_, rfl, .returnYield e b hm hb⟩
  · obtain ⟨h1, h2⟩ := frame_core (core_chunk (cf := cf) (m := m) (t := e))
    refine .inl ⟨_, rfl, h1.trans hf, fun _ => ⟨e, hm⟩, ?_⟩
    exact (hfl.same h2).2

theorem addYield_good {e : Str} (hm : Cmd.simple c!"yield" e ∈ all) (hc : c.frames = f :: fs) (hi : Inv all c) :
    Good all (f :: fs) (c.onTop (Meth.addYield cf e)) := by
  refine onTop_good hc hi fun m hf hfl => ?_
  unfold Meth.addYield
  split
  · rename_i hg
    obtain ⟨b, hb⟩ := hfl.1 hg
    exact .inr ⟨_, rfl, .returnYield b e hb hm⟩
  · left
    have key : ∀ m' : Meth, m'.core = { m with generator := true }.core → m'.frame = f ∧ FlagsOk all m' := by
      intro m' h
      obtain ⟨h1, h2⟩ := frame_core h
      refine ⟨h1.trans hf, FlagsOk.same (m := { m with generator := true }) ⟨hfl.1, fun _ => ⟨e, hm⟩⟩ h2⟩
    simp only
    split
    · obtain ⟨m1, h1, k1⟩ := dedent_core (m := (({ m with generator := true }.chunk cf c!"if _dummyTrans:").indent.chunks' cf
        [c!"yield trans.response().getvalue()", c!"trans = DummyTransaction()", c!"write = trans.response().write"])) (c := { m with generator := true }.core)
        (by rw [core_chunks, core_indent, core_chunk])
      obtain ⟨m2, h2, k2⟩ := dedent_core
        (m := (m1.chunk cf c!"else:").indent.chunk cf c!"raise TypeError(\"This method cannot be called with a trans arg\")") (c := { m with generator := true }.core)
        (by rw [core_chunk, core_indent, core_chunk, k1])
      simp only [h1, bind, Except.bind]
      exact ⟨m2, h2, key m2 k2⟩
    · exact ⟨_, rfl, key _ core_chunk⟩

theorem reindenting_good {n e : Str} (hm : Cmd.reindenting n e true ∈ all) (hl : 1 ≤ f.lev) (hc : c.frames = f :: fs) (hi : Inv all c) :
    Good all (f :: fs) (CC.step cf (.reindenting n e true) c) := by
  have he : ∃ e', (if n = c!"else" ∨ n = c!"elif" then Meth.elseIf e.length e else e) = e' ∧ (e' = [] → e = []) := by
    refine ⟨_, rfl, ?_⟩
    split
    · exact elseIf_nil
    · exact id
  obtain ⟨e', he1, he2⟩ := he
  show Good all (f :: fs) (c.onTop (Meth.reindenting cf (if n = c!"else" ∨ n = c!"elif" then Meth.elseIf e.length e else e) true))
  rw [he1]
  refine onTop_good hc hi fun m hf hfl => ?_
  unfold Meth.reindenting
  obtain ⟨h1, h2⟩ := frame_core (core_commit (cf := cf) (m := m))
  obtain ⟨m1, h3, h4, h5⟩ := dedent_ok (m := m.commit cf) (f := { f with lev := f.lev - 1 }) (by
    rw [h1, hf]; unfold Frame.up; simp only; rw [Nat.sub_add_cancel hl])
  simp only [h3, bind, Except.bind, if_true]
  split
  · rename_i he
    refine .inr ⟨_, rfl, .elseEmpty n true ?_⟩
    rwa [he2 he] at hm
  · left
    refine ⟨_, rfl, ?_⟩
    generalize Meth.withColon _ = t
    obtain ⟨j1, j2⟩ := frame_core (core_chunk (cf := cf) (m := m1) (t := t))
    refine ⟨?_, (hfl.same h2).same (h5 ▸ j2)⟩
    rw [frame_indent, j1, h4]
    unfold Frame.up
    simp only
    rw [Nat.sub_add_cancel hl]

theorem callArg_good {n : Str} (hcl : f.calls ≠ []) (hc : c.frames = f :: fs) (hi : Inv all c) : Good all (f :: fs) (CC.step cf (.callArg n) c) := by
  refine onTop_good hc hi fun m hf hfl => .inl ?_
  have hcm : m.calls.map (fun c => (c.id, c.fn, c.args)) = f.calls := congrArg Frame.calls hf
  unfold Meth.callArg
  cases hm : m.calls with
  | nil => rw [hm] at hcm; exact absurd hcm.symm hcl
  | cons x xs =>
    simp only
    refine ⟨_, rfl, ?_⟩
    have key : ∀ m1 : Meth, m1.core = m.core → ({ m1 with calls := { x with current := some n } :: xs } : Meth).frame = f ∧
        FlagsOk all ({ m1 with calls := { x with current := some n } :: xs } : Meth) := by
      intro m1 k
      obtain ⟨k1, k2⟩ := frame_core k
      refine ⟨?_, hfl.same k2⟩
      show { m1.frame with calls := List.map (fun c : Call => (c.id, c.fn, c.args)) ({ x with current := some n } :: xs) } = f
      rw [k1, hf]
      have : List.map (fun c : Call => (c.id, c.fn, c.args)) ({ x with current := some n } :: xs) = f.calls := by rw [← hcm, hm]; rfl
      rw [this]
    apply key
    split <;> exact core_chunks

theorem psp_good {s : Str} (hm : Cmd.psp s ∈ all) (hp : PspPlain s) (hc : c.frames = f :: fs) (hi : Inv all c) :
    Good all (f :: fs) (CC.step cf (.psp s) c) := by
  refine onTop_good hc hi fun m hf hfl => ?_
  unfold Meth.psp
  have key : ∀ m' : Meth, m'.core = m.core → m'.frame = f ∧ FlagsOk all m' := fun m' k =>
    ⟨(frame_core k).1.trans hf, hfl.same (frame_core k).2⟩
  obtain ⟨h1, h2⟩ := hp
  simp only
  split
  · exact .inr ⟨_, rfl, .pspEmpty hm⟩
  · refine .inl ⟨_, rfl, key _ ?_⟩
    split
    · exact core_commit
    · rw [core_chunk, core_commit]
  · rename_i hne1 hne2
    rw [if_neg (show ¬ CC.lower s = c!"end" from h1)]
    have h3 := h2.resolve_left (by
      intro hh
      cases s with
      | nil => cases hh
      | cons a s => simp at hh; subst hh; exact hne2 s rfl)
    rw [if_neg h3.2, if_neg h3.1]
    exact .inl ⟨_, rfl, key _ (by rw [core_chunks, core_commit])⟩

theorem finish_ok {m : Meth} (h1 : m.cache = []) (h2 : m.calls = []) : m.finish cf = .ok ((m.commit cf).sealed cf) := by
  have k1 : (m.commit cf).cache = [] := by unfold Meth.commit; split <;> exact h1
  have k2 : (m.commit cf).calls = [] := by unfold Meth.commit; split <;> exact h2
  unfold Meth.finish
  simp only [k1, k2, if_true, bind, Except.bind]

/-- A command that opens and closes nothing keeps the frames. -/
theorem step_good {b : Bool} {k : Cmd} (hn : Neutral k) (hp : ∀ s, k = .psp s → PspPlain s) (hb : ∀ n, k = .callArg n → b = true)
    (hcl : b = true → f.calls ≠ []) (hl : 1 ≤ f.lev) (hm : k ∈ all) (hc : c.frames = f :: fs) (hi : Inv all c) : Good all (f :: fs) (CC.step cf k c) := by
  cases k with
  | strConst s => exact top_core hc hi fun m => core_text
  | raw s => exact top_core hc hi fun m => core_text
  | comment s =>
    show Good all _ (c.comment cf s)
    unfold CC.comment
    split
    · exact ⟨hc, hi⟩
    · exact top_core hc hi fun m => core_commit
  | handleWS => exact top_core hc hi fun m => core_handleWS
  | commit => exact top_core hc hi fun m => core_commit
  | placeholder e raw fa tok s => exact placeholder_good hm hc hi
  | psp s => exact psp_good hm (hp s rfl) hc hi
  | indenting n e => exact absurd (.indenting n e) (hn.1 _)
  | reindenting n e d =>
    cases d with
    | false => exact absurd (.reindenting n e) (hn.1 _)
    | true => exact reindenting_good hm hl hc hi
  | ternary a b e => exact onTop_core hc hi fun m => ternary_ok
  | dedent => exact absurd (.indenting [] []) (hn.2 _)
  | simple n e =>
    show Good all _ (c.simple cf n e)
    unfold CC.simple
    split
    · exact top_core hc hi fun m => core_filtered
    split
    · exact top_core hc hi fun m => core_chunk
    split
    · rename_i h; subst h; exact addReturn_good hm hc hi
    split
    · rename_i h; subst h; exact addYield_good hm hc hi
    split
    · rename_i h; exact import_good h hm hc hi
    · exact top_core hc hi fun m => core_chunk
  | set l op r style =>
    show Good all _ (match SetDirective.addSet l op r _ with | .inMethod t => _ | .inModule t => _)
    split
    · exact top_core hc hi fun m => core_chunk
    · exact same_good hc hi rfl rfl rfl
  | include_ e a b => exact top_core hc hi fun m => core_chunk
  | startCall f a => exact absurd (.call f a) (hn.1 _)
  | endCall => exact absurd (.call [] []) (hn.2 _)
  | callArg n => exact callArg_good (hcl (hb n rfl)) hc hi
  | startCapture e => exact absurd (.capture e) (hn.1 _)
  | endCapture => exact absurd (.capture []) (hn.2 _)
  | startCache as => exact absurd (.cache as) (hn.1 _)
  | endCache => exact absurd (.cache []) (hn.2 _)
  | setFilter g k => exact absurd (.filter g k) (hn.1 _)
  | closeFilter => exact absurd (.filter [] true) (hn.2 _)
  | setTransform g k => exact top_core hc hi fun m => core_chunks
  | errorCatcher n =>
    refine onTop_good hc hi fun m hf hfl => .inl ?_
    obtain ⟨m', h1, h2⟩ := setCatcher_ok (cf := cf) (m := m) (n := n)
    obtain ⟨h3, h4⟩ := frame_core (m := { m with catching := true }) (m' := m') h2
    exact ⟨m', h1, h3.trans hf, hfl.same h4⟩
  | errorCatcherOff => exact onTop_good hc hi fun m hf hfl => .inl ⟨_, rfl, hf, hfl⟩
  | startMethod n as => exact absurd (.def_ n as) (hn.1 _)
  | addClosure n as => exact absurd (.closure n as) (hn.1 _)
  | closeDef => exact absurd (.def_ [] []) (hn.2 _)
  | closeBlock => exact absurd (.block [] []) (hn.2 _)
  | attr n e =>
    show Good all _ (if _ then _ else _)
    split
    · rename_i h
      rw [Bool.or_eq_true, containsStr_iff, containsStr_iff] at h
      refine .attr n e hm ?_
      rcases h with ⟨u, v, h⟩ | ⟨u, v, h⟩
      · exact ⟨u, v, .inl h⟩
      · exact ⟨u, v, .inr h⟩
    · exact same_good hc hi rfl rfl rfl
  | decorator e => exact same_good hc hi rfl rfl rfl
  | extends_ e =>
    refine Good.bind (setMainName_good hc hi) fun c1 hc1 hi1 => ?_
    exact setBase_good hm hc1 hi1
  | implements_ n as => exact Good.bind (setMainName_good hc hi) fun c1 hc1 hi1 => setMainArgs_good hc1 hi1
  | super as =>
    show Good all _ (match c.active with | [] => _ | m :: _ => _)
    cases ha : c.active with
    | nil => unfold CC.frames at hc; rw [ha] at hc; cases hc
    | cons m ms => exact top_core hc hi fun m => core_filtered
  | shBang s => exact same_good hc hi rfl rfl rfl
  | encoding s => exact same_good hc hi rfl rfl rfl

/-- What a method that was opened and closed inside a block keeps. -/
theorem closeDef_good {g : Frame} (h1 : g.cache = []) (h2 : g.calls = []) (hc : c.frames = g :: f :: fs) (hi : Inv all c) :
    Good all (f :: fs) (c.closeDef cf) := by
  unfold CC.frames at hc
  unfold CC.closeDef
  cases ha : c.active with
  | nil => rw [ha] at hc; cases hc
  | cons m ms =>
    rw [ha, List.map_cons] at hc
    injection hc with h3 h4
    have k1 : m.cache = [] := (congrArg Frame.cache h3).trans h1
    have k2 : m.calls = [] := List.map_eq_nil_iff.1 ((congrArg Frame.calls h3).trans h2)
    simp only [CC.swallow, finish_ok (cf := cf) k1 k2, bind, Except.bind]
    exact ⟨h4, fun x hx => hi.flags x (by rw [ha]; exact List.mem_cons_of_mem _ hx), hi.main⟩

theorem closeBlock_good {g : Frame} (h1 : g.cache = []) (h2 : g.calls = []) (hc : c.frames = g :: f :: fs) (hi : Inv all c) :
    Good all (f :: fs) (c.closeBlock cf) := by
  unfold CC.frames at hc
  unfold CC.closeBlock
  cases ha : c.active with
  | nil => rw [ha] at hc; cases hc
  | cons m ms =>
    rw [ha, List.map_cons] at hc
    injection hc with h3 h4
    have k1 : m.cache = [] := (congrArg Frame.cache h3).trans h1
    have k2 : m.calls = [] := List.map_eq_nil_iff.1 ((congrArg Frame.calls h3).trans h2)
    have key : ∀ m' : Meth, m'.cache = [] → m'.calls = [] → ∀ t, Good all (f :: fs) (CC.swallow cf m' { c with active := ms } >>= fun c => c.top (Meth.chunk cf t)) := by
      intro m' k1 k2 t
      simp only [CC.swallow, finish_ok (cf := cf) k1 k2, bind, Except.bind]
      refine top_core (f := f) (fs := fs) h4 ⟨fun x hx => hi.flags x (by rw [ha]; exact List.mem_cons_of_mem _ hx), hi.main⟩ fun m => core_chunk
    simp only
    refine key _ ?_ ?_ _
    · split
      · show (m.commit cf).cache = []
        unfold Meth.commit; split <;> exact k1
      · unfold Meth.commit; split <;> exact k1
    · split
      · show (m.commit cf).calls = []
        unfold Meth.commit; split <;> exact k2
      · unfold Meth.commit; split <;> exact k2

theorem indenting_good {k : Meth → Meth} (hk : ∀ m, (k m).frame = m.frame.up ∧ (k m).flags = m.flags) (hc : c.frames = f :: fs) (hi : Inv all c) :
    Good all (f.up :: fs) (c.top k) :=
  onTop_good hc hi fun m hf hfl => .inl ⟨_, rfl, by rw [(hk m).1, hf], hfl.same (hk m).2⟩

theorem frame_indenting {m : Meth} {e : Str} : (m.indenting cf e).frame = m.frame.up ∧ (m.indenting cf e).flags = m.flags := by
  obtain ⟨h1, h2⟩ := frame_core (m := m.indent) (m' := m.indenting cf e) (by rw [core_indenting]; rfl)
  exact ⟨h1, h2⟩

theorem dedent_good (hc : c.frames = f.up :: fs) (hi : Inv all c) : Good all (f :: fs) (CC.step cf .dedent c) := by
  refine onTop_good hc hi fun m hf hfl => .inl ?_
  obtain ⟨m', h1, h2, h3⟩ := dedent_ok hf
  exact ⟨m', h1, h2, hfl.same h3⟩

/-- What a command opens, the matching command closes. -/
theorem block_good {b : Bool} {o k : Cmd} (ho : Closes o k) (hlev : 1 ≤ cf.initLev) (hl : 1 ≤ f.lev) (hcl : b = true → f.calls ≠ []) (hm : o ∈ all)
    (hc : c.frames = f :: fs) (hi : Inv all c) :
    ∃ g gs, Good all (g :: gs) (CC.step cf o c) ∧ 1 ≤ g.lev ∧ (InCall b o = true → g.calls ≠ []) ∧
      ∀ c', c'.frames = g :: gs → Inv all c' → Good all (f :: fs) (CC.step cf k c') := by
  have hup : 1 ≤ f.up.lev := Nat.le_trans hl (Nat.le_succ _)
  cases ho with
  | indenting n e =>
    refine ⟨f.up, fs, ?_, hup, hcl, fun c' h1 h2 => dedent_good h1 h2⟩
    refine indenting_good (k := fun m => { m with repeats := (Meth.header n e m.repeats).2 }.indenting cf (Meth.header n e m.repeats).1) (fun m => ?_) hc hi
    exact frame_indenting (m := { m with repeats := (Meth.header n e m.repeats).2 })
  | reindenting n e =>
    refine ⟨f.up, fs, ?_, hup, hcl, fun c' h1 h2 => dedent_good h1 h2⟩
    have he : ∃ e', (if n = c!"else" ∨ n = c!"elif" then Meth.elseIf e.length e else e) = e' ∧ (e' = [] → e = []) := by
      refine ⟨_, rfl, ?_⟩
      split
      · exact elseIf_nil
      · exact id
    obtain ⟨e', he1, he2⟩ := he
    show Good all (f.up :: fs) (c.onTop (Meth.reindenting cf (if n = c!"else" ∨ n = c!"elif" then Meth.elseIf e.length e else e) false))
    rw [he1]
    refine onTop_good hc hi fun m hf hfl => ?_
    unfold Meth.reindenting
    simp only [bind, Except.bind, Bool.false_eq_true, if_false]
    split
    · rename_i he
      refine .inr ⟨_, rfl, .elseEmpty n false ?_⟩
      rwa [he2 he] at hm
    · refine .inl ⟨_, rfl, ?_⟩
      obtain ⟨j1, j2⟩ := frame_core (m := m) (m' := (m.commit cf).chunk cf (Meth.withColon e')) (by rw [core_chunk, core_commit])
      exact ⟨by rw [frame_indent, j1, hf], hfl.same j2⟩
  | closure n as =>
    exact ⟨f.up, fs, indenting_good (fun m => frame_indenting) hc hi, hup, hcl, fun c' h1 h2 => dedent_good h1 h2⟩
  | def_ n as =>
    refine ⟨⟨c.next, cf.initLev, [], [], [], []⟩, f :: fs, ⟨?_, ?_, ?_⟩, hlev, nofun, fun c' h1 h2 => closeDef_good rfl rfl h1 h2⟩
    · show Meth.frame _ :: c.active.map Meth.frame = _
      rw [← hc]; rfl
    · intro m hx
      rcases List.mem_cons.1 hx with rfl | hx
      · exact ⟨nofun, nofun⟩
      · exact hi.flags m hx
    · show (Dict.get (Dict.set c.index n c.next) c.mainName).isSome
      rw [Dict.get_set]
      split
      · rfl
      · exact hi.main
  | block n as =>
    refine ⟨⟨c.next, cf.initLev, [], [], [], []⟩, f :: fs, ⟨?_, ?_, ?_⟩, hlev, nofun, fun c' h1 h2 => closeBlock_good rfl rfl h1 h2⟩
    · show Meth.frame _ :: c.active.map Meth.frame = _
      rw [← hc]; rfl
    · intro m hx
      rcases List.mem_cons.1 hx with rfl | hx
      · exact ⟨nofun, nofun⟩
      · exact hi.flags m hx
    · show (Dict.get (Dict.set c.index n c.next) c.mainName).isSome
      rw [Dict.get_set]
      split
      · rfl
      · exact hi.main
  | call fn as =>
    refine ⟨{ f with calls := ((c.draw cf).1, fn, as) :: f.calls }, fs, ?_, hl, fun _ => by simp, fun c' h1 h2 => ?_⟩
    · refine onTop_good (draw_good (cf := cf) hc hi).1 (draw_good (cf := cf) hc hi).2 fun m hf hfl => .inl ⟨_, rfl, ?_⟩
      obtain ⟨j1, j2⟩ := frame_core (m := { m with calls := { id := (c.draw cf).1, fn := fn, args := as } :: m.calls })
        (core_chunks (cf := cf) (ts := Meth.startLines c!"call" (c.draw cf).1))
      refine ⟨j1.trans ?_, hfl.same j2⟩
      rw [← hf]; rfl
    · refine onTop_good h1 h2 fun m hf hfl => .inl ?_
      obtain ⟨m', q1, q2, q3⟩ := endCall_ok (cf := cf) (m := m) (f := f) hf
      exact ⟨m', q1, q2, hfl.same q3⟩
  | capture e =>
    refine ⟨{ f with captures := ((c.draw cf).1, e) :: f.captures }, fs, ?_, hl, hcl, fun c' h1 h2 => ?_⟩
    · refine onTop_good (draw_good (cf := cf) hc hi).1 (draw_good (cf := cf) hc hi).2 fun m hf hfl => .inl ⟨_, rfl, ?_⟩
      obtain ⟨j1, j2⟩ := frame_core (m := { m with captures := ((c.draw cf).1, e) :: m.captures })
        (core_chunks (cf := cf) (ts := Meth.startLines c!"capture" (c.draw cf).1))
      refine ⟨j1.trans ?_, hfl.same j2⟩
      rw [← hf]; rfl
    · refine onTop_good h1 h2 fun m hf hfl => .inl ?_
      obtain ⟨m', q1, q2, q3⟩ := endCapture_ok (cf := cf) (m := m) (f := f) hf
      exact ⟨m', q1, q2, hfl.same q3⟩
  | cache as =>
    obtain ⟨id, h⟩ := startCache_good (cf := cf) hm hc hi
    refine ⟨_, _, h, hup, hcl, fun c' h1 h2 => ?_⟩
    refine onTop_good h1 h2 fun m hf hfl => .inl ?_
    obtain ⟨m', q1, q2, q3⟩ := endCache_ok (cf := cf) (m := m) (f := f) hf
    exact ⟨m', q1, q2, hfl.same q3⟩
  | filter g kl =>
    refine ⟨{ f with filters := (c.draw cf).1 :: f.filters }, fs, ?_, hl, hcl, fun c' h1 h2 => ?_⟩
    · refine onTop_good (draw_good (cf := cf) hc hi).1 (draw_good (cf := cf) hc hi).2 fun m hf hfl => .inl ?_
      obtain ⟨m', q1, q2⟩ := setFilter_ok (cf := cf) (m := m) (id := (c.draw cf).1) (f := g) (k := kl) (lo := CC.lower)
      obtain ⟨j1, j2⟩ := frame_core (m := { m with filters := (c.draw cf).1 :: m.filters }) (m' := m') q2
      refine ⟨m', q1, j1.trans ?_, hfl.same j2⟩
      rw [← hf]; rfl
    · refine onTop_good h1 h2 fun m hf hfl => .inl ?_
      obtain ⟨m', q1, q2, q3⟩ := closeFilter_ok (cf := cf) (m := m) (f := f) hf
      exact ⟨m', q1, q2, hfl.same q3⟩

theorem pspOpen_good {s : Str} (hp : PspOpen s) (hc : c.frames = f :: fs) (hi : Inv all c) : Good all (f.up :: fs) (CC.step cf (.psp s) c) := by
  refine onTop_good hc hi fun m hf hfl => ?_
  unfold Meth.psp
  obtain ⟨h1, h2, h3⟩ := hp
  have key : ∀ m' : Meth, m'.core = m.core → m'.indent.frame = f.up ∧ FlagsOk all m'.indent := fun m' k =>
    ⟨by rw [frame_indent, (frame_core k).1, hf], hfl.same (frame_core k).2⟩
  simp only
  split
  · simp at h3
  · simp at h2
  · rw [if_neg (show ¬ CC.lower s = c!"end" from h1)]
    by_cases hd : s.getLast? = some '$'
    · rw [if_pos hd]
      exact .inl ⟨_, rfl, key _ (by rw [core_chunks, core_commit])⟩
    · rw [if_neg hd, if_pos (h3.resolve_right hd)]
      exact .inl ⟨_, rfl, key _ (by rw [core_chunks, core_commit])⟩

theorem pspEnd_good {s : Str} (hp : PspEnd s) (hc : c.frames = f.up :: fs) (hi : Inv all c) : Good all (f :: fs) (CC.step cf (.psp s) c) := by
  refine onTop_good hc hi fun m hf hfl => .inl ?_
  unfold Meth.psp
  simp only
  split
  · exact absurd hp (by simp [PspEnd])
  · rename_i r
    unfold PspEnd at hp
    simp only [List.map_cons, List.cons.injEq] at hp
    exact absurd hp.1 (by decide)
  · rw [if_pos (show CC.lower s = c!"end" from hp)]
    obtain ⟨k1, k2⟩ := frame_core (core_commit (cf := cf) (m := m))
    obtain ⟨m', q1, q2, q3⟩ := dedent_ok (m := m.commit cf) (f := f) (by rw [k1, hf])
    exact ⟨m', q1, q2, hfl.same (q3.trans k2)⟩

theorem steps_append (a b : List Cmd) (c : CC) : CC.steps cf (a ++ b) c = CC.steps cf a c >>= CC.steps cf b := by
  induction a generalizing c with
  | nil => rfl
  | cons k a ih =>
    simp only [List.cons_append, CC.steps, bind, Except.bind]
    cases CC.step cf k c with
    | error e => rfl
    | ok c' => exact ih c'

theorem steps_good {b : Bool} {cs : List Cmd} (hp : Placed b cs) (hlev : 1 ≤ cf.initLev) :
    ∀ {c : CC} {f : Frame} {fs : List Frame}, 1 ≤ f.lev → (b = true → f.calls ≠ []) → (∀ k ∈ cs, k ∈ all) → c.frames = f :: fs → Inv all c →
      Good all (f :: fs) (CC.steps cf cs c) := by
  induction hp with
  | nil b => intro c f fs _ _ _ hc hi; exact ⟨hc, hi⟩
  | plain b k cs hn hp hb _ ih =>
    intro c f fs hl hcl hm hc hi
    refine Good.bind (step_good hn hp hb hcl hl (hm k (by simp)) hc hi) fun c1 hc1 hi1 => ?_
    exact ih hl hcl (fun x hx => hm x (List.mem_cons_of_mem _ hx)) hc1 hi1
  | block b o k body rest ho _ _ ih1 ih2 =>
    intro c f fs hl hcl hm hc hi
    obtain ⟨g, gs, h1, h2, h3, h4⟩ := block_good ho hlev hl hcl (hm o (by simp)) hc hi
    rw [List.cons_append]
    refine Good.bind h1 fun c1 hc1 hi1 => ?_
    rw [steps_append]
    refine Good.bind (ih1 h2 h3 (fun x hx => hm x (by simp [hx])) hc1 hi1) fun c2 hc2 hi2 => ?_
    refine Good.bind (h4 c2 hc2 hi2) fun c3 hc3 hi3 => ?_
    exact ih2 hl hcl (fun x hx => hm x (by simp [hx])) hc3 hi3
  | psp b o k body rest h1 h2 _ _ ih1 ih2 =>
    intro c f fs hl hcl hm hc hi
    rw [List.cons_append]
    refine Good.bind (pspOpen_good h1 hc hi) fun c1 hc1 hi1 => ?_
    rw [steps_append]
    refine Good.bind (ih1 (f := f.up) (Nat.le_trans hl (Nat.le_succ _)) hcl (fun x hx => hm x (by simp [hx])) hc1 hi1) fun c2 hc2 hi2 => ?_
    refine Good.bind (pspEnd_good h2 hc2 hi2) fun c3 hc3 hi3 => ?_
    exact ih2 hl hcl (fun x hx => hm x (by simp [hx])) hc3 hi3

end

theorem Placed.of_nested {cs : List Cmd} (h : Nested cs) (hp : ∀ s, Cmd.psp s ∈ cs → PspPlain s) (ha : ∀ n, Cmd.callArg n ∉ cs) (b : Bool) : Placed b cs := by
  induction h generalizing b with
  | nil => exact .nil b
  | plain c cs hn _ ih =>
    refine .plain b c cs hn (fun s hs => hp s (by simp [hs])) (fun n hc => absurd (show Cmd.callArg n ∈ c :: cs by simp [hc]) (ha n)) ?_
    exact ih (fun s hs => hp s (List.mem_cons_of_mem _ hs)) (fun n hn => ha n (List.mem_cons_of_mem _ hn)) b
  | block o c body rest ho _ _ ih1 ih2 =>
    refine .block b o c body rest ho ?_ ?_
    · exact ih1 (fun s hs => hp s (by simp [hs])) (fun n hn => ha n (by simp [hn])) _
    · exact ih2 (fun s hs => hp s (by simp [hs])) (fun n hn => ha n (by simp [hn])) b

/-! ### C69 -/

/-- C69: properly nested commands compile, whatever their contents, or there is something wrong with the contents of one of them. In
particular there is never an error of indentation, and no region or method is ended that is not open. -/
theorem C69_nested_compiles (cf : Cf) (hl : 1 ≤ cf.initLev) (cmds : List Cmd) (hp : Placed false cmds) :
    match CC.compile cf cmds with
    | .ok c => c.active = []
    | .error e => Excuse cmds e := by
  have hi : Inv cmds (CC.start cf) := by
    refine ⟨?_, ?_⟩
    · intro m hm
      simp only [CC.start, CC.spawn, List.mem_cons, List.not_mem_nil, or_false] at hm
      subst hm
      exact ⟨nofun, nofun⟩
    · show (Dict.get (Dict.set [] cf.mainName 0) cf.mainName).isSome
      rw [Dict.get_set_self]; rfl
  have h := steps_good (cf := cf) (all := cmds) hp hl (c := CC.start cf) (f := ⟨0, cf.initLev, [], [], [], []⟩) (fs := []) hl nofun (fun _ h => h) rfl hi
  unfold CC.compile
  cases hs : CC.steps cf cmds (CC.start cf) with
  | error e => rw [hs] at h; exact h
  | ok c =>
    rw [hs] at h
    obtain ⟨h1, _⟩ := h
    unfold CC.frames at h1
    simp only [bind, Except.bind]
    cases ha : c.active with
    | nil => rw [ha] at h1; cases h1
    | cons m ms =>
      rw [ha, List.map_cons] at h1
      injection h1 with h2 h3
      have h4 : ms = [] := List.map_eq_nil_iff.1 h3
      subst h4
      have k1 : m.cache = [] := congrArg Frame.cache h2
      have k2 : m.calls = [] := List.map_eq_nil_iff.1 (congrArg Frame.calls h2)
      simp only [CC.finishAll, CC.swallow, finish_ok (cf := cf) k1 k2, bind, Except.bind]

/-- C69 for accepted sources: the compiler does not fail on what the parser made of a template, except for the contents of a directive, if
no block directive or `#end` comes after a colon on its line, no simple directive's expression starts with the name of a block directive
(as in C35), and the source has no PSP blocks and no `#arg`. -/
theorem C69_accepted_compiles_partial (h : Parser.Env) (hs : Parser.Sane h) (hd : h.cfg.dir.head? ≠ some '\r' ∧ h.cfg.dir.head? ≠ some '\n')
    (hno : Parser.NoBlockAfterColon h) (st : GenVar.Settings) (cmds : List Cmd) (hp : h.parse st = .ok cmds) (hw : Parser.NoBlockWords cmds)
    (hpsp : ∀ s, Cmd.psp s ∈ cmds → PspPlain s) (harg : ∀ n, Cmd.callArg n ∉ cmds) (cf : Cf) (hl : 1 ≤ cf.initLev) :
    match CC.compile cf cmds with
    | .ok c => c.active = []
    | .error e => Excuse cmds e :=
  C69_nested_compiles cf hl cmds (.of_nested (Parser.C35_accepted_is_nested_partial h hs hd hno st cmds hp hw) hpsp harg false)

/-- Settings for examples. -/
def demoCf : Cf := { printable := fun c => decide (32 ≤ c.toNat ∧ c.toNat < 127), ids := fun n => decimal n, showNum := fun _ => [], showInfo := fun _ => [] }

/-- The result of compiling a source, as far as failures go. -/
def failure (src : Str) : Option Fail :=
  match (Parser.demoEnv src).parse Parser.demoSt with
  | .error _ => none
  | .ok cmds =>
    match CC.compile demoCf cmds with
    | .error e => some e
    | .ok _ => none

-- `#call` with arguments, a PSP block, a method inside a block: all compile.
example : ∃ cmds, (Parser.demoEnv c!"#call f\n#arg x\n1\n#end call\n<% for i in y: %>a<% end %>").parse Parser.demoSt = .ok cmds ∧
    (CC.compile demoCf cmds).isOk = true := by
  refine ⟨[.handleWS, .startCall c!"f" [], .callArg c!"x", .handleWS, .strConst c!"1\n", .handleWS, .endCall, .psp c!"for i in y:", .strConst c!"a", .psp c!"end"],
    by decide +kernel, by decide +kernel⟩
example : Placed false [.handleWS, .startCall c!"f" [], .callArg c!"x", .strConst c!"1\n", .endCall, .psp c!"for i in y:", .strConst c!"a", .psp c!"end"] := by
  have n1 : Neutral .handleWS := ⟨nofun, nofun⟩
  have n2 : ∀ n, Neutral (.callArg n) := fun _ => ⟨nofun, nofun⟩
  have n3 : ∀ n, Neutral (.strConst n) := fun _ => ⟨nofun, nofun⟩
  refine .plain _ _ _ n1 nofun nofun ?_
  refine .block _ _ _ [.callArg c!"x", .strConst c!"1\n"] [.psp c!"for i in y:", .strConst c!"a", .psp c!"end"] (.call _ _) ?_ ?_
  · exact .plain _ _ _ (n2 _) nofun (fun _ _ => rfl) (.plain _ _ _ (n3 _) nofun nofun (.nil _))
  · refine .psp _ _ _ [.strConst c!"a"] [] ?_ ?_ (.plain _ _ _ (n3 _) nofun nofun (.nil _)) (.nil _)
    · exact ⟨by unfold PspEnd; decide, by decide, by decide⟩
    · unfold PspEnd; decide

/-- **C69 fails for `#arg` outside `#call`.** The parser accepts it; the compiler raises IndexError. -/
theorem C69_arg_counterexample : failure c!"#arg x\n" = some .index := by decide +kernel

/-- **C69 fails for stray PSP ends.** Two are accepted silently (the level goes down to zero), the third is an internal error. -/
theorem C69_psp_counterexample : failure c!"<%end%><%end%>" = none ∧ failure c!"<%end%><%end%><%end%>" = some .dedent ∧ failure c!"<%%>" = some .index := by
  decide +kernel

/-- **C69 fails for a simple directive with a block's name** (C35): the level goes below zero. -/
theorem C69_word_counterexample : failure c!"#silent if\n#end if\n#silent if\n#end if\n#silent if\n#end if\n" = some .dedent := by decide +kernel

-- The excuses are met: contents of directives that make compiling fail.
example : failure c!"#cache timer='abc'\n#end cache\n" = some .value := by decide +kernel
example : failure c!"#cache x\n#end cache\n" = some .type := by decide +kernel
example : failure c!"$*1.2.3*x" = some .value := by decide +kernel
example : failure c!"#return 1\n#yield\n" = some .assertion := by decide +kernel
example : failure c!"#import\n" = some .index := by decide +kernel
example : failure c!"#attr $a = VFN(b)\n" = some .attr := by decide +kernel

end Cheetah.Driver
