import Verif.Indenter
/-
C44: indentation levels.  C61: the `#indent` preprocessor.
-/
namespace Cheetah.Indent

/-! ### Specification -/

/-- Histories in which every `push` has its `pop`, whichever template makes the calls. -/
inductive Balanced : List (Nat × Op) → Prop
  | nil : Balanced []
  | other {i : Nat} {op : Op} {h : List (Nat × Op)} : op ≠ .push → op ≠ .pop → Balanced h → Balanced ((i, op) :: h)
  | pair {i j : Nat} {b h : List (Nat × Op)} : Balanced b → Balanced h →
      Balanced ((i, .push) :: (b ++ (j, .pop) :: h))

/-- A template that has the process to itself: its attributes and its own stack. -/
structure Alone where
  on : Bool := true
  level : Int := 0
  chars : Str := c!"    "
  saved : List Int := []
  deriving DecidableEq, Repr

/-- What the documentation says each call does. -/
def Alone.does (a : Alone) : Op → Alone
  | .on => { a with on := true }
  | .off => { a with on := false }
  | .inc => { a with level := a.level + 1 }
  | .dec => { a with level := max 0 (a.level - 1) }
  | .push => { a with saved := a.level :: a.saved }
  | .pop => { a with level := a.saved.headD 0, saved := a.saved.tail }
  | .setLevel n => { a with level := max 0 n }
  | .setChar s => { a with chars := s }

/-- The calls `own` of template `i`, with other templates rendered in between, each
leaving as many levels behind as it found. -/
inductive Nested (i : Nat) : List (Nat × Op) → List Op → Prop
  | nil : Nested i [] []
  | own {op : Op} {h : List (Nat × Op)} {own : List Op} : Nested i h own → Nested i ((i, op) :: h) (op :: own)
  | foreign {b h : List (Nat × Op)} {own : List Op} : Balanced b → (∀ x ∈ b, x.1 ≠ i) → Nested i h own →
      Nested i (b ++ h) own

/-! ### Lemmas -/

theorem run_append (w : World) (a b : List (Nat × Op)) : w.run (a ++ b) = (w.run a).run b := by
  induction a generalizing w with
  | nil => rfl
  | cons x a ih => exact ih _

theorem put_self (w : World) (i : Nat) (o : Obj) : (w.put i o).objs i = o := by simp [World.put]
theorem put_ne (w : World) {i j : Nat} (o : Obj) (h : j ≠ i) : (w.put i o).objs j = w.objs j := by
  simp [World.put, h]

theorem step_other (w : World) {i j : Nat} (op : Op) (h : j ≠ i) : (w.step i op).objs j = w.objs j := by
  cases op <;> simp only [World.step] <;> (try split) <;> (try simp [World.put, h])

theorem run_other {j : Nat} : ∀ (b : List (Nat × Op)) (w : World), (∀ x ∈ b, x.1 ≠ j) →
    (w.run b).objs j = w.objs j
  | [], _, _ => rfl
  | (i, op) :: b, w, h => by
    have h1 : j ≠ i := fun e => h (i, op) (by simp) e.symm
    rw [World.run, run_other b _ (fun x hx => h x (by simp [hx])), step_other w op h1]

theorem step_stack (w : World) (i : Nat) {op : Op} (h1 : op ≠ .push) (h2 : op ≠ .pop) :
    (w.step i op).stack = w.stack := by
  cases op <;> simp only [World.step] <;> (try split) <;> (try rfl) <;> simp_all

theorem pop_cons {w : World} {l : Int} {rest : List Int} (i : Nat) (h : w.stack = l :: rest) :
    w.step i .pop = { w.put i { w.objs i with level := l } with stack := rest } := by
  simp only [World.step, h]

theorem pop_nil {w : World} (i : Nat) (h : w.stack = []) :
    w.step i .pop = w.put i { w.objs i with level := 0 } := by
  simp only [World.step, h]

theorem balanced_stack {b : List (Nat × Op)} (hb : Balanced b) : ∀ w : World, (w.run b).stack = w.stack := by
  induction hb with
  | nil => intro w; rfl
  | other h1 h2 _ ih => intro w; rw [World.run, ih, step_stack w _ h1 h2]
  | @pair i j b h _ _ ihb ihh =>
    intro w
    rw [World.run, run_append, World.run, ihh]
    have hs := ihb (w.step i .push)
    have h0 : (w.step i .push).stack = (w.objs i).level :: w.stack := rfl
    rw [h0] at hs
    rw [pop_cons j hs]

/-- Levels and saved levels are not negative. -/
theorem nonneg_step {w : World} (ho : ∀ i, 0 ≤ (w.objs i).level) (hs : ∀ l ∈ w.stack, 0 ≤ l) (i : Nat) (op : Op) :
    (∀ j, 0 ≤ ((w.step i op).objs j).level) ∧ ∀ l ∈ (w.step i op).stack, 0 ≤ l := by
  have hi := ho i
  have put : ∀ o : Obj, 0 ≤ o.level → ∀ j, 0 ≤ ((w.put i o).objs j).level := by
    intro o h j
    by_cases hj : j = i
    · subst hj; rw [put_self]; exact h
    · rw [put_ne w o hj]; exact ho j
  cases op with
  | on => exact ⟨put _ hi, hs⟩
  | off => exact ⟨put _ hi, hs⟩
  | inc => exact ⟨put _ (by show 0 ≤ (w.objs i).level + 1; omega), hs⟩
  | dec =>
    simp only [World.step]
    split
    · exact ⟨put _ (by show 0 ≤ (w.objs i).level - 1; omega), hs⟩
    · exact ⟨ho, hs⟩
  | push =>
    refine ⟨ho, fun l hl => ?_⟩
    rcases List.mem_cons.mp hl with h | h
    · rw [h]; exact hi
    · exact hs l h
  | pop =>
    cases hw : w.stack with
    | nil => rw [pop_nil i hw]; exact ⟨put _ (Int.le_refl 0), hs⟩
    | cons l rest =>
      rw [pop_cons i hw]
      exact ⟨put _ (hs l (by simp [hw])), fun x hx => hs x (by rw [hw]; exact List.mem_cons_of_mem _ hx)⟩
  | setLevel n =>
    simp only [World.step]
    split
    · exact ⟨put _ (Int.le_refl 0), hs⟩
    · exact ⟨put _ (by show 0 ≤ n; omega), hs⟩
  | setChar _ => exact ⟨put _ hi, hs⟩

/-- A template's own call keeps it in step with itself alone. -/
theorem step_alone {w : World} {i : Nat} {a : Alone} (h1 : (w.objs i).level = a.level) (h2 : (w.objs i).on = a.on)
    (h3 : (w.objs i).chars = a.chars) (h4 : w.stack = a.saved) (h5 : 0 ≤ a.level) (op : Op) :
    ((w.step i op).objs i).level = (a.does op).level ∧ ((w.step i op).objs i).on = (a.does op).on ∧
    ((w.step i op).objs i).chars = (a.does op).chars ∧ (w.step i op).stack = (a.does op).saved := by
  cases op with
  | on => simp only [World.step, put_self]; exact ⟨h1, rfl, h3, h4⟩
  | off => simp only [World.step, put_self]; exact ⟨h1, rfl, h3, h4⟩
  | inc => simp only [World.step, put_self]; exact ⟨by rw [h1]; rfl, h2, h3, h4⟩
  | dec =>
    simp only [World.step]
    split
    · rw [put_self]; exact ⟨by simp only [Alone.does]; omega, h2, h3, h4⟩
    · exact ⟨by simp only [Alone.does]; omega, h2, h3, h4⟩
  | push => exact ⟨h1, h2, h3, by show _ :: _ = _ :: _; rw [h1, h4]⟩
  | pop =>
    cases hw : w.stack with
    | nil => rw [pop_nil i hw, put_self]; rw [hw] at h4; simp only [Alone.does, ← h4]; exact ⟨rfl, h2, h3, hw⟩
    | cons l rest =>
      rw [pop_cons i hw]; rw [hw] at h4
      simp only [put_self, Alone.does, ← h4]; exact ⟨rfl, h2, h3, rfl⟩
  | setLevel n =>
    simp only [World.step]
    split
    · rw [put_self]; exact ⟨by simp only [Alone.does]; omega, h2, h3, h4⟩
    · rw [put_self]; exact ⟨by simp only [Alone.does]; omega, h2, h3, h4⟩
  | setChar _ => simp only [World.step, put_self]; exact ⟨h1, h2, rfl, h4⟩

theorem does_nonneg {a : Alone} (h1 : 0 ≤ a.level) (h2 : ∀ l ∈ a.saved, 0 ≤ l) (op : Op) :
    0 ≤ (a.does op).level ∧ ∀ l ∈ (a.does op).saved, 0 ≤ l := by
  cases op with
  | push =>
    refine ⟨h1, fun l hl => ?_⟩
    rcases List.mem_cons.mp hl with h | h
    · rw [h]; exact h1
    · exact h2 l h
  | pop =>
    cases hs : a.saved with
    | nil => simp [Alone.does, hs]
    | cons l r =>
      simp only [Alone.does, hs, List.headD_cons, List.tail_cons]
      exact ⟨h2 l (by simp [hs]), fun x hx => h2 x (by rw [hs]; exact List.mem_cons_of_mem _ hx)⟩
  | _ => simp only [Alone.does] <;> exact ⟨by omega, h2⟩

/-! ### C44 -/

/-- C44: no template's level is ever negative, whatever is called on any number of
templates, in any order and with any arguments. -/
theorem C44_level_never_negative (h : List (Nat × Op)) (i : Nat) : 0 ≤ ((World.init.run h).objs i).level := by
  have key : ∀ (h : List (Nat × Op)) (w : World), (∀ i, 0 ≤ (w.objs i).level) → (∀ l ∈ w.stack, 0 ≤ l) →
      ∀ i, 0 ≤ ((w.run h).objs i).level := by
    intro h
    induction h with
    | nil => intro w ho _ i; exact ho i
    | cons x h ih =>
      intro w ho hs i
      obtain ⟨a, b⟩ := nonneg_step ho hs x.1 x.2
      exact ih _ a b i
  exact key h _ (fun _ => Int.le_refl 0) (by intro l hl; cases hl) i

example : ((World.init.run [(0, .setLevel (-5)), (0, .dec), (1, .inc), (0, .pop)]).objs 1).level = 1 := by decide

/-- C44: `push`, then anything in which pushes and pops are balanced, then `pop` gives
back the level, and the indentation text if the characters and the switch were left alone. -/
theorem C44_push_pop_restores (w : World) (i : Nat) {b : List (Nat × Op)} (hb : Balanced b) :
    ((w.run ((i, .push) :: b ++ [(i, .pop)])).objs i).level = (w.objs i).level ∧
    (w.run ((i, .push) :: b ++ [(i, .pop)])).stack = w.stack ∧
    ((∀ op, (i, op) ∈ b → op ≠ .on ∧ op ≠ .off ∧ ∀ s, op ≠ .setChar s) →
      ∀ d, ((w.run ((i, .push) :: b ++ [(i, .pop)])).objs i).indent d = (w.objs i).indent d) := by
  have hs := balanced_stack hb (w.step i .push)
  have h0 : (w.step i .push).stack = (w.objs i).level :: w.stack := rfl
  rw [h0] at hs
  have hend : w.run ((i, .push) :: b ++ [(i, .pop)]) = ((w.step i .push).run b).step i .pop := by
    rw [List.cons_append, World.run, run_append]; rfl
  have hst : ((w.step i .push).run b).step i .pop =
      { ((w.step i .push).run b).put i { ((w.step i .push).run b).objs i with level := (w.objs i).level }
        with stack := w.stack } := pop_cons i hs
  rw [hend, hst]
  refine ⟨by simp [World.put], rfl, ?_⟩
  intro hq d
  have keep : ∀ (b : List (Nat × Op)) (w : World),
      (∀ op, (i, op) ∈ b → op ≠ .on ∧ op ≠ .off ∧ ∀ s, op ≠ .setChar s) →
      ((w.run b).objs i).on = (w.objs i).on ∧ ((w.run b).objs i).chars = (w.objs i).chars := by
    intro b
    induction b with
    | nil => intro w _; exact ⟨rfl, rfl⟩
    | cons x b ih =>
      intro w h
      obtain ⟨j, op⟩ := x
      obtain ⟨a1, a2⟩ := ih (w.step j op) (fun op' hm => h op' (by simp [hm]))
      rw [World.run, a1, a2]
      by_cases hj : i = j
      · subst hj
        obtain ⟨n1, n2, n3⟩ := h op (by simp)
        cases op <;> simp only [World.step] <;> (try split) <;> (try simp [World.put]) <;> simp_all
      · rw [step_other w op hj]; exact ⟨rfl, rfl⟩
  obtain ⟨k1, k2⟩ := keep b (w.step i .push) hq
  have e1 : (w.step i .push).objs i = w.objs i := rfl
  rw [e1] at k1 k2
  simp only [World.put, if_true, Obj.indent, k1, k2]

example : Balanced [(0, .inc), (0, .push), (1, .dec), (0, .pop)] :=
  .other (by decide) (by decide) (.pair (i := 0) (j := 0) (b := [(1, .dec)]) (h := [])
    (.other (by decide) (by decide) .nil) .nil)

/-- C44: the indentation written is the characters repeated level times, or the given
number of blanks after `off`. -/
theorem C44_indent_text (o : Obj) (d : Nat) (n : Nat) (hl : o.level = n) :
    (o.on = true → o.indent d = (List.replicate n o.chars).flatten) ∧
    (o.on = false → o.indent d = List.replicate d ' ') := by
  constructor
  · intro h; simp [Obj.indent, h, times, hl]
  · intro h
    simp only [Obj.indent, h, Bool.false_eq_true, if_false, times, Int.toNat_natCast]
    induction d with
    | zero => rfl
    | succ d ih => simp only [List.replicate_succ, List.flatten_cons, ih]; rfl

/-- C44 (partial: the full property says that *no* use of another template matters; see the
counterexample): when the other templates' calls are balanced, a template has the level
and the saved levels it would have alone. -/
theorem C44_isolated_partial (i : Nat) {h : List (Nat × Op)} {own : List Op} (hn : Nested i h own) :
    let a := own.foldl Alone.does {}
    let w := World.init.run h
    (w.objs i).level = a.level ∧ (w.objs i).on = a.on ∧ (w.objs i).chars = a.chars ∧ w.stack = a.saved := by
  have key : ∀ {h : List (Nat × Op)} {own : List Op}, Nested i h own → ∀ (w : World) (a : Alone),
      (w.objs i).level = a.level → (w.objs i).on = a.on → (w.objs i).chars = a.chars → w.stack = a.saved →
      0 ≤ a.level →  (∀ l ∈ a.saved, 0 ≤ l) →
      ((w.run h).objs i).level = (own.foldl Alone.does a).level ∧
      ((w.run h).objs i).on = (own.foldl Alone.does a).on ∧
      ((w.run h).objs i).chars = (own.foldl Alone.does a).chars ∧
      (w.run h).stack = (own.foldl Alone.does a).saved := by
    intro h own hn
    induction hn with
    | nil => intro w a h1 h2 h3 h4 _ _; exact ⟨h1, h2, h3, h4⟩
    | @foreign b h own hb hf _ ih =>
      intro w a h1 h2 h3 h4 h5 h6
      rw [run_append]
      have e := run_other b w hf
      exact ih (w.run b) a (by rw [e]; exact h1) (by rw [e]; exact h2) (by rw [e]; exact h3)
        (by rw [balanced_stack hb]; exact h4) h5 h6
    | @own op h own _ ih =>
      intro w a h1 h2 h3 h4 h5 h6
      rw [World.run, List.foldl_cons]
      obtain ⟨g1, g2, g3, g4⟩ := step_alone h1 h2 h3 h4 h5 op
      obtain ⟨g5, g6⟩ := does_nonneg h5 h6 op
      exact ih _ _ g1 g2 g3 g4 g5 g6
  exact key hn World.init {} rfl rfl rfl rfl (by decide) (by intro l hl; cases hl)

/-- Template 1 is rendered inside template 0 and leaves nothing on the stack. -/
example : Nested 0 [(0, .inc), (0, .push), (1, .push), (1, .inc), (1, .pop), (0, .setLevel 7), (0, .pop)]
    [.inc, .push, .setLevel 7, .pop] :=
  .own (.own (.foreign (b := [(1, .push), (1, .inc), (1, .pop)])
    (.pair (b := [(1, .inc)]) (.other (by decide) (by decide) .nil) .nil) (by decide) (.own (.own .nil))))

/-- C44, violated: the list of saved levels is one for the whole process. The second
template's `pop` takes the level the first one saved, and the first gets 0 back. -/
theorem C44_shared_stack_counterexample :
    let w := World.init.run [(0, .setLevel 3), (0, .push), (1, .pop), (0, .inc), (0, .pop)]
    (w.objs 1).level = 3 ∧ (w.objs 0).level = 0 ∧
    ([Op.pop].foldl Alone.does {}).level = 0 ∧
    ([Op.setLevel 3, .push, .inc, .pop].foldl Alone.does {}).level = 3 := by decide

/-! ### C61: the preprocessor -/

/-- The width of leading blanks: a tab goes to the next multiple of four. -/
def width (blanks : Str) : Nat := blanks.foldl (fun n c => if c = '\t' then (n / 4 + 1) * 4 else n + 1) 0

/-- What a line `l` of the source may become. -/
structure LineBecomes (l o : Str) : Prop where
  /-- A line of text: the width of its indentation is handed to the indenter. -/
  text : ∀ blanks rest, l = blanks ++ rest → (∀ c ∈ blanks, c = ' ' ∨ c = '\t') →
    (∀ c, rest.head? = some c → isSpace c = false ∧ c ≠ '#') →
    o = c!"${self._CHEETAH__indenter.indent(" ++ decimal (width blanks) ++ c!")}" ++ rest
  /-- A line that starts with another directive stays. -/
  directive : ∀ blanks rest, l = blanks ++ '#' :: rest → (∀ c ∈ blanks, c = ' ' ∨ c = '\t') →
    (¬ ∃ r, rest = c!"indent" ++ r) → o = l
  /-- `#indent on`, `off`, `++`, `--`. -/
  word : ∀ blanks arg m, l = blanks ++ c!"#indent " ++ arg → (∀ c ∈ blanks, c = ' ' ∨ c = '\t') →
    (arg, m) ∈ [(c!"on", c!"on()"), (c!"off", c!"off()"), (c!"++", c!"inc()"), (c!"--", c!"dec()"),
      (c!"push", c!"push()"), (c!"pop", c!"pop()")] →
    o = c!"#silent $self._CHEETAH__indenter." ++ m
  /-- `#indent =n`. -/
  level : ∀ blanks n, l = blanks ++ c!"#indent =" ++ decimal n → (∀ c ∈ blanks, c = ' ' ∨ c = '\t') →
    o = c!"#silent $self._CHEETAH__indenter.setLevel(" ++ decimal n ++ c!")"

theorem column_eq (s : Str) (n : Nat) :
    column n s = s.foldl (fun n c => if c = '\t' then (n / 4 + 1) * 4 else n + 1) n := by
  induction s generalizing n with
  | nil => rfl
  | cons c s ih =>
    simp only [column, List.foldl_cons]
    split
    · rw [ih]; congr 1; omega
    · rw [ih]

theorem isBlank_iff (c : Char) : isBlank c = true ↔ c = ' ' ∨ c = '\t' := by
  simp [isBlank]

theorem split_blanks {blanks rest : Str} (hb : ∀ c ∈ blanks, c = ' ' ∨ c = '\t')
    (hr : ∀ c, rest.head? = some c → isBlank c = false) :
    (blanks ++ rest).dropWhile isBlank = rest ∧ (blanks ++ rest).takeWhile isBlank = blanks := by
  induction blanks with
  | nil =>
    cases rest with
    | nil => exact ⟨rfl, rfl⟩
    | cons c r => have := hr c rfl; simp [List.dropWhile, List.takeWhile, this]
  | cons c b ih =>
    have hc : isBlank c = true := (isBlank_iff c).mpr (hb c (by simp))
    obtain ⟨h1, h2⟩ := ih (fun x hx => hb x (by simp [hx]))
    simp [List.dropWhile, List.takeWhile, hc, h1, h2]

theorem blank_isSpace {c : Char} (h : isSpace c = false) : isBlank c = false := by
  cases hb : isBlank c with
  | false => rfl
  | true =>
    rcases (isBlank_iff c).mp hb with h' | h'
    · rw [h'] at h; exact absurd h (by decide +kernel)
    · rw [h'] at h; exact absurd h (by decide +kernel)

theorem lstrip_blanks {blanks rest : Str} (hb : ∀ c ∈ blanks, c = ' ' ∨ c = '\t')
    (hr : ∀ c, rest.head? = some c → isSpace c = false) : lstrip (blanks ++ rest) = rest := by
  induction blanks with
  | nil => exact lstrip_eq_self hr
  | cons c b ih =>
    have hc : isSpace c = true := by
      rcases hb c (by simp) with h | h <;> rw [h] <;> decide +kernel
    have := ih (fun x hx => hb x (by simp [hx]))
    simpa [lstrip, List.dropWhile, hc] using this

theorem dropBlank_solid {s : Str} (h : ∀ c ∈ s, isSpace c = false) : s.dropWhile isBlank = s := by
  cases s with
  | nil => rfl
  | cons c s => simp [List.dropWhile, blank_isSpace (h c (by simp))]

theorem indentArgs_indent {blanks arg : Str} (hb : ∀ c ∈ blanks, c = ' ' ∨ c = '\t')
    (ha : ∀ c ∈ arg, isSpace c = false) : indentArgs (blanks ++ c!"#indent " ++ arg) = some arg := by
  have h1 : (blanks ++ c!"#indent " ++ arg).dropWhile isBlank = c!"#indent " ++ arg := by
    rw [List.append_assoc]
    exact (split_blanks hb (by intro c hc; simp at hc; rw [← hc]; decide)).1
  have h2 : stripPrefix? c!"#indent" (c!"#indent " ++ arg) = some (' ' :: arg) := by
    rw [stripPrefix?_some]; rfl
  have h3 : (' ' :: arg).dropWhile isBlank = arg := by
    have : isBlank ' ' = true := by decide
    rw [List.dropWhile_cons, if_pos this, dropBlank_solid ha]
  rw [indentArgs, h1, h2]
  simp only [Option.map_some, h3, strip_solid ha]

theorem processLine_becomes {ev : Str → Bool} {lv lv' : Option Int} {l o : Str}
    (h : processLine ev lv l = .ok (o, lv')) : LineBecomes l o where
  text := by
    intro blanks rest hl hb hr
    have hr1 : ∀ c, rest.head? = some c → isBlank c = false := fun c hc => blank_isSpace (hr c hc).1
    obtain ⟨d1, d2⟩ := split_blanks hb hr1
    have hi : indentArgs l = none := by
      rw [indentArgs, hl, d1]
      have : stripPrefix? c!"#indent" rest = none := by
        cases hs : stripPrefix? c!"#indent" rest with
        | none => rfl
        | some r =>
          rw [stripPrefix?_some] at hs
          have := (hr '#' (by rw [hs]; rfl)).2
          exact absurd rfl this
      rw [this]; rfl
    have hdir : isDirective l = false := by
      rw [isDirective, hl, d1]
      cases hh : rest.head? with
      | none => rfl
      | some c => have := (hr c hh).2; simp [this]
    unfold processLine at h
    rw [hi] at h
    simp only [hdir, Bool.false_eq_true, if_false] at h
    injection h with h
    injection h with h _
    rw [← h, hl, d2, lstrip_blanks hb fun c hc => (hr c hc).1, column_eq]
    rfl
  directive := by
    intro blanks rest hl hb hr
    have d1 : l.dropWhile isBlank = '#' :: rest := by
      rw [hl]; exact (split_blanks hb (by intro c hc; simp at hc; rw [← hc]; decide)).1
    have hi : indentArgs l = none := by
      rw [indentArgs, d1]
      have : stripPrefix? c!"#indent" ('#' :: rest) = none := by
        cases hs : stripPrefix? c!"#indent" ('#' :: rest) with
        | none => rfl
        | some r =>
          rw [stripPrefix?_some] at hs
          exact absurd ⟨r, (List.cons.inj hs).2⟩ hr
      rw [this]; rfl
    have hdir : isDirective l = true := by rw [isDirective, d1]; rfl
    unfold processLine at h
    rw [hi] at h
    simp only [hdir, if_true] at h
    injection h with h
    injection h with h _
    exact h.symm
  word := by
    intro blanks arg m hl hb hm
    have ha : ∀ c ∈ arg, isSpace c = false := by
      simp only [List.mem_cons, Prod.mk.injEq, List.not_mem_nil, or_false] at hm
      rcases hm with ⟨h, _⟩ | ⟨h, _⟩ | ⟨h, _⟩ | ⟨h, _⟩ | ⟨h, _⟩ | ⟨h, _⟩ <;> rw [h] <;> decide +kernel
    unfold processLine at h
    rw [hl, indentArgs_indent hb ha] at h
    simp only [List.mem_cons, Prod.mk.injEq, List.not_mem_nil, or_false] at hm
    rcases hm with ⟨h1, h2⟩ | ⟨h1, h2⟩ | ⟨h1, h2⟩ | ⟨h1, h2⟩ | ⟨h1, h2⟩ | ⟨h1, h2⟩ <;> subst h1 <;> subst h2 <;>
      · injection h with h
        injection h with h _
        exact h.symm
  level := by
    intro blanks n hl hb
    have ha : ∀ c ∈ '=' :: decimal n, isSpace c = false := by
      intro c hc
      rcases List.mem_cons.mp hc with h | h
      · rw [h]; decide +kernel
      · exact digit_notspace (decimal_digits n c h)
    have hl' : l = blanks ++ c!"#indent " ++ ('=' :: decimal n) := by rw [hl]; simp
    unfold processLine at h
    rw [hl', indentArgs_indent hb ha] at h
    have e : startsWith ('=' :: decimal n) c!"=" = true := startsWith_iff.mpr ⟨decimal n, rfl⟩
    have n1 : ('=' :: decimal n) ≠ c!"on" := by simp
    have n2 : ('=' :: decimal n) ≠ c!"off" := by simp
    have n3 : ('=' :: decimal n) ≠ c!"++" := by simp
    have n4 : ('=' :: decimal n) ≠ c!"--" := by simp
    simp only [if_neg n1, if_neg n2, if_neg n3, if_neg n4, e, if_true, List.drop_succ_cons, List.drop_zero,
      pyInt_decimal] at h
    injection h with h
    injection h with h _
    rw [← h]
    have : pctD (n : Int) = decimal n := by
      unfold pctD; rw [if_neg (by omega)]; simp
    rw [this]
    simp [call]

theorem processLines_becomes {ev : Str → Bool} : ∀ (ls : List Str) (lv : Option Int) (outs : List Str),
    processLines ev lv ls = .ok outs →
    outs.length = ls.length ∧ ∀ (k : Nat) (l o : Str), ls[k]? = some l → outs[k]? = some o → LineBecomes l o := by
  intro ls
  induction ls with
  | nil =>
    intro lv outs h
    injection h with h
    subst h
    exact ⟨rfl, fun k l o hl _ => by simp at hl⟩
  | cons x ls ih =>
    intro lv outs h
    unfold processLines at h
    cases hp : processLine ev lv x with
    | error e => rw [hp] at h; exact absurd h (by simp)
    | ok r =>
      obtain ⟨x', lv'⟩ := r
      rw [hp] at h
      cases hq : processLines ev lv' ls with
      | error e => simp only [hq] at h; exact absurd h (by simp [Except.map])
      | ok rest =>
        simp only [hq, Except.map] at h
        injection h with h
        subst h
        obtain ⟨e1, e2⟩ := ih lv' rest hq
        refine ⟨by simp [e1], ?_⟩
        intro k l o hl ho
        cases k with
        | zero =>
          simp at hl ho
          subst hl; subst ho
          exact processLine_becomes hp
        | succ k => exact e2 k l o (by simpa using hl) (by simpa using ho)

/-- What ends a line. -/
def lineEnds : List Str :=
  [c!"\n", c!"\r\n", c!"\r", ['\u000b'], ['\u000c'], ['\u001c'], ['\u001d'], ['\u001e'], ['\u0085'], ['\u2028'], ['\u2029']]

/-- A text and its lines: each is ended by the longest line end there, the last one perhaps by the end of the text. -/
inductive Lines : Str → List Str → Prop
  | none : Lines [] []
  | last (l : Str) (hne : l ≠ []) (hl : ∀ c ∈ l, [c] ∉ lineEnds) : Lines l [l]
  | line (l e rest : Str) (ls : List Str) (hl : ∀ c ∈ l, [c] ∉ lineEnds) (he : e ∈ lineEnds) (hr : e = c!"\r" → rest.head? ≠ some '\n')
      (h : Lines rest ls) : Lines (l ++ (e ++ rest)) (l :: ls)

theorem isLineSep_iff (c : Char) : isLineSep c = true ↔ [c] ∈ lineEnds := by
  have e : ∀ d : Char, c = d ↔ c.toNat = d.toNat := fun d => Char.toNat_inj.symm
  simp only [isLineSep, lineEnds, List.mem_cons, List.cons.injEq, and_true, Bool.or_eq_true, Bool.and_eq_true, decide_eq_true_eq,
    beq_iff_eq, List.not_mem_nil, or_false, reduceCtorEq, and_false, false_or, e]
  have h1 : ('\n' : Char).toNat = 10 := rfl
  have h2 : ('\r' : Char).toNat = 13 := rfl
  have h3 : ('\u000b' : Char).toNat = 11 := rfl
  have h4 : ('\u000c' : Char).toNat = 12 := rfl
  have h5 : ('\u001c' : Char).toNat = 28 := rfl
  have h6 : ('\u001d' : Char).toNat = 29 := rfl
  have h7 : ('\u001e' : Char).toNat = 30 := rfl
  have h8 : ('\u0085' : Char).toNat = 0x85 := rfl
  have h9 : ('\u2028' : Char).toNat = 0x2028 := rfl
  have h10 : ('\u2029' : Char).toNat = 0x2029 := rfl
  rw [h1, h2, h3, h4, h5, h6, h7, h8, h9, h10]
  omega

theorem hcons {c : Char} {l : Str} (hc : [c] ∉ lineEnds) (hl : ∀ d ∈ l, [d] ∉ lineEnds) : ∀ d ∈ c :: l, [d] ∉ lineEnds := by
  intro d hd
  rcases List.mem_cons.1 hd with rfl | hd
  · exact hc
  · exact hl d hd

theorem Lines.cons {c : Char} (hc : [c] ∉ lineEnds) {s : Str} {ls : List Str} (h : Lines s ls) : Lines (c :: s) (consLine c ls) := by
  cases h with
  | none => exact .last [c] (by simp) (by simpa using hc)
  | last _ hne hl => exact .last (c :: s) (by simp) (hcons hc hl)
  | line l e rest ls hl he hr h =>
    exact .line (c :: l) e rest ls (hcons hc hl) he hr h

/-- **C61, lines.** The lines that are worked on one by one are those of the source: every line end of Python counts, `\\r\\n` as one, and
nothing of the text between the line ends is lost. -/
theorem C61_lines (src : Str) : Lines src (splitlines src) := by
  fun_induction splitlines src with
  | case1 => exact .none
  | case2 c h => exact .line [] [c] [] [] (by simp) ((isLineSep_iff c).1 h) (by simp) .none
  | case3 c h => exact .last [c] (by simp) (by simpa [isLineSep_iff] using h)
  | case4 c d s h ih =>
    obtain ⟨rfl, rfl⟩ := h
    exact .line [] c!"\r\n" s _ (by simp) (by decide) (by simp) ih
  | case5 c d s h1 h2 ih =>
    refine .line [] [c] (d :: s) _ (by simp) ((isLineSep_iff c).1 h2) ?_ ih
    intro hc hd
    injection hc with hc
    exact h1 ⟨hc, by simpa using hd⟩
  | case6 c d s h1 h2 ih => exact Lines.cons (by simpa [isLineSep_iff] using h2) ih

example : splitlines c!"one\r\ntwo\n\nthree\u2028four" = [c!"one", c!"two", [], c!"three", c!"four"] := by decide

/-- C61: preprocessing works line by line. The result has as many lines as the source;
text lines hand their indentation to the indenter, other directives stay as they are, and
the `#indent` directives become the calls they stand for. -/
theorem C61_line_by_line {ev : Str → Bool} {src out : Str} (h : indentize ev src = .ok out) :
    ∃ outs : List Str, out = joinStr ['\n'] outs ∧ outs.length = (splitlines src).length ∧
      ∀ (k : Nat) (l o : Str), (splitlines src)[k]? = some l → outs[k]? = some o → LineBecomes l o := by
  unfold indentize at h
  cases hp : processLines ev none (splitlines src) with
  | error e => rw [hp] at h; exact absurd h (by simp [Except.map])
  | ok outs =>
    rw [hp] at h
    injection h with h
    obtain ⟨h1, h2⟩ := processLines_becomes _ _ _ hp
    exact ⟨outs, h.symm, h1, h2⟩

example : indentize (fun _ => true) c!"#indent ++\r\n\t a\n #if x\nb" =
    .ok c!"#silent $self._CHEETAH__indenter.inc()\n${self._CHEETAH__indenter.indent(5)}a\n #if x\n${self._CHEETAH__indenter.indent(0)}b" := by
  decide +kernel

/-- C61: with the indenter switched off, a line indented by blanks is rendered as it was
written: the placeholder put in front of it yields its indentation. -/
theorem C61_off_keeps_layout {l o : Str} (h : LineBecomes l o) {n : Nat} {rest : Str}
    (hl : l = List.replicate n ' ' ++ rest) (hr : ∀ c, rest.head? = some c → isSpace c = false ∧ c ≠ '#')
    (ind : Obj) (hoff : ind.on = false) :
    o = c!"${self._CHEETAH__indenter.indent(" ++ decimal n ++ c!")}" ++ rest ∧ ind.indent n ++ rest = l := by
  constructor
  · have := h.text _ rest hl (by intro c hc; exact .inl (List.eq_of_mem_replicate hc)) hr
    have hw : ∀ n k : Nat, (List.replicate n ' ').foldl (fun n c => if c = '\t' then (n / 4 + 1) * 4 else n + 1) k
        = k + n := by
      intro n
      induction n with
      | zero => intro k; rfl
      | succ n ih =>
        intro k
        have : (' ' : Char) ≠ '\t' := by decide
        rw [List.replicate_succ, List.foldl_cons, if_neg this, ih]; omega
    rw [this, width, hw, Nat.zero_add]
  · have hi : ind.indent n = List.replicate n ' ' := by
      simp only [Obj.indent, hoff, Bool.false_eq_true, if_false, times, Int.toNat_natCast]
      clear hl
      induction n with
      | zero => rfl
      | succ d ih => simp only [List.replicate_succ, List.flatten_cons, ih]; rfl
    rw [hi, hl]

/-- C61, violated for `#indent chars`: the generated call needs a level that only an
earlier `#indent =n` sets, and it calls `setChars`, which indenters do not have (their
method is `setChar`). -/
theorem C61_chars_counterexample :
    indentize (fun _ => true) c!"#indent chars='  '" = .error .unboundLocal ∧
    indentize (fun _ => true) c!"#indent =2\n#indent chars='  '" =
      .ok c!"#silent $self._CHEETAH__indenter.setLevel(2)\n#silent $self._CHEETAH__indenter.setChars(2)" := by
  decide +kernel

/-- C61, violated for leading white space other than blanks and tabs: a no-break space is
dropped and not counted. -/
theorem C61_space_counterexample :
    indentize (fun _ => true) c!"\u00a0a" = .ok c!"${self._CHEETAH__indenter.indent(0)}a" := by decide +kernel

/-! #### `#indent chars` in general -/

/-- A line `#indent =…`. -/
def SetsLevel (l : Str) : Prop :=
  ∃ blanks r, l = blanks ++ c!"#indent" ++ r ∧ (∀ c ∈ blanks, c = ' ' ∨ c = '\t') ∧ (strip r).head? = some '='

theorem takeBlank (l : Str) : ∃ b, l = b ++ l.dropWhile isBlank ∧ ∀ c ∈ b, c = ' ' ∨ c = '\t' :=
  ⟨l.takeWhile isBlank, (List.takeWhile_append_dropWhile).symm, fun c hc => (isBlank_iff c).mp (by
    have := List.all_takeWhile (p := isBlank) (l := l)
    exact List.all_eq_true.mp this c hc)⟩

theorem strip_dropBlank (r : Str) : strip (r.dropWhile isBlank) = strip r := by
  have : lstrip (r.dropWhile isBlank) = lstrip r := by
    induction r with
    | nil => rfl
    | cons c r ih =>
      rw [List.dropWhile_cons]
      split
      · rename_i hc
        have hs : isSpace c = true := by
          rcases (isBlank_iff c).mp hc with h | h <;> rw [h] <;> decide +kernel
        rw [ih]
        simp [lstrip, List.dropWhile_cons, hs]
      · rfl
  simp only [strip, this]

theorem processLine_level {ev : Str → Bool} {lv lv' : Option Int} {l o : Str}
    (h : processLine ev lv l = .ok (o, lv')) : lv' = lv ∨ SetsLevel l := by
  unfold processLine at h
  split at h
  · rename_i args ha
    by_cases he : startsWith args c!"=" = true
    · right
      rw [indentArgs] at ha
      obtain ⟨r, hr, hr'⟩ := Option.map_eq_some_iff.mp ha
      rw [stripPrefix?_some] at hr
      obtain ⟨b, hb, hb'⟩ := takeBlank l
      refine ⟨b, r, by rw [List.append_assoc, ← hr]; exact hb, hb', ?_⟩
      obtain ⟨t, ht⟩ := startsWith_iff.mp he
      rw [← strip_dropBlank, hr', ht]; rfl
    · left
      simp only [if_neg he] at h
      repeat' split at h
      all_goals first
        | (injection h with h; injection h with _ h; exact h.symm)
        | (cases h)
  · left
    split at h <;> (injection h with h; injection h with _ h; exact h.symm)

theorem processLine_chars {ev : Str → Bool} {lv lv' : Option Int} {blanks name e more o : Str}
    (hb : ∀ c ∈ blanks, c = ' ' ∨ c = '\t') (hn : ∀ c ∈ name, isSpace c = false ∧ c ≠ '=')
    (he : ∀ c ∈ e, isSpace c = false ∧ c ≠ '=')
    (hm : ∀ c ∈ more, isSpace c = false) (hm' : more = [] ∨ more.head? = some '=')
    (h : processLine ev lv (blanks ++ c!"#indent chars" ++ name ++ '=' :: (e ++ more)) = .ok (o, lv')) :
    ev e = true ∧ ∃ n, lv = some n ∧ o = c!"#silent $self._CHEETAH__indenter.setChars(" ++ pctD n ++ c!")" := by
  have ha : ∀ c ∈ c!"chars" ++ name ++ '=' :: (e ++ more), isSpace c = false := by
    intro c hc
    rcases List.mem_append.mp hc with hc | hc
    rcases List.mem_append.mp hc with hc | hc
    · have : ∀ c ∈ c!"chars", isSpace c = false := by decide +kernel
      exact this c hc
    · exact (hn c hc).1
    · rcases List.mem_cons.mp hc with hc | hc
      · rw [hc]; decide +kernel
      · rcases List.mem_append.mp hc with hc | hc
        · exact (he c hc).1
        · exact hm c hc
  have hl : blanks ++ c!"#indent chars" ++ name ++ '=' :: (e ++ more) = blanks ++ c!"#indent " ++ (c!"chars" ++ name ++ '=' :: (e ++ more)) := by
    simp
  have hsp : afterEq (c!"chars" ++ name ++ '=' :: (e ++ more)) = some e := by
    have e0 : splitCh '=' e = [e] := splitCh_of_not_mem (fun hx => (he _ hx).2 rfl)
    have e1 : ∃ l, splitCh '=' (e ++ more) = e :: l := by
      rcases hm' with rfl | hm'
      · exact ⟨[], by simpa using e0⟩
      · cases more with
        | nil => cases hm'
        | cons c m =>
          simp only [List.head?_cons, Option.some.injEq] at hm'
          subst hm'
          exact ⟨splitCh '=' m, by rw [splitCh_append_sep, e0]; rfl⟩
    obtain ⟨l, e1⟩ := e1
    have e2 : splitCh '=' (c!"chars" ++ name) = [c!"chars" ++ name] := splitCh_of_not_mem (by
      intro hx
      rcases List.mem_append.mp hx with hx | hx
      · revert hx; decide
      · exact (hn _ hx).2 rfl)
    rw [afterEq, splitCh_append_sep, e1, e2]
    rfl
  have hst : startsWith (c!"chars" ++ name ++ '=' :: (e ++ more)) c!"chars" = true :=
    startsWith_iff.mpr ⟨name ++ '=' :: (e ++ more), by simp⟩
  have hne : startsWith (c!"chars" ++ name ++ '=' :: (e ++ more)) c!"=" = false := by
    cases hx : startsWith (c!"chars" ++ name ++ '=' :: (e ++ more)) c!"=" with
    | false => rfl
    | true => obtain ⟨t, ht⟩ := startsWith_iff.mp hx; simp at ht
  unfold processLine at h
  rw [hl, indentArgs_indent hb ha] at h
  simp only [hst, hne, hsp] at h
  rw [if_neg (by simp), if_neg (by simp), if_neg (by simp), if_neg (by simp)] at h
  simp only [Bool.false_eq_true, if_false, if_true] at h
  split at h
  · rename_i hv
    cases lv with
    | none => cases h
    | some n =>
      injection h with h
      injection h with h _
      exact ⟨hv, n, rfl, by rw [← h]; simp [call]⟩
  · cases h

theorem processLines_chars {ev : Str → Bool} {blanks name e more : Str}
    (hb : ∀ c ∈ blanks, c = ' ' ∨ c = '\t') (hn : ∀ c ∈ name, isSpace c = false ∧ c ≠ '=')
    (he : ∀ c ∈ e, isSpace c = false ∧ c ≠ '=') (hm : ∀ c ∈ more, isSpace c = false)
    (hm' : more = [] ∨ more.head? = some '=') (k : Nat) : ∀ (ls : List Str) (lv : Option Int) (outs : List Str),
    processLines ev lv ls = .ok outs → ls[k]? = some (blanks ++ c!"#indent chars" ++ name ++ '=' :: (e ++ more)) →
    ev e = true ∧ (∃ n : Int, outs[k]? = some (c!"#silent $self._CHEETAH__indenter.setChars(" ++ pctD n ++ c!")")) ∧
      (lv = none → ∃ j l, j < k ∧ ls[j]? = some l ∧ SetsLevel l) := by
  induction k with
  | zero =>
    intro ls lv outs h hk
    cases ls with
    | nil => simp at hk
    | cons x ls =>
      simp only [List.getElem?_cons_zero, Option.some.injEq] at hk
      unfold processLines at h
      cases hp : processLine ev lv x with
      | error e => rw [hp] at h; exact absurd h (by simp)
      | ok r =>
        obtain ⟨x', lv'⟩ := r
        rw [hp] at h
        rw [hk] at hp
        obtain ⟨h1, n, h2, h3⟩ := processLine_chars hb hn he hm hm' hp
        cases hq : processLines ev lv' ls with
        | error e => simp only [hq] at h; exact absurd h (by simp [Except.map])
        | ok rest =>
          simp only [hq, Except.map] at h
          injection h with h
          exact ⟨h1, ⟨n, by rw [← h, ← h3]; rfl⟩, fun hl => by rw [hl] at h2; cases h2⟩
  | succ k ih =>
    intro ls lv outs h hk
    cases ls with
    | nil => simp at hk
    | cons x ls =>
      unfold processLines at h
      cases hp : processLine ev lv x with
      | error e => rw [hp] at h; exact absurd h (by simp)
      | ok r =>
        obtain ⟨x', lv'⟩ := r
        rw [hp] at h
        cases hq : processLines ev lv' ls with
        | error e => simp only [hq] at h; exact absurd h (by simp [Except.map])
        | ok rest =>
          simp only [hq, Except.map] at h
          injection h with h
          subst h
          obtain ⟨h1, ⟨n, h2⟩, h3⟩ := ih ls lv' rest hq (by simpa using hk)
          refine ⟨h1, ⟨n, by simpa using h2⟩, fun hl => ?_⟩
          rcases processLine_level hp with hv | hv
          · obtain ⟨j, l, hj, hl', hs⟩ := h3 (by rw [hv, hl])
            exact ⟨j + 1, l, by omega, by simpa using hl', hs⟩
          · exact ⟨0, x, by omega, rfl, hv⟩

/-- C61: `#indent chars=e` never sets the characters. The source is only accepted if the
expression, the text between the first and the second `=`, can be evaluated and an earlier line
`#indent =n` exists; and then the directive becomes a call of `setChars` with a level, a method
indenters do not have. What follows the second `=` (`more`) is ignored. -/
theorem C61_chars {ev : Str → Bool} {src out blanks name e more : Str} {k : Nat} (h : indentize ev src = .ok out)
    (hb : ∀ c ∈ blanks, c = ' ' ∨ c = '\t') (hn : ∀ c ∈ name, isSpace c = false ∧ c ≠ '=')
    (he : ∀ c ∈ e, isSpace c = false ∧ c ≠ '=')
    (hm : ∀ c ∈ more, isSpace c = false) (hm' : more = [] ∨ more.head? = some '=')
    (hk : (splitlines src)[k]? = some (blanks ++ c!"#indent chars" ++ name ++ '=' :: (e ++ more))) :
    ev e = true ∧ (∃ j l, j < k ∧ (splitlines src)[j]? = some l ∧ SetsLevel l) ∧
      ∃ (outs : List Str) (n : Int), out = joinStr ['\n'] outs ∧
        outs[k]? = some (c!"#silent $self._CHEETAH__indenter.setChars(" ++ pctD n ++ c!")") := by
  unfold indentize at h
  cases hp : processLines ev none (splitlines src) with
  | error e => rw [hp] at h; exact absurd h (by simp [Except.map])
  | ok outs =>
    rw [hp] at h
    injection h with h
    obtain ⟨h1, ⟨n, h2⟩, h3⟩ := processLines_chars hb hn he hm hm' k _ _ _ hp hk
    exact ⟨h1, h3 rfl, outs, n, h.symm, h2⟩

example : (splitlines c!"#indent = 3\n\t#indent chars='-'")[1]? = some (c!"\t" ++ c!"#indent chars" ++ [] ++ '=' :: (c!"'-'" ++ [])) ∧
    indentize (fun e => decide (e = c!"'-'")) c!"#indent = 3\n\t#indent chars='-'" =
      .ok c!"#silent $self._CHEETAH__indenter.setLevel(3)\n#silent $self._CHEETAH__indenter.setChars(3)" ∧
    SetsLevel c!"#indent = 3" :=
  ⟨by decide +kernel, by decide +kernel, [], c!" = 3", rfl, by simp, by decide +kernel⟩
example : (splitlines c!"#indent =3\n#indent chars=a=b=c")[1]? =
      some ([] ++ c!"#indent chars" ++ [] ++ '=' :: (c!"a" ++ c!"=b=c")) ∧
    indentize (fun e => decide (e = c!"a")) c!"#indent =3\n#indent chars=a=b=c" =
      .ok c!"#silent $self._CHEETAH__indenter.setLevel(3)\n#silent $self._CHEETAH__indenter.setChars(3)" := by
  decide +kernel

end Cheetah.Indent
