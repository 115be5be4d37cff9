import Verif.ErrorCatcher
/-
C33: error catchers have one wrapper per placeholder source.
-/
namespace Cheetah.ErrorCatcher
open NameMapper (Exc)

/-- The method name with number `n`. -/
def nm (n : Nat) : Str := c!"__errorCatcher" ++ decimal n

theorem nm_inj {m n : Nat} (h : nm m = nm n) : m = n :=
  decimal_inj (List.append_cancel_left h)

/-- Invariant: the map and the wrappers list the same raw texts with the names 1..count. -/
structure Inv (st : State) : Prop where
  maps : st.map.reverse = st.wrappers.map fun w => (w.raw, w.name)
  names : st.wrappers.map (·.name) = (List.range st.count).map fun i => nm (i + 1)
  raws : (st.wrappers.map (·.raw)).Nodup

theorem lookup_mem {m : List (Str × Str)} {k v : Str} (h : m.lookup k = some v) : (k, v) ∈ m := by
  induction m with
  | nil => simp at h
  | cons a m ih =>
    obtain ⟨x, y⟩ := a
    rw [List.lookup_cons] at h
    by_cases e : k = x
    · subst e; simp at h; simp [h]
    · have : (k == x) = false := by simpa using e
      rw [this] at h
      exact List.mem_cons_of_mem _ (ih h)

theorem lookup_none {m : List (Str × Str)} {k : Str} (h : m.lookup k = none) : ∀ v, (k, v) ∉ m := by
  induction m with
  | nil => simp
  | cons a m ih =>
    obtain ⟨x, y⟩ := a
    rw [List.lookup_cons] at h
    by_cases e : k = x
    · subst e; simp at h
    · have : (k == x) = false := by simpa using e
      rw [this] at h
      intro v hv
      rcases List.mem_cons.1 hv with h' | h'
      · exact e (congrArg Prod.fst h')
      · exact ih h v h'

/-- The wrappers of a state only ever grow. -/
theorem add_spec (st : State) (h : Inv st) (code raw : Str) :
    Inv (addErrorCatcherCall st code raw).1 ∧
    (∃ w ∈ (addErrorCatcherCall st code raw).1.wrappers, w.raw = raw ∧ w.name = (addErrorCatcherCall st code raw).2) ∧
    ((raw ∈ st.wrappers.map (·.raw) ∧ (addErrorCatcherCall st code raw).1 = st) ∨
     (raw ∉ st.wrappers.map (·.raw) ∧ ∃ n, (addErrorCatcherCall st code raw).1.wrappers =
        st.wrappers ++ [⟨n, c!"'''" ++ code ++ c!"''', globals(), localsDict)", raw⟩])) := by
  unfold addErrorCatcherCall
  cases hl : st.map.lookup raw with
  | some name =>
    have hm : (raw, name) ∈ st.wrappers.map fun w => (w.raw, w.name) := by
      rw [← h.maps]; simpa using lookup_mem hl
    obtain ⟨w, hw, he⟩ := List.mem_map.1 hm
    simp only [Prod.mk.injEq] at he
    exact ⟨h, ⟨w, hw, he.1, he.2⟩, .inl ⟨List.mem_map.2 ⟨w, hw, he.1⟩, rfl⟩⟩
  | none =>
    have hnew : raw ∉ st.wrappers.map (·.raw) := by
      intro hr
      obtain ⟨w, hw, he⟩ := List.mem_map.1 hr
      have : (w.raw, w.name) ∈ st.map.reverse := by rw [h.maps]; exact List.mem_map.2 ⟨w, hw, rfl⟩
      rw [he] at this
      exact lookup_none hl _ (by simpa using this)
    refine ⟨⟨?_, ?_, ?_⟩, ⟨_, List.mem_append_right _ (List.mem_singleton.2 rfl), rfl, rfl⟩, .inr ⟨hnew, _, rfl⟩⟩
    · simp [h.maps]
    · simp [h.names, List.range_succ, nm]
    · simp only [List.map_append, List.map_cons, List.map_nil]
      rw [List.nodup_append]
      exact ⟨h.raws, by simp, by
        intro a ha b hb
        simp at hb; subst hb
        intro e; subst e; exact hnew ha⟩

theorem inv_init : Inv State.init := ⟨rfl, rfl, by simp [State.init]⟩

/-- The code of the first placeholder with this raw text. -/
def firstCode (raw : Str) : List (Str × Str) → Option Str
  | [] => none
  | (code, r) :: ps => if r = raw then some code else firstCode raw ps

theorem addAll_spec (ps : List (Str × Str)) : ∀ st, Inv st →
    Inv (addAll st ps).1 ∧
    (∃ more, (addAll st ps).1.wrappers = st.wrappers ++ more ∧
      ∀ w ∈ more, w.raw ∉ st.wrappers.map (·.raw) ∧
        ∃ code, firstCode w.raw ps = some code ∧ w.evalArgs = c!"'''" ++ code ++ c!"''', globals(), localsDict)") ∧
    (addAll st ps).2.length = ps.length ∧
    ∀ i (h : i < ps.length) (h' : i < (addAll st ps).2.length),
      ∃ w ∈ (addAll st ps).1.wrappers, w.raw = ps[i].2 ∧ w.name = (addAll st ps).2[i] := by
  induction ps with
  | nil => intro st h; exact ⟨h, ⟨[], by simp [addAll], by simp⟩, rfl, by intro i h; simp at h⟩
  | cons p ps ih =>
    intro st h
    obtain ⟨code, raw⟩ := p
    obtain ⟨h1, ⟨w0, hw0, hr0, hn0⟩, h3⟩ := add_spec st h code raw
    obtain ⟨i1, ⟨more, hm1, hm2⟩, i3, i4⟩ := ih _ h1
    have e : addAll st ((code, raw) :: ps) =
      ((addAll (addErrorCatcherCall st code raw).1 ps).1,
        (addErrorCatcherCall st code raw).2 :: (addAll (addErrorCatcherCall st code raw).1 ps).2) := rfl
    rw [e]
    refine ⟨i1, ?_, by simp [i3], ?_⟩
    · rcases h3 with ⟨hin, hst⟩ | ⟨hnin, n, hst⟩
      · rw [hst] at hm1 hm2
        refine ⟨more, by rw [← hm1, hst], fun w hw => ?_⟩
        obtain ⟨a, code', b, c⟩ := hm2 w hw
        have : raw ≠ w.raw := by rintro rfl; exact a hin
        exact ⟨a, code', by simp [firstCode, this, b], c⟩
      · rw [hst] at hm1 hm2
        refine ⟨_ :: more, by rw [hm1, List.append_assoc]; rfl, fun w hw => ?_⟩
        rcases List.mem_cons.1 hw with rfl | hw
        · exact ⟨hnin, code, by simp [firstCode], rfl⟩
        · obtain ⟨a, code', b, c⟩ := hm2 w hw
          simp only [List.map_append, List.map_cons, List.map_nil, List.mem_append, List.mem_singleton, not_or] at a
          exact ⟨a.1, code', by simp [firstCode, Ne.symm a.2, b], c⟩
    · intro i hi hi'
      cases i with
      | zero => exact ⟨w0, by rw [hm1]; exact List.mem_append_left _ hw0, hr0, hn0⟩
      | succ i => exact i4 i (by simpa using hi) (by simpa using hi')

theorem inv_unique {st : State} (h : Inv st) {w w' : Wrapper} (hw : w ∈ st.wrappers) (hw' : w' ∈ st.wrappers) :
    (w.raw = w'.raw ↔ w = w') ∧ (w.name = w'.name ↔ w = w') := by
  have inj : ∀ {α : Type} (f : Wrapper → α) (l : List Wrapper), (l.map f).Nodup → ∀ a ∈ l, ∀ b ∈ l, f a = f b → a = b := by
    intro α f l
    induction l with
    | nil => simp
    | cons x l ih =>
      intro hn a ha b hb e
      simp only [List.map_cons, List.nodup_cons] at hn
      rcases List.mem_cons.1 ha with ha' | ha' <;> rcases List.mem_cons.1 hb with hb' | hb'
      · rw [ha', hb']
      · exact absurd (List.mem_map.2 ⟨b, hb', by rw [← e, ha']⟩) hn.1
      · exact absurd (List.mem_map.2 ⟨a, ha', by rw [e, hb']⟩) hn.1
      · exact ih hn.2 a ha' b hb' e
  have hn : (st.wrappers.map (·.name)).Nodup := by
    rw [h.names]
    have : ∀ k, ((List.range k).map fun i => nm (i + 1)).Nodup := by
      intro k
      induction k with
      | zero => simp
      | succ k ih =>
        rw [List.range_succ, List.map_append, List.nodup_append]
        refine ⟨ih, by simp, ?_⟩
        intro a ha b hb
        simp only [List.map_cons, List.map_nil, List.mem_singleton] at hb
        obtain ⟨i, hi, rfl⟩ := List.mem_map.1 ha
        subst hb
        intro e
        have := nm_inj e
        simp at hi
        omega
    exact this _
  exact ⟨⟨inj _ _ h.raws w hw w' hw', fun e => by rw [e]⟩, ⟨inj _ _ hn w hw w' hw', fun e => by rw [e]⟩⟩

/-- **C33.** Two placeholders of a class call the same wrapper exactly if their source
texts are equal. -/
theorem C33_shared_iff_same_text (ps : List (Str × Str)) (i j : Nat) (hi : i < ps.length) (hj : j < ps.length)
    (hi' : i < (addAll State.init ps).2.length) (hj' : j < (addAll State.init ps).2.length) :
    (addAll State.init ps).2[i] = (addAll State.init ps).2[j] ↔ ps[i].2 = ps[j].2 := by
  obtain ⟨h1, -, -, h4⟩ := addAll_spec ps _ inv_init
  obtain ⟨w, hw, r1, n1⟩ := h4 i hi hi'
  obtain ⟨w', hw', r2, n2⟩ := h4 j hj hj'
  rw [← n1, ← n2, ← r1, ← r2]
  obtain ⟨a, b⟩ := inv_unique h1 hw hw'
  rw [a, b]

/-- **C33, which wrapper**: every placeholder is given a name, and there is exactly one wrapper
method of that name; it reports exactly the placeholder's text and evaluates the code of the
first placeholder with that text. -/
theorem C33_wrapper_belongs_to_text (ps : List (Str × Str)) :
    (addAll State.init ps).2.length = ps.length ∧
    ∀ i (h : i < ps.length) (h' : i < (addAll State.init ps).2.length),
      ∃ w ∈ (addAll State.init ps).1.wrappers, w.name = (addAll State.init ps).2[i] ∧ w.raw = ps[i].2 ∧
        (∀ w' ∈ (addAll State.init ps).1.wrappers, w'.name = (addAll State.init ps).2[i] → w' = w) ∧
        ∃ code, firstCode ps[i].2 ps = some code ∧ w.evalArgs = c!"'''" ++ code ++ c!"''', globals(), localsDict)" := by
  obtain ⟨h1, ⟨more, hm1, hm2⟩, h3, h4⟩ := addAll_spec ps _ inv_init
  refine ⟨h3, fun i h h' => ?_⟩
  obtain ⟨w, hw, r1, n1⟩ := h4 i h h'
  refine ⟨w, hw, n1, r1, fun w' hw' hn => ?_, ?_⟩
  · exact ((inv_unique h1 hw' hw).2.1 (by rw [hn, n1]))
  · rw [hm1] at hw
    simp only [State.init, List.nil_append] at hw
    obtain ⟨-, code, h5, h6⟩ := hm2 w hw
    exact ⟨code, by rw [← r1]; exact h5, h6⟩

/-- **C33, the code is the placeholder's own** - needs equal texts to have been compiled to equal
code, which holds unless the compiler settings change in between
(`C33_changed_settings_counterexample`). -/
theorem C33_own_code_partial (ps : List (Str × Str))
    (hf : ∀ p ∈ ps, ∀ q ∈ ps, p.2 = q.2 → p.1 = q.1)
    (i : Nat) (h : i < ps.length) (h' : i < (addAll State.init ps).2.length) :
    ∃ w ∈ (addAll State.init ps).1.wrappers, w.name = (addAll State.init ps).2[i] ∧
      w.evalArgs = c!"'''" ++ ps[i].1 ++ c!"''', globals(), localsDict)" := by
  obtain ⟨w, hw, hn, -, -, code, hc, he⟩ := (C33_wrapper_belongs_to_text ps).2 i h h'
  refine ⟨w, hw, hn, ?_⟩
  have key : ∀ (qs : List (Str × Str)) (r c : Str), firstCode r qs = some c → (c, r) ∈ qs := by
    intro qs r c
    induction qs with
    | nil => simp [firstCode]
    | cons q qs ih =>
      obtain ⟨a, b⟩ := q
      simp only [firstCode]
      split
      · next e => intro h; simp at h; simp [e, h]
      · intro h; exact List.mem_cons_of_mem _ (ih h)
  have := hf _ (key _ _ _ hc) _ (List.getElem_mem h) rfl
  simp only at this
  rw [he, this]

/-! ### The evaluated source -/

/-- A text that a triple-quoted literal contains as it is. -/
def Plain (s : Str) : Prop :=
  (∀ c ∈ s, c ≠ '\\' ∧ c ≠ '\r' ∧ c.toNat ≠ 0) ∧ containsStr c!"'''" s = false ∧ s.getLast? ≠ some '\''

theorem startsWith_append_of {p s t : Str} (h : startsWith s p = true) : startsWith (s ++ t) p = true := by
  unfold startsWith at *
  induction p generalizing s with
  | nil => cases s <;> simp [stripPrefix?]
  | cons a p ih =>
    cases s with
    | nil => simp [stripPrefix?] at h
    | cons b s =>
      simp only [List.cons_append, stripPrefix?] at *
      by_cases e : a = b
      · simp only [e, if_true] at *; exact ih h
      · simp [e] at h

theorem lex_plain (s : Str) (hs : Plain s) (rest : Str) : ∀ n, s.length < n →
    lexBody '\'' n (s ++ (c!"'''" ++ rest)) = some (s, rest) := by
  induction s with
  | nil =>
    intro n hn
    cases n with
    | zero => simp at hn
    | succ n => simp [lexBody, lexStep, startsWith, stripPrefix?]
  | cons c s ih =>
    intro n hn
    cases n with
    | zero => simp at hn
    | succ n =>
      obtain ⟨h1, h2, h3⟩ := hs
      obtain ⟨hb, hr, h0⟩ := h1 c (by simp)
      have hq : ¬ (c = '\'' ∧ startsWith (s ++ (c!"'''" ++ rest)) ['\'', '\''] = true) := by
        rintro ⟨rfl, hst⟩
        match s, h2, h3, hst with
        | [], _, h3, _ => simp at h3
        | [d], _, h3, hst =>
          simp only [startsWith, List.cons_append, stripPrefix?] at hst
          by_cases e : '\'' = d
          · subst e; simp at h3
          · simp [e] at hst
        | d :: e :: s, h2, _, hst =>
          have : startsWith ('\'' :: d :: e :: s) c!"'''" = true := by
            simp only [startsWith, List.cons_append, stripPrefix?, if_true] at *
            by_cases e1 : '\'' = d
            · simp only [e1, if_true] at *
              by_cases e2 : d = e
              · simp [e2]
              · simp [e2] at hst
            · simp [e1] at hst
          rw [containsStr, this] at h2
          simp at h2
      have hs' : Plain s := by
        refine ⟨fun x hx => h1 x (by simp [hx]), ?_, ?_⟩
        · rw [containsStr, Bool.or_eq_false_iff] at h2; exact h2.2
        · cases s with
          | nil => simp
          | cons d s => simpa using h3
      have := ih hs' n (by simpa using hn)
      rw [List.cons_append, lexBody, lexStep, if_neg hq, if_neg hb, if_neg hr, if_neg h0]
      simp only [this]
      rfl

/-- **C33, the wrapper evaluates the code** - the full claim is that it does for every code.
Proved: for code without backslashes, carriage returns and null characters, without three
single quotes in a row and not ending in a single quote, the literal passed to `eval` is the code. -/
theorem C33_evaluates_code_partial (code : Str) (h : Plain code) :
    lexTriple (c!"'''" ++ code ++ c!"''', globals(), localsDict)") = some (code, c!", globals(), localsDict)") := by
  have := lex_plain code h c!", globals(), localsDict)"
    ((code ++ (c!"'''" ++ c!", globals(), localsDict)")).length + 1) (by simp; omega)
  simp only [List.cons_append, List.nil_append, List.append_assoc, lexTriple]
  simpa using this

/-- An escape in a string argument is evaluated twice: for `$f("\n")` the text passed to `eval`
has a line break inside the quotes. -/
theorem C33_escape_counterexample :
    lexTriple (c!"'''f(\"" ++ ['\\', 'n'] ++ c!"\")''', globals(), localsDict)") =
      some (c!"f(\"" ++ ['\n'] ++ c!"\")", c!", globals(), localsDict)") := by decide +kernel

/-- The same text compiled to different code, as after `#compiler-settings`, still calls the first
wrapper. -/
theorem C33_changed_settings_counterexample :
    (addAll State.init [(c!"VFN(a,\"b\",True)", c!"$a.b"), (c!"a.b", c!"$a.b")]).2 =
      [c!"__errorCatcher1", c!"__errorCatcher1"] ∧
    (addAll State.init [(c!"VFN(a,\"b\",True)", c!"$a.b"), (c!"a.b", c!"$a.b")]).1.wrappers.length = 1 := by
  decide +kernel

/-! ### Running a wrapper -/

/-- **C33, transparency**: a found value comes back unchanged, any other exception than a missing
name goes through, whatever the catcher. -/
theorem C33_transparent {Obj : Type} (c : Catcher) (raw : Str) (errors : List Str) (v : Obj) (e : Exc)
    (he : ∀ m, e ≠ .notFound m) :
    call c raw errors (.ok v) = (.value v, errors) ∧ call c raw errors (.error e : Except Exc Obj) = (.raised e, errors) := by
  refine ⟨rfl, ?_⟩
  unfold call
  split
  · simp at *
  · next h => simp at h; exact absurd h (he _)
  · next h => simp at h; rw [h]

/-- **C33, missing names**: `Echo` shows the placeholder's text, `BigEcho` shows it with marks,
`ListErrors` shows it and adds one entry to its list. -/
theorem C33_missing_name {Obj : Type} (raw msg : Str) (errors : List Str) :
    call .echo raw errors (.error (.notFound msg) : Except Exc Obj) = (.text raw, errors) ∧
    call .bigEcho raw errors (.error (.notFound msg) : Except Exc Obj) =
      (.text (c!"===============&lt;" ++ raw ++ c!" could not be found&gt;==============="), errors) ∧
    call .listErrors raw errors (.error (.notFound msg) : Except Exc Obj) = (.text raw, errors ++ [raw]) :=
  ⟨rfl, rfl, rfl⟩

/-- The `KeyError` catcher does not raise a KeyError: the class hides the built-in of that name, and
raising one of its instances is a TypeError. -/
theorem C33_keyError_counterexample {Obj : Type} (raw msg : Str) :
    (call .keyError raw [] (.error (.notFound msg) : Except Exc Obj)).1 = .typeError := rfl

example : (addAll State.init [(c!"x", c!"$x"), (c!"y", c!"$y"), (c!"x", c!"$x")]).2 =
    [c!"__errorCatcher1", c!"__errorCatcher2", c!"__errorCatcher1"] := by decide +kernel
example : Plain c!"VFFSL(SL,\"a.b\",True)" := by
  refine ⟨by decide, by decide +kernel, by decide⟩

end Cheetah.ErrorCatcher
