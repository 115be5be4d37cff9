import Verif.Props.Driver
/-
C72: `#import` and `#extends`. What is imported where, and which class a template is derived from.
-/
namespace Cheetah.Driver
open Parser (Cmd)

/-! ### Specification -/

/-- A Python name. -/
def PyName (k : Str) : Prop := k ≠ [] ∧ ∀ c ∈ k, c.isAlphanum = true ∨ c = '_'

/-- A dotted name with these parts. -/
def dotted (ks : List Str) : Str := joinStr c!"." ks

/-- The parts of a dotted name. -/
def Parts (ks : List Str) : Prop := ks ≠ [] ∧ ∀ k ∈ ks, PyName k

/-- What an import statement imports: a dotted name and perhaps the name it gets. -/
structure Item where
  what : List Str
  as_ : Option Str := none

/-- An item as it is written. -/
def Item.text (i : Item) : Str := c!" " ++ dotted i.what ++ match i.as_ with | some a => c!" as " ++ a | none => []

/-- Import statements: `import a.b, c as d`, `from m import x, y as z`, `from m import *`. -/
inductive Imp where
  | modules (items : List Item)
  | names (m : List Str) (items : List Item)
  | everything (m : List Str)

/-- The text of an import statement. -/
def Imp.text : Imp → Str
  | .modules items => c!"import" ++ joinStr c!"," (items.map Item.text)
  | .names m items => c!"from " ++ dotted m ++ c!" import" ++ joinStr c!"," (items.map Item.text)
  | .everything m => c!"from " ++ dotted m ++ c!" import *"

/-- The parts are names, and something is imported; `from` imports plain names. -/
def Imp.Good : Imp → Prop
  | .modules items => items ≠ [] ∧ ∀ i ∈ items, Parts i.what ∧ ∀ a, i.as_ = some a → PyName a
  | .names m items => Parts m ∧ items ≠ [] ∧ ∀ i ∈ items, Parts i.what ∧ i.what.length = 1 ∧ ∀ a, i.as_ = some a → PyName a
  | .everything m => Parts m

/-- The variables Python binds when it executes the statement: the new name, else the first part. -/
def Imp.binds : Imp → List Str
  | .modules items | .names _ items => items.map fun i => i.as_.getD (i.what.headD [])
  | .everything _ => []

/-- The names as the template's author wrote them, or renamed them. -/
def Imp.given : Imp → List Str
  | .modules items | .names _ items => items.map fun i => i.as_.getD (dotted i.what)
  | .everything _ => []

/-- The variables that the import statements at the top of every generated module bind (Compiler.py 1758-1783). -/
def boundAtStart : List Str :=
  [c!"sys", c!"os", c!"builtin", c!"getmtime", c!"exists", c!"time", c!"types", c!"RequiredCheetahVersion", c!"RequiredCheetahVersionTuple",
   c!"Template", c!"DummyTransaction", c!"NotFound", c!"valueForName", c!"valueFromSearchList", c!"valueFromFrameOrSearchList",
   c!"CacheRegion", c!"Filters", c!"ErrorCatchers", c!"unicode"]

/-- The names, as written, of what every module imports. -/
def givenAtStart : List Str :=
  [c!"sys", c!"os", c!"os.path", c!"time", c!"types", c!"Template", c!"DummyTransaction", c!"NotFound", c!"Filters", c!"ErrorCatchers",
   c!"CacheRegion"]

/-- The import directives among the commands. -/
def importsIn (cmds : List Cmd) : List Str :=
  cmds.filterMap fun
    | .simple n e => if n = c!"import" ∨ n = c!"from" then some e else none
    | _ => none

/-- The name of a class: the last part. -/
def className (ks : List Str) : Str := ks.getLastD []

/-- The module of a class, by the rule in the users' guide: a class `C` is in a module `C`. The name may leave the module out,
`a.C` for `a.C.C`. -/
def moduleParts : List Str → List Str
  | [] => []
  | [k] => [k]
  | [m, k] => if m = k then [m] else [m, k]
  | a :: b :: c :: ks => a :: moduleParts (b :: c :: ks)

/-- The imports that `#extends` adds: none for a plain name that is known. -/
def addedImports : List Str → List (List Str) → List Imp
  | _, [] => []
  | known, ks :: kss =>
    if ks.length = 1 ∧ className ks ∈ known then addedImports known kss
    else .names (moduleParts ks) [⟨[className ks], none⟩] :: addedImports (known ++ [className ks]) kss

/-- No part of the dotted name, from its start, is among the names, nor is the whole. -/
def Unseen (known : List Str) (ks : List Str) : Prop :=
  2 ≤ ks.length → ∀ n, 1 ≤ n → n ≤ ks.length → dotted (ks.take n) ∉ known

/-- The same for each class of a list; the classes before it are known. -/
def AllUnseen : List Str → List (List Str) → Prop
  | _, [] => True
  | known, ks :: kss => Unseen known ks ∧ AllUnseen (known ++ [className ks]) kss

/-! ### Lemmas -/

/-- The commands that leave the imports alone do so. -/
def Keeps (c : CC) (r : Except Fail CC) : Prop :=
  ∀ c', r = .ok c' → c'.imports = c.imports ∧ c'.imported = c.imported ∧
    ((Dict.get c.index c.mainName).isSome → (Dict.get c'.index c'.mainName).isSome)

theorem Keeps.refl {c : CC} : Keeps c (.ok c) := by
  intro c' h; cases h; exact ⟨rfl, rfl, id⟩

theorem Keeps.fail {c : CC} {e : Fail} : Keeps c (.error e) := fun _ h => nomatch h

theorem Keeps.bind {c : CC} {r : Except Fail CC} {k : CC → Except Fail CC} (h : Keeps c r) (hk : ∀ d, Keeps d (k d)) : Keeps c (r >>= k) := by
  intro c' h2
  cases r with
  | error e => cases h2
  | ok d =>
    obtain ⟨a1, a2, a3⟩ := h d rfl
    obtain ⟨b1, b2, b3⟩ := hk d c' h2
    exact ⟨b1.trans a1, b2.trans a2, fun h => b3 (a3 h)⟩

/-- What is the same in a changed state. -/
theorem Keeps.of {c d : CC} {r : Except Fail CC} (h : Keeps d r) (h1 : d.imports = c.imports) (h2 : d.imported = c.imported)
    (h3 : (Dict.get c.index c.mainName).isSome → (Dict.get d.index d.mainName).isSome) : Keeps c r := by
  intro c' hr
  obtain ⟨a1, a2, a3⟩ := h c' hr
  exact ⟨a1.trans h1, a2.trans h2, fun h => a3 (h3 h)⟩

theorem onTop_keeps {c : CC} {k : Meth → Except Fail Meth} : Keeps c (c.onTop k) := by
  unfold CC.onTop
  cases c.active with
  | nil => exact Keeps.fail
  | cons m ms =>
    intro c' h
    simp only [bind, Except.bind] at h
    cases hk : k m with
    | error e => rw [hk] at h; cases h
    | ok m' => rw [hk] at h; cases h; exact ⟨rfl, rfl, id⟩

theorem top_keeps {c : CC} {k : Meth → Meth} : Keeps c (c.top k) := onTop_keeps

theorem swallow_keeps {cf : Cf} {c : CC} {m : Meth} : Keeps c (c.swallow cf m) := by
  intro c' h
  unfold CC.swallow at h
  simp only [bind, Except.bind] at h
  cases hk : m.finish cf with
  | error e => rw [hk] at h; cases h
  | ok m' => rw [hk] at h; cases h; exact ⟨rfl, rfl, id⟩

theorem setMainName_keeps {c : CC} {n : Str} : Keeps c (c.setMainName n) := by
  unfold CC.setMainName
  split
  · exact Keeps.refl
  · rename_i hne
    cases hg : Dict.get c.index c.mainName with
    | none => exact Keeps.fail
    | some u =>
      intro c' h
      cases h
      refine ⟨rfl, rfl, fun _ => ?_⟩
      show (Dict.get (Dict.del (Dict.set c.index n u) c.mainName) n).isSome
      rw [Dict.get_del_ne _ hne, Dict.get_set_self]
      rfl

theorem setMainArgs_keeps {c : CC} {as : List (Str × Option Str)} : Keeps c (c.setMainArgs as) := by
  unfold CC.setMainArgs
  cases hg : Dict.get c.index c.mainName with
  | none => exact Keeps.fail
  | some u => intro c' h; cases h; exact ⟨rfl, rfl, id⟩

theorem wrapExpr_keeps {c : CC} {e raw : Str} {k : Str → Meth → Except Fail Meth} :
    Keeps c ((c.wrapExpr e raw).2.onTop (k (c.wrapExpr e raw).1)) := by
  have : (c.wrapExpr e raw).2.imports = c.imports ∧ (c.wrapExpr e raw).2.imported = c.imported ∧
      (c.wrapExpr e raw).2.index = c.index ∧ (c.wrapExpr e raw).2.mainName = c.mainName := by
    unfold CC.wrapExpr
    cases c.active with
    | nil => exact ⟨rfl, rfl, rfl, rfl⟩
    | cons m ms =>
      show (if _ then _ else _ : Str × CC).2.imports = _ ∧ (if _ then _ else _ : Str × CC).2.imported = _ ∧ (if _ then _ else _ : Str × CC).2.index = _ ∧
        (if _ then _ else _ : Str × CC).2.mainName = _
      split <;> exact ⟨rfl, rfl, rfl, rfl⟩
  exact onTop_keeps.of this.1 this.2.1 (by rw [this.2.2.1, this.2.2.2]; exact id)

theorem placeholder_keeps {cf : Cf} {c : CC} {e raw : Str} {fa : Option Str} {tok : Interval.Token} {silent : Bool} :
    Keeps c (c.placeholder cf e raw fa tok silent) := by
  unfold CC.placeholder
  cases Interval.genCacheInfo tok with
  | error er => exact Keeps.fail
  | ok info =>
    simp only
    cases CC.infoOf info with
    | none => exact wrapExpr_keeps (k := fun e => CC.placeLines cf e (fa.getD []) raw silent)
    | some interval =>
      simp only
      refine Keeps.bind ?_ fun d => ?_
      · exact onTop_keeps.of rfl rfl id
      · exact Keeps.bind (wrapExpr_keeps (k := fun e => CC.placeLines cf e (fa.getD []) raw silent)) fun d => onTop_keeps

theorem startCache_keeps {cf : Cf} {c : CC} {as : List (Str × Option Str)} : Keeps c (c.startCache cf as) := by
  unfold CC.startCache
  cases CC.argVals as with
  | error e => exact Keeps.fail
  | ok vs =>
    simp only [bind, Except.bind]
    cases Interval.fromArgList vs with
    | error e => exact Keeps.fail
    | ok d => exact onTop_keeps.of rfl rfl id

theorem closeDef_keeps {cf : Cf} {c : CC} : Keeps c (c.closeDef cf) := by
  unfold CC.closeDef
  cases c.active with
  | nil => exact Keeps.fail
  | cons m ms => exact swallow_keeps.of rfl rfl id

theorem closeBlock_keeps {cf : Cf} {c : CC} : Keeps c (c.closeBlock cf) := by
  unfold CC.closeBlock
  cases c.active with
  | nil => exact Keeps.fail
  | cons m ms => exact Keeps.bind (swallow_keeps.of rfl rfl id) fun d => top_keeps

/-- Only `#import`, `#from` and `#extends` have to do with imports. -/
theorem step_keeps {cf : Cf} {k : Cmd} {c : CC} (h1 : ∀ n e, k = .simple n e → ¬ (n = c!"import" ∨ n = c!"from"))
    (h2 : ∀ e, k ≠ .extends_ e) : Keeps c (CC.step cf k c) := by
  cases k with
  | strConst s => exact top_keeps
  | raw s => exact top_keeps
  | comment s =>
    show Keeps c (if _ then _ else _)
    split
    · exact Keeps.refl
    · exact top_keeps
  | handleWS => exact top_keeps
  | commit => exact top_keeps
  | placeholder e raw fa tok silent => exact placeholder_keeps
  | psp s => exact onTop_keeps
  | indenting n e => exact top_keeps
  | reindenting n e d => exact onTop_keeps
  | ternary a b e => exact onTop_keeps
  | dedent => exact onTop_keeps
  | simple n e =>
    show Keeps c (c.simple cf n e)
    unfold CC.simple
    split
    · exact top_keeps
    split
    · exact top_keeps
    split
    · exact onTop_keeps
    split
    · exact onTop_keeps
    split
    · rename_i h; exact absurd h (h1 n e rfl)
    · exact top_keeps
  | set l op r style =>
    show Keeps c (match SetDirective.addSet l op r _ with | .inMethod t => _ | .inModule t => _)
    split
    · exact top_keeps
    · exact Keeps.refl.of rfl rfl id
  | include_ e a b => exact top_keeps
  | startCall f a => exact top_keeps.of rfl rfl id
  | endCall => exact onTop_keeps
  | callArg n => exact onTop_keeps
  | startCapture e => exact top_keeps.of rfl rfl id
  | endCapture => exact onTop_keeps
  | startCache as => exact startCache_keeps
  | endCache => exact onTop_keeps
  | setFilter g k => exact onTop_keeps.of rfl rfl id
  | closeFilter => exact onTop_keeps
  | setTransform g k => exact top_keeps
  | errorCatcher n => exact onTop_keeps
  | errorCatcherOff => exact top_keeps
  | startMethod n as =>
    intro c' h
    cases h
    refine ⟨rfl, rfl, fun h => ?_⟩
    show (Dict.get (Dict.set c.index n c.next) c.mainName).isSome
    by_cases hn : c.mainName = n
    · rw [hn, Dict.get_set_self]; rfl
    · rw [Dict.get_set_ne _ _ hn]; exact h
  | addClosure n as => exact top_keeps
  | closeDef => exact closeDef_keeps
  | closeBlock => exact closeBlock_keeps
  | attr n e =>
    show Keeps c (if _ then _ else _)
    split
    · exact Keeps.fail
    · exact Keeps.refl.of rfl rfl id
  | decorator e => exact Keeps.refl.of rfl rfl id
  | extends_ e => exact absurd rfl (h2 e)
  | implements_ n as => exact Keeps.bind setMainName_keeps fun d => setMainArgs_keeps
  | super as =>
    show Keeps c (match c.active with | [] => _ | m :: _ => _)
    cases c.active with
    | nil => exact Keeps.fail
    | cons m ms => exact top_keeps
  | shBang s => exact Keeps.refl.of rfl rfl id
  | encoding s => exact Keeps.refl.of rfl rfl id

/-- With `useLegacyImportMode` an import statement goes to the top of the module and its names are noted. -/
theorem import_legacy {cf : Cf} {c c' : CC} {e : Str} (hl : cf.legacyImports = true) (h : c.import_ cf e = .ok c') :
    c' = { c with imports := c.imports ++ [e], imported := c.imported ++
      ((splitCh ',' ((CC.afterImport (e.length + 1) e).getD (e.drop 5))).map CC.lastWord).filter (· ≠ c!"*") } := by
  unfold CC.import_ at h
  simp only [hl, Bool.or_true, if_true] at h
  split at h
  · cases h
  · unfold CC.addImported at h
    simp only [hl, if_true] at h
    split at h
    · rename_i h2
      cases h
      rw [h2]
      simp
    · cases h; rfl

/-! ### Imports go to the top of the module -/

/-- With the default settings every `#import` and `#from` becomes a statement at the top of the generated module, once and in the order of
the directives, wherever it is written: in a loop, a `#def` or a `#block`. -/
theorem C72_imports_at_the_top (cf : Cf) (hl : cf.legacyImports = true) (cmds : List Cmd) (hx : ∀ e, Cmd.extends_ e ∉ cmds) (c : CC)
    (h : CC.steps cf cmds (CC.start cf) = .ok c) : c.imports = importsIn cmds := by
  have key : ∀ (cmds : List Cmd) (d : CC), (∀ e, Cmd.extends_ e ∉ cmds) → CC.steps cf cmds d = .ok c → c.imports = d.imports ++ importsIn cmds := by
    intro cmds
    induction cmds with
    | nil => intro d _ h; cases h; simp [importsIn]
    | cons k ks ih =>
      intro d hx h
      rw [CC.steps] at h
      simp only [bind, Except.bind] at h
      cases hk : CC.step cf k d with
      | error e => rw [hk] at h; cases h
      | ok d' =>
        rw [hk] at h
        rw [ih d' (fun e he => hx e (List.mem_cons_of_mem _ he)) h]
        by_cases hi : ∃ n e, k = .simple n e ∧ (n = c!"import" ∨ n = c!"from")
        · obtain ⟨n, e, rfl, hn⟩ := hi
          have : d.import_ cf e = .ok d' := by
            rw [← hk]
            rcases hn with rfl | rfl <;> rfl
          rw [import_legacy hl this]
          simp [importsIn, hn]
        · have h1 : ∀ n e, k = .simple n e → ¬ (n = c!"import" ∨ n = c!"from") := fun n e h1 h2 => hi ⟨n, e, h1, h2⟩
          rw [(step_keeps h1 (fun e he => hx e (by simp [he])) d' hk).1]
          have : importsIn (k :: ks) = importsIn ks := by
            unfold importsIn
            rw [List.filterMap_cons]
            cases k with
            | simple n e => simp [h1 n e rfl]
            | _ => rfl
          rw [this]
  simpa [CC.start, CC.spawn] using key cmds (CC.start cf) hx h

example : ((CC.steps demoCf [.indenting c!"for" c!"for x in y", .simple c!"import" c!"import a.b as c", .dedent, .simple c!"from" c!"from m import d, e"]
    (CC.start demoCf)).toOption.map (·.imports)) = some [c!"import a.b as c", c!"from m import d, e"] := by decide +kernel


/-! ### The names that are noted -/

theorem pyChar_space {c : Char} (h : c.isAlphanum = true ∨ c = '_') : isSpace c = false ∧ c ≠ ',' ∧ c ≠ '.' ∧ c ≠ '*' ∧ c ≠ ' ' := by
  have hv : ∀ n : Nat, n < 128 → ∀ c : Char, c.toNat = n → (c.isAlphanum = true ∨ c = '_') →
      isSpace c = false ∧ c ≠ ',' ∧ c ≠ '.' ∧ c ≠ '*' ∧ c ≠ ' ' := by
    intro n hn c hc h
    have : c = Char.ofNat n := by rw [← hc, Char.ofNat_toNat]
    subst this
    clear hc
    revert h
    revert n
    decide +kernel
  refine hv c.toNat ?_ c rfl h
  rcases h with h | rfl
  · simp only [Char.isAlphanum, Char.isAlpha, Char.isUpper, Char.isLower, Char.isDigit, Bool.or_eq_true, Bool.and_eq_true, decide_eq_true_eq,
      ge_iff_le, UInt32.le_iff_toNat_le] at h
    have e : c.toNat = c.val.toNat := rfl
    rw [e]
    rcases h with ((⟨_, h⟩ | ⟨_, h⟩) | ⟨_, h⟩) <;> exact Nat.lt_of_le_of_lt h (by decide)
  · decide

theorem dotted_mem {ks : List Str} {c : Char} (h : c ∈ dotted ks) : c = '.' ∨ ∃ k ∈ ks, c ∈ k := by
  unfold dotted at h
  induction ks with
  | nil => cases h
  | cons k ks ih =>
    cases ks with
    | nil => exact .inr ⟨k, by simp, h⟩
    | cons l ks =>
      rw [joinStr] at h
      rcases List.mem_append.1 h with h | h
      · rcases List.mem_append.1 h with h | h
        · exact .inr ⟨k, by simp, h⟩
        · exact .inl (by simpa using h)
      · rcases ih h with h | ⟨q, h1, h2⟩
        · exact .inl h
        · exact .inr ⟨q, List.mem_cons_of_mem _ h1, h2⟩

theorem dotted_char {ks : List Str} (h : Parts ks) {c : Char} (hc : c ∈ dotted ks) : isSpace c = false ∧ c ≠ ',' ∧ c ≠ '*' ∧ c ≠ ' ' := by
  rcases dotted_mem hc with rfl | ⟨k, h1, h2⟩
  · decide +kernel
  · obtain ⟨a, b, _, d, e⟩ := pyChar_space ((h.2 k h1).2 c h2)
    exact ⟨a, b, d, e⟩

theorem dotted_ne_nil {ks : List Str} (h : Parts ks) : dotted ks ≠ [] := by
  obtain ⟨h1, h2⟩ := h
  cases ks with
  | nil => exact absurd rfl h1
  | cons k ks =>
    have := (h2 k (by simp)).1
    cases ks with
    | nil => exact this
    | cons l ks =>
      unfold dotted
      rw [joinStr]
      simp

/-- The last word of a text that ends with it. -/
theorem lastWord_end {y w : Str} (hw : w ≠ []) (hs : ∀ c ∈ w, isSpace c = false) (hy : y = [] ∨ ∃ z, y = z ++ c!" ") : CC.lastWord (y ++ w) = w := by
  have hr : rstrip (y ++ w) = y ++ w := by
    refine rstrip_eq_self fun c hc => ?_
    rw [List.getLast?_append_of_ne_nil _ hw] at hc
    exact hs c (List.mem_of_getLast? hc)
  unfold CC.lastWord
  rw [hr, List.reverse_append]
  have h1 : ∀ (a b : Str), (∀ c ∈ a, isSpace c = false) → (b = [] ∨ ∃ z, b = ' ' :: z) →
      (a ++ b).takeWhile (fun c => !isSpace c) = a := by
    intro a b ha hb
    induction a with
    | nil =>
      rcases hb with rfl | ⟨z, rfl⟩
      · rfl
      · rw [List.nil_append, List.takeWhile_cons, if_neg (by decide +kernel)]
    | cons c a ih =>
      rw [List.cons_append, List.takeWhile_cons, if_pos (by simp [ha c (by simp)]), ih fun c hc => ha c (List.mem_cons_of_mem _ hc)]
  rw [h1 _ _ (fun c hc => hs c (List.mem_reverse.1 hc))]
  · simp
  · rcases hy with rfl | ⟨z, rfl⟩
    · left; rfl
    · right; exact ⟨z.reverse, by simp⟩

theorem item_last {i : Item} (h : Parts i.what) (ha : ∀ a, i.as_ = some a → PyName a) (y : Str) :
    CC.lastWord (y ++ i.text) = i.as_.getD (dotted i.what) ∧ CC.blankName (y ++ i.text) = false ∧ ',' ∉ i.text := by
  unfold Item.text
  cases hi : i.as_ with
  | none =>
    have e : y ++ (c!" " ++ dotted i.what ++ []) = (y ++ c!" ") ++ dotted i.what := by simp
    refine ⟨?_, ?_, ?_⟩
    · rw [e]; exact lastWord_end (dotted_ne_nil h) (fun c hc => (dotted_char h hc).1) (.inr ⟨y, rfl⟩)
    · unfold CC.blankName
      rw [List.all_eq_false]
      obtain ⟨c, hc⟩ := List.exists_mem_of_ne_nil _ (dotted_ne_nil h)
      exact ⟨c, by simp [hc], by simp [(dotted_char h hc).1]⟩
    · intro hm
      simp at hm
      exact (dotted_char h hm).2.1 rfl
  | some a =>
    have hp := ha a hi
    have e : y ++ (c!" " ++ dotted i.what ++ (c!" as " ++ a)) = (y ++ c!" " ++ dotted i.what ++ c!" as" ++ c!" ") ++ a := by simp
    refine ⟨?_, ?_, ?_⟩
    · show CC.lastWord (y ++ (c!" " ++ dotted i.what ++ (c!" as " ++ a))) = a
      rw [e]; exact lastWord_end hp.1 (fun c hc => (pyChar_space (hp.2 c hc)).1) (.inr ⟨_, rfl⟩)
    · show CC.blankName (y ++ (c!" " ++ dotted i.what ++ (c!" as " ++ a))) = false
      unfold CC.blankName
      rw [List.all_eq_false]
      obtain ⟨c, hc⟩ := List.exists_mem_of_ne_nil _ hp.1
      exact ⟨c, by simp [hc], by simp [(pyChar_space (hp.2 c hc)).1]⟩
    · intro hm
      simp at hm
      rcases hm with hm | hm
      · exact (dotted_char h hm).2.1 rfl
      · exact (pyChar_space (hp.2 _ hm)).2.1 rfl

/-- The text that names are taken from. -/
def tail (e : Str) : Str := (CC.afterImport (e.length + 1) e).getD (e.drop 5)

theorem joinStr_head {y : Str} {p : Str} {ps : List Str} : y ++ joinStr c!"," (p :: ps) = joinStr c!"," ((y ++ p) :: ps) := by
  cases ps with
  | nil => rfl
  | cons q ps => rw [joinStr, joinStr]; simp

theorem names_of_items {items : List Item} (hne : items ≠ []) (hg : ∀ i ∈ items, Parts i.what ∧ ∀ a, i.as_ = some a → PyName a)
    {y : Str} (hy : ',' ∉ y) :
    (splitCh ',' (y ++ joinStr c!"," (items.map Item.text))).map CC.lastWord = items.map (fun i => i.as_.getD (dotted i.what)) ∧
    (splitCh ',' (y ++ joinStr c!"," (items.map Item.text))).any CC.blankName = false := by
  cases items with
  | nil => exact absurd rfl hne
  | cons i is =>
    rw [List.map_cons, joinStr_head, splitCh_join (by simp)]
    · have hlast : ∀ j ∈ is, CC.lastWord j.text = j.as_.getD (dotted j.what) ∧ CC.blankName j.text = false := by
        intro j hj
        have := item_last (hg j (List.mem_cons_of_mem _ hj)).1 (hg j (List.mem_cons_of_mem _ hj)).2 []
        exact ⟨this.1, this.2.1⟩
      obtain ⟨h1, h2, _⟩ := item_last (hg i (by simp)).1 (hg i (by simp)).2 y
      constructor
      · rw [List.map_cons, List.map_cons, h1, List.map_map]
        congr 1
        exact List.map_congr_left fun j hj => (hlast j hj).1
      · rw [List.any_cons, h2, Bool.false_or, List.any_map, List.any_eq_false]
        intro j hj
        simp [(hlast j hj).2]
    · intro p hp
      rcases List.mem_cons.1 hp with rfl | hp
      · intro h
        rcases List.mem_append.1 h with h | h
        · exact hy h
        · exact (item_last (hg i (by simp)).1 (hg i (by simp)).2 []).2.2 h
      · obtain ⟨j, hj, rfl⟩ := List.mem_map.1 hp
        exact (item_last (hg j (List.mem_cons_of_mem _ hj)).1 (hg j (List.mem_cons_of_mem _ hj)).2 []).2.2

theorem afterImport_sub : ∀ (n : Nat) (s r : Str), CC.afterImport n s = some r → ∃ u, s = u ++ r := by
  intro n
  induction n with
  | zero => intro s r h; cases h
  | succ n ih =>
    intro s r h
    cases s with
    | nil => cases h
    | cons a s =>
      rw [CC.afterImport] at h
      cases hr : stripPrefix? c!"import" (a :: s) with
      | none =>
        rw [hr] at h
        obtain ⟨u, hu⟩ := ih s r h
        exact ⟨a :: u, by rw [hu]; rfl⟩
      | some t =>
        rw [hr] at h
        cases h
        exact ⟨_, stripPrefix?_some.1 hr⟩

theorem from_tail {m : List Str} (hm : Parts m) (b : Str) : ∃ y, ',' ∉ y ∧ tail (c!"from " ++ dotted m ++ c!" import" ++ b) = y ++ b := by
  have he : c!"from " ++ dotted m ++ c!" import" ++ b = (c!"from " ++ dotted m ++ c!" ") ++ c!"import" ++ b := by simp
  obtain ⟨y, h⟩ := afterImport_some (c!"from " ++ dotted m ++ c!" ") b ((c!"from " ++ dotted m ++ c!" import" ++ b).length + 1) (by simp)
  rw [← he] at h
  refine ⟨y, ?_, by rw [tail, h]; rfl⟩
  obtain ⟨u, hu⟩ := afterImport_sub _ _ _ h
  have h2 : c!"from " ++ dotted m ++ c!" import" = u ++ y := List.append_cancel_right (by rw [hu]; simp)
  intro hc
  have : ',' ∈ c!"from " ++ dotted m ++ c!" import" := by rw [h2]; simp [hc]
  simp at this
  exact (dotted_char hm this).2.1 rfl

/-- The names that are noted are those written. -/
theorem imp_given {i : Imp} (hg : i.Good) : ((splitCh ',' (tail i.text)).map CC.lastWord).filter (· ≠ c!"*") = i.given ∧
    (splitCh ',' (tail i.text)).any CC.blankName = false := by
  have hstar : ∀ items : List Item, (∀ i ∈ items, Parts i.what ∧ ∀ a, i.as_ = some a → PyName a) →
      (items.map (fun i => i.as_.getD (dotted i.what))).filter (· ≠ c!"*") = items.map (fun i => i.as_.getD (dotted i.what)) := by
    intro items h
    rw [List.filter_eq_self]
    intro s hs
    obtain ⟨i, hi, rfl⟩ := List.mem_map.1 hs
    obtain ⟨h1, h2⟩ := h i hi
    simp only [ne_eq, decide_not, Bool.not_eq_true', decide_eq_false_iff_not]
    intro he
    cases ha : i.as_ with
    | none =>
      rw [ha] at he
      have he : dotted i.what = c!"*" := he
      exact (dotted_char h1 (c := '*') (by rw [he]; simp)).2.2.1 rfl
    | some a =>
      rw [ha] at he
      have he : a = c!"*" := he
      exact (pyChar_space ((h2 a ha).2 '*' (by rw [he]; simp))).2.2.2.1 rfl
  cases i with
  | modules items =>
    obtain ⟨h1, h2⟩ := hg
    have ht : tail (Imp.modules items).text = [] ++ joinStr c!"," (items.map Item.text) := rfl
    obtain ⟨h3, h4⟩ := names_of_items h1 h2 (y := []) (by simp)
    rw [ht]
    exact ⟨by rw [h3]; exact hstar items h2, h4⟩
  | names m items =>
    obtain ⟨h1, h2, h3⟩ := hg
    have h3' : ∀ i ∈ items, Parts i.what ∧ ∀ a, i.as_ = some a → PyName a := fun i hi => ⟨(h3 i hi).1, (h3 i hi).2.2⟩
    obtain ⟨y, hy, ht⟩ := from_tail h1 (joinStr c!"," (items.map Item.text))
    obtain ⟨h4, h5⟩ := names_of_items h2 h3' hy
    have ht' : tail (Imp.names m items).text = y ++ joinStr c!"," (items.map Item.text) := ht
    rw [ht']
    exact ⟨by rw [h4]; exact hstar items h3', h5⟩
  | everything m =>
    obtain ⟨y, hy, ht⟩ := from_tail hg c!" *"
    have ht' : tail (Imp.everything m).text = (y ++ c!" ") ++ c!"*" := by
      rw [List.append_assoc, ← show (c!" *" : Str) = c!" " ++ c!"*" from rfl, ← ht]
      unfold Imp.text
      simp
    have hno : ',' ∉ (y ++ c!" ") ++ c!"*" := by simp [hy]
    rw [ht', splitCh_of_not_mem hno]
    have hl : CC.lastWord ((y ++ c!" ") ++ c!"*") = c!"*" := lastWord_end (by simp) (by decide +kernel) (.inr ⟨y, rfl⟩)
    refine ⟨?_, ?_⟩
    · rw [List.map_cons, hl]; rfl
    · have : isSpace '*' = false := by decide +kernel
      simp [CC.blankName, this]

theorem import_good_imp {cf : Cf} {c : CC} {i : Imp} (hl : cf.legacyImports = true) (hg : i.Good) :
    c.import_ cf i.text = .ok { c with imports := c.imports ++ [i.text], imported := c.imported ++ i.given } := by
  obtain ⟨h1, h2⟩ := imp_given hg
  cases h : c.import_ cf i.text with
  | ok c' => rw [import_legacy hl h]; unfold tail at h1; rw [h1]
  | error x =>
    exfalso
    unfold CC.import_ at h
    simp only at h
    unfold tail at h2
    rw [h2] at h
    simp only [Bool.false_eq_true, if_false] at h
    unfold CC.addImported at h
    simp only [hl, if_true] at h
    split at h <;> cases h

/-! ### The classes of `#extends` -/

theorem dotted_snoc {ks : List Str} (h : ks ≠ []) (k : Str) : dotted (ks ++ [k]) = dotted ks ++ c!"." ++ k := by
  unfold dotted
  induction ks with
  | nil => exact absurd rfl h
  | cons a ks ih =>
    cases ks with
    | nil => rfl
    | cons b ks =>
      have := ih (by simp)
      simp only [List.cons_append] at this ⊢
      rw [joinStr, joinStr, this]
      simp

theorem inImported_none {names : List Str} {klass : Str} : ∀ (chunks pre : List Str), pre ≠ [] →
    (∀ m, m < chunks.length → dotted (pre ++ chunks.take m) ∉ names) → CC.inImported names klass (dotted pre) chunks = none := by
  intro chunks
  induction chunks with
  | nil => intro pre _ _; rfl
  | cons k chunks ih =>
    intro pre hp h
    rw [CC.inImported, if_neg (by simpa using h 0 (by simp)), ← dotted_snoc hp k]
    refine ih (pre ++ [k]) (by simp) fun m hm => ?_
    have := h (m + 1) (by simpa using hm)
    rwa [List.take_succ_cons, ← List.singleton_append, ← List.append_assoc] at this

theorem moduleParts_rule : ∀ (ks : List Str), 2 ≤ ks.length →
    moduleParts ks = if ks.getLastD [] ≠ ks.dropLast.getLastD [] then ks else ks.dropLast
  | [], h => by simp at h
  | [_], h => by simp at h
  | [m, k], _ => by
    show (if m = k then [m] else [m, k]) = if k ≠ m then [m, k] else [m]
    by_cases h : m = k
    · rw [if_pos h, if_neg fun h2 => h2 h.symm]
    · rw [if_neg h, if_pos fun h2 => h h2.symm]
  | a :: b :: c :: ks, _ => by
    rw [moduleParts, moduleParts_rule (b :: c :: ks) (by simp)]
    have h1 : (a :: b :: c :: ks).getLastD [] = (b :: c :: ks).getLastD [] := by simp
    have h2 : (a :: b :: c :: ks).dropLast.getLastD [] = (b :: c :: ks).dropLast.getLastD [] := by simp
    rw [h1, h2]
    split <;> rfl

theorem parts_last {ks : List Str} (h : Parts ks) : PyName (className ks) := by
  unfold className
  obtain ⟨h1, h2⟩ := h
  rw [List.getLastD_eq_getLast?, List.getLast?_eq_some_getLast h1]
  exact h2 _ (List.getLast_mem h1)

theorem parts_module : ∀ {ks : List Str}, Parts ks → Parts (moduleParts ks)
  | [], h => h
  | [_], h => h
  | [m, k], h => by
    unfold moduleParts
    split
    · exact ⟨by simp, fun x hx => h.2 x (by simp at hx; simp [hx])⟩
    · exact h
  | a :: b :: c :: ks, h => by
    unfold moduleParts
    have := parts_module (ks := b :: c :: ks) ⟨by simp, fun x hx => h.2 x (List.mem_cons_of_mem _ hx)⟩
    exact ⟨by simp, fun x hx => by
      rcases List.mem_cons.1 hx with rfl | hx
      · exact h.2 _ (by simp)
      · exact this.2 x hx⟩

theorem split_dotted {ks : List Str} (h : Parts ks) : splitCh '.' (dotted ks) = ks :=
  splitCh_join h.1 fun k hk hm => (pyChar_space ((h.2 k hk).2 _ hm)).2.2.1 rfl

/-- The import that `#extends` adds for a class. -/
def classImp (ks : List Str) : Imp := .names (moduleParts ks) [⟨[className ks], none⟩]

theorem classImp_good {ks : List Str} (h : Parts ks) : (classImp ks).Good :=
  ⟨parts_module h, by simp, fun i hi => by
    simp only [List.mem_singleton] at hi
    subst hi
    exact ⟨⟨by simp, fun k hk => by simp only [List.mem_singleton] at hk; subst hk; exact parts_last h⟩, rfl, fun a ha => nomatch ha⟩⟩

theorem importClass_eq {cf : Cf} {c : CC} {ks : List Str} (hl : cf.legacyImports = true) (h : Parts ks) :
    c.importClass cf (dotted (moduleParts ks)) (className ks) =
      .ok { c with imports := c.imports ++ [(classImp ks).text], imported := c.imported ++ [className ks] ++ [className ks] } := by
  have ht : c!"from " ++ dotted (moduleParts ks) ++ c!" import " ++ className ks = (classImp ks).text := by
    simp [classImp, Imp.text, Item.text, dotted, joinStr]
  unfold CC.importClass
  rw [ht, import_good_imp hl (classImp_good h)]
  simp only [bind, Except.bind, CC.addImported, hl, if_true]
  rfl

/-- One class: what it is called in the class statement, and what is imported. -/
theorem oneBase_eq {cf : Cf} {c : CC} {ks known : List Str} (hl : cf.legacyImports = true) (h : Parts ks) (hk : ∀ s, s ∈ c.imported ↔ s ∈ known)
    (hu : Unseen known ks) :
    ∃ c', c.oneBase cf (dotted ks) = .ok (className ks, c') ∧
      c'.imports = c.imports ++ (if ks.length = 1 ∧ className ks ∈ known then [] else [(classImp ks).text]) ∧
      ∀ s, s ∈ c'.imported ↔ s ∈ known ++ [className ks] := by
  have hs := split_dotted h
  have hmem : ∀ s, s ∈ c.imported ++ [className ks] ++ [className ks] ↔ s ∈ known ++ [className ks] := by
    intro s
    simp only [List.mem_append, List.mem_singleton, hk]
    constructor
    · rintro ((h | h) | h) <;> simp [h]
    · rintro (h | h) <;> simp [h]
  unfold CC.oneBase
  rw [hs]
  cases ks with
  | nil => exact absurd rfl h.1
  | cons a l =>
    cases l with
    | nil =>
      dsimp only
      by_cases hm : a ∈ known
      · rw [if_pos (show dotted [a] ∈ c.imported from (hk _).2 hm)]
        refine ⟨c, rfl, ?_, ?_⟩
        · rw [if_pos ⟨rfl, hm⟩]; simp
        · intro s
          rw [hk]
          simp only [List.mem_append, List.mem_singleton]
          refine ⟨.inl, ?_⟩
          rintro (h | rfl)
          · exact h
          · exact hm
      · rw [if_neg (show ¬ dotted [a] ∈ c.imported from fun h => hm ((hk _).1 h))]
        have := importClass_eq (cf := cf) (c := c) hl h
        have hi : c.importClass cf (dotted [a]) (dotted [a]) = _ := this
        rw [hi]
        refine ⟨_, rfl, ?_, hmem⟩
        rw [if_neg fun h => hm h.2]
    | cons b l =>
      have hn : CC.inImported c.imported (dotted (a :: b :: l)) a ((b :: l).dropLast) = none := by
        refine inImported_none _ [a] (by simp) fun m hm hin => ?_
        have hm' : m < l.length := by simpa using hm
        have hlt : m + 1 < (a :: b :: l).length := by simp; omega
        refine hu (by simp) (m + 1) (by omega) (by omega) ((hk _).1 ?_)
        have : (a :: b :: l).take (m + 1) = [a] ++ ((b :: l).dropLast).take m := by
          rw [List.take_succ_cons, List.singleton_append]
          congr 1
          rw [List.dropLast_eq_take, List.take_take, Nat.min_eq_left (by simp; omega)]
        rw [this]
        exact hin
      dsimp only
      rw [hn]
      have hlast : (b :: l).getLastD [] = className (a :: b :: l) := by simp [className]
      have hmod : (if (b :: l).getLastD [] ≠ (a :: b :: l).dropLast.getLastD [] then joinStr c!"." (a :: b :: l) else joinStr c!"." (a :: b :: l).dropLast) =
          dotted (moduleParts (a :: b :: l)) := by
        rw [moduleParts_rule _ (by simp)]
        have : (a :: b :: l).getLastD [] = (b :: l).getLastD [] := by simp
        rw [this]
        unfold dotted
        split <;> rfl
      simp only
      rw [hmod, hlast, importClass_eq hl h]
      refine ⟨_, rfl, ?_, hmem⟩
      rw [if_neg (by simp)]

theorem strip_dotted {ks : List Str} (h : Parts ks) : strip (dotted ks) = dotted ks ∧ strip (c!" " ++ dotted ks) = dotted ks := by
  have h1 : strip (dotted ks) = dotted ks := by
    have hr : ∀ c ∈ dotted ks, isSpace c = false := fun c hc => (dotted_char h hc).1
    unfold strip
    rw [lstrip_eq_self fun c hc => hr c (List.mem_of_head? hc), rstrip_eq_self fun c hc => hr c (List.mem_of_getLast? hc)]
  refine ⟨h1, ?_⟩
  have : lstrip (c!" " ++ dotted ks) = lstrip (dotted ks) := by
    unfold lstrip
    rw [List.cons_append, List.dropWhile_cons, if_pos (by decide +kernel), List.nil_append]
  unfold strip
  rw [this]
  exact h1

/-- The loop over the classes. -/
theorem bases_eq {cf : Cf} (hl : cf.legacyImports = true) : ∀ (kss : List (List Str)) (texts : List Str) (c : CC) (known : List Str),
    texts.map strip = kss.map dotted → (∀ ks ∈ kss, Parts ks) → (∀ s, s ∈ c.imported ↔ s ∈ known) → AllUnseen known kss →
    ∃ c', c.bases cf texts = .ok (kss.map className, c') ∧ c'.imports = c.imports ++ (addedImports known kss).map Imp.text
  | [], texts, c, known, ht, _, _, _ => by
    cases texts with
    | nil => exact ⟨c, rfl, by simp [addedImports]⟩
    | cons t ts => cases ht
  | ks :: kss, texts, c, known, ht, hp, hk, hu => by
    cases texts with
    | nil => cases ht
    | cons t ts =>
      rw [List.map_cons, List.map_cons] at ht
      injection ht with h1 h2
      obtain ⟨c1, h3, h4, h5⟩ := oneBase_eq (c := c) hl (hp ks (by simp)) hk hu.1
      obtain ⟨c2, h6, h7⟩ := bases_eq hl kss ts c1 _ h2 (fun q hq => hp q (List.mem_cons_of_mem _ hq)) h5 hu.2
      refine ⟨c2, ?_, ?_⟩
      · rw [CC.bases, h1, h3]
        simp only [bind, Except.bind, h6]
        rfl
      · rw [h7, h4, addedImports]
        by_cases hc : ks.length = 1 ∧ className ks ∈ known
        · rw [if_pos hc, if_pos hc, List.append_nil]
          congr 2
          have : ∀ (kss : List (List Str)) (l1 l2 : List Str), (∀ s, s ∈ l1 ↔ s ∈ l2) → addedImports l1 kss = addedImports l2 kss := by
            intro kss
            induction kss with
            | nil => intros; rfl
            | cons q kss ih =>
              intro l1 l2 hl
              rw [addedImports, addedImports, ih l1 l2 hl, ih (l1 ++ [className q]) (l2 ++ [className q]) fun s => by simp [hl]]
              simp only [hl]
          refine this kss _ _ fun s => ?_
          simp only [List.mem_append, List.mem_singleton]
          refine ⟨?_, .inl⟩
          rintro (h | rfl)
          · exact h
          · exact hc.2
        · rw [if_neg hc, if_neg hc]
          simp [classImp]

theorem split_comma {kss : List (List Str)} (hne : kss ≠ []) (h : ∀ ks ∈ kss, Parts ks) :
    (splitCh ',' (joinStr c!", " (kss.map dotted))).map strip = kss.map dotted := by
  have hj : ∀ (p : Str) (ps : List Str), joinStr c!", " (p :: ps) = joinStr c!"," (p :: ps.map (c!" " ++ ·)) := by
    intro p ps
    induction ps generalizing p with
    | nil => rfl
    | cons q ps ih =>
      rw [joinStr, ih q, List.map_cons, joinStr, ← joinStr_head]
      simp
  cases kss with
  | nil => exact absurd rfl hne
  | cons ks kss =>
    rw [List.map_cons, hj, splitCh_join (by simp)]
    · rw [List.map_cons, (strip_dotted (h ks (by simp))).1]
      congr 1
      rw [List.map_map, List.map_map]
      refine List.map_congr_left fun q hq => ?_
      exact (strip_dotted (h q (List.mem_cons_of_mem _ hq))).2
    · intro p hp hm
      rcases List.mem_cons.1 hp with rfl | hp
      · exact (dotted_char (h ks (by simp)) hm).2.1 rfl
      · rw [List.map_map] at hp
        obtain ⟨q, hq, rfl⟩ := List.mem_map.1 hp
        have : ',' ∈ dotted q := by simpa using hm
        exact (dotted_char (h q (List.mem_cons_of_mem _ hq)) this).2.1 rfl

theorem setBase_eq {cf : Cf} {c : CC} (hl : cf.legacyImports = true) (ha : cf.autoImport = true) {kss : List (List Str)} {known : List Str}
    (hne : kss ≠ []) (hp : ∀ ks ∈ kss, Parts ks ∧ ks ≠ [c!"object"]) (hk : ∀ s, s ∈ c.imported ↔ s ∈ known) (hcomma : ∀ s ∈ known, ',' ∉ s)
    (hu : AllUnseen known kss) :
    ∃ c', c.setBase cf (joinStr c!", " (kss.map dotted)) = .ok c' ∧ c'.base = joinStr c!", " (kss.map className) ∧
      c'.imports = c.imports ++ (addedImports known kss).map Imp.text := by
  have hp1 : ∀ ks ∈ kss, Parts ks := fun ks h => (hp ks h).1
  have hcm : ∀ a b l, kss = a :: b :: l → ',' ∈ joinStr c!", " (kss.map dotted) := by
    rintro a b l rfl
    rw [List.map_cons, List.map_cons, joinStr]
    simp
  have hobj : joinStr c!", " (kss.map dotted) ≠ c!"object" := by
    intro he
    cases kss with
    | nil => exact hne rfl
    | cons a l =>
      cases l with
      | nil =>
        have h1 : dotted a = c!"object" := he
        have h2 := split_dotted (hp1 a (by simp))
        rw [h1] at h2
        exact (hp a (by simp)).2 h2.symm
      | cons b l =>
        have := hcm a b l rfl
        rw [he] at this
        revert this
        decide
  unfold CC.setBase
  by_cases hin : joinStr c!", " (kss.map dotted) ∈ c.imported
  · rw [if_pos (by simp [hin])]
    refine ⟨_, rfl, ?_, ?_⟩
    all_goals
      have hin' := (hk _).1 hin
      cases kss with
      | nil => exact absurd rfl hne
      | cons a l =>
        cases l with
        | cons b l => exact absurd (hcm a b l rfl) (hcomma _ hin')
        | nil =>
          have h1 : a.length = 1 := by
            by_contra h2
            have h3 : a.length ≠ 0 := fun h => (hp1 a (by simp)).1 (List.length_eq_zero_iff.1 h)
            have := hu.1 (by omega) a.length (by omega) (by omega)
            rw [List.take_length] at this
            exact this hin'
          obtain ⟨k, rfl⟩ := List.length_eq_one_iff.1 h1
          have hin2 : k ∈ known := hin'
          first
            | rfl
            | (rw [addedImports, if_pos ⟨rfl, hin2⟩, addedImports]; simp)
  · rw [if_neg (by simp [ha, hobj, hin])]
    obtain ⟨c', h1, h2⟩ := bases_eq hl kss _ c known (split_comma hne hp1) hp1 hk hu
    rw [h1]
    exact ⟨_, rfl, rfl, h2⟩

theorem added_bound : ∀ (kss : List (List Str)) (known : List Str) (ks : List Str), ks ∈ kss →
    className ks ∈ known ∨ ∃ i ∈ addedImports known kss, className ks ∈ i.binds
  | [], _, _, h => nomatch h
  | q :: kss, known, ks, h => by
    rw [addedImports]
    have hq : className q ∈ (Imp.names (moduleParts q) [⟨[className q], none⟩]).binds := by simp [Imp.binds]
    by_cases hc : q.length = 1 ∧ className q ∈ known
    · rw [if_pos hc]
      rcases List.mem_cons.1 h with rfl | h
      · exact .inl hc.2
      · exact added_bound kss known ks h
    · rw [if_neg hc]
      rcases List.mem_cons.1 h with rfl | h
      · exact .inr ⟨_, List.mem_cons_self .., hq⟩
      · rcases added_bound kss (known ++ [className q]) ks h with h | ⟨i, h1, h2⟩
        · rcases List.mem_append.1 h with h | h
          · exact .inl h
          · have h := List.mem_singleton.1 h
            exact .inr ⟨_, List.mem_cons_self .., by rw [h]; exact hq⟩
        · exact .inr ⟨i, List.mem_cons_of_mem _ h1, h2⟩

theorem given_bound {i : Imp} (hg : i.Good) {k : Str} (hk : PyName k) (h : k ∈ i.given) : k ∈ i.binds := by
  have key : ∀ j : Item, Parts j.what → k = j.as_.getD (dotted j.what) → k = j.as_.getD (j.what.headD []) := by
    intro j hj he
    cases ha : j.as_ with
    | some a => rw [ha] at he; exact he
    | none =>
      rw [ha] at he
      have he : k = dotted j.what := he
      have h1 := split_dotted hj
      rw [← he, splitCh_of_not_mem fun hm => (pyChar_space (hk.2 _ hm)).2.2.1 rfl] at h1
      rw [← h1]
      rfl
  cases i with
  | modules items =>
    obtain ⟨j, hj, he⟩ := List.mem_map.1 h
    exact List.mem_map.2 ⟨j, hj, (key j (hg.2 j hj).1 he.symm).symm⟩
  | names m items =>
    obtain ⟨j, hj, he⟩ := List.mem_map.1 h
    exact List.mem_map.2 ⟨j, hj, (key j (hg.2.2 j hj).1 he.symm).symm⟩
  | everything m => cases h

theorem start_bound {k : Str} (hk : PyName k) (h : k ∈ givenAtStart) : k ∈ boundAtStart := by
  have h2 : k ≠ c!"os.path" := by
    rintro rfl
    exact (pyChar_space (hk.2 '.' (by simp))).2.2.1 rfl
  revert h2
  revert k
  unfold givenAtStart boundAtStart
  intro k _ h
  simp only [List.mem_cons, List.not_mem_nil, or_false] at h
  rcases h with rfl | rfl | rfl | rfl | rfl | rfl | rfl | rfl | rfl | rfl | rfl <;> simp

/-- What is noted after the directives of a template. -/
theorem steps_imported {cf : Cf} (hl : cf.legacyImports = true) {imps : List Imp} (hg : ∀ i ∈ imps, i.Good) {cmds : List Cmd} {d c : CC}
    (hx : ∀ e, Cmd.extends_ e ∉ cmds) (hi : importsIn cmds = imps.map Imp.text) (h : CC.steps cf cmds d = .ok c) :
    c.imports = d.imports ++ imps.map Imp.text ∧ c.imported = d.imported ++ imps.flatMap Imp.given ∧
      ((Dict.get d.index d.mainName).isSome → (Dict.get c.index c.mainName).isSome) := by
  induction cmds generalizing imps d with
  | nil =>
    cases h
    cases imps with
    | nil => exact ⟨by simp, by simp, id⟩
    | cons i is => cases hi
  | cons k ks ih =>
    rw [CC.steps] at h
    simp only [bind, Except.bind] at h
    have hx' : ∀ e, Cmd.extends_ e ∉ ks := fun e he => hx e (List.mem_cons_of_mem _ he)
    cases hk : CC.step cf k d with
    | error e => rw [hk] at h; cases h
    | ok d' =>
      rw [hk] at h
      by_cases hi' : ∃ n e, k = .simple n e ∧ (n = c!"import" ∨ n = c!"from")
      · obtain ⟨n, e, rfl, hn⟩ := hi'
        have hs : importsIn (.simple n e :: ks) = e :: importsIn ks := by simp [importsIn, hn]
        rw [hs] at hi
        cases imps with
        | nil => cases hi
        | cons i is =>
          rw [List.map_cons] at hi
          injection hi with h1 h2
          have hd : d.import_ cf e = .ok d' := by
            rw [← hk]
            rcases hn with rfl | rfl <;> rfl
          rw [h1, import_good_imp hl (hg i (by simp))] at hd
          cases hd
          obtain ⟨a1, a2, a3⟩ := ih (fun j hj => hg j (List.mem_cons_of_mem _ hj)) hx' h2 h
          exact ⟨by rw [a1]; simp, by rw [a2]; simp, a3⟩
      · have h1 : ∀ n e, k = .simple n e → ¬ (n = c!"import" ∨ n = c!"from") := fun n e h1 h2 => hi' ⟨n, e, h1, h2⟩
        have hs : importsIn (k :: ks) = importsIn ks := by
          unfold importsIn
          rw [List.filterMap_cons]
          cases k with
          | simple n e => simp [h1 n e rfl]
          | _ => rfl
        rw [hs] at hi
        obtain ⟨a1, a2, a3⟩ := ih hg hx' hi h
        obtain ⟨b1, b2, b3⟩ := step_keeps h1 (fun e he => hx e (by simp [he])) d' hk
        exact ⟨by rw [a1, b1], by rw [a2, b2], fun h => a3 (b3 h)⟩

theorem steps_snoc {cf : Cf} {k : Cmd} : ∀ (cmds : List Cmd) (d : CC), CC.steps cf (cmds ++ [k]) d = CC.steps cf cmds d >>= CC.step cf k
  | [], d => by
    show (CC.step cf k d >>= fun c => .ok c) = CC.step cf k d
    cases CC.step cf k d <;> rfl
  | a :: cmds, d => by
    rw [List.cons_append, CC.steps, CC.steps]
    cases CC.step cf a d with
    | error e => rfl
    | ok d' => exact steps_snoc cmds d'

/-! ### The property -/

/-- `#extends` with the default settings, after any directives, for classes that are not written through a module that was imported:
the template is derived from those classes, under their own names and in that order; each is imported as the users' guide says
(`C` from the module `C`, `a.b.C` from `a.b.C`), unless it is a plain name that is imported already; nothing else is imported; and every name in
the class statement is a variable that an import statement of the module binds.

Not proved, since it is false (see the counterexamples): the same for classes written through an imported module. -/
theorem C72_extends_partial (cf : Cf) (hl : cf.legacyImports = true) (ha : cf.autoImport = true) (before : List Cmd)
    (hx : ∀ e, Cmd.extends_ e ∉ before) (c : CC) (h : CC.steps cf before (CC.start cf) = .ok c)
    (imps : List Imp) (hg : ∀ i ∈ imps, i.Good) (hi : importsIn before = imps.map Imp.text)
    (kss : List (List Str)) (hne : kss ≠ []) (hp : ∀ ks ∈ kss, Parts ks ∧ ks ≠ [c!"object"])
    (hu : AllUnseen (givenAtStart ++ imps.flatMap Imp.given) kss) :
    ∃ c', CC.steps cf (before ++ [.extends_ (joinStr c!", " (kss.map dotted))]) (CC.start cf) = .ok c' ∧
      c'.base = joinStr c!", " (kss.map className) ∧
      c'.imports = (imps ++ addedImports (givenAtStart ++ imps.flatMap Imp.given) kss).map Imp.text ∧
      ∀ ks ∈ kss, className ks ∈ boundAtStart ∨
        ∃ i ∈ imps ++ addedImports (givenAtStart ++ imps.flatMap Imp.given) kss, className ks ∈ i.binds := by
  obtain ⟨h1, h2, h3⟩ := steps_imported hl hg hx hi h
  have hm : (Dict.get c.index c.mainName).isSome := h3 (by
    show (Dict.get (Dict.set _ cf.mainName _) cf.mainName).isSome
    rw [Dict.get_set_self]; rfl)
  have hmain : ∃ d, c.setMainName cf.mainForSub = .ok d := by
    unfold CC.setMainName
    split
    · exact ⟨_, rfl⟩
    · cases hg : Dict.get c.index c.mainName with
      | none => rw [hg] at hm; cases hm
      | some u => exact ⟨_, rfl⟩
  obtain ⟨d, hd⟩ := hmain
  obtain ⟨k1, k2, _⟩ := setMainName_keeps d hd
  have hcomma : ∀ s ∈ givenAtStart ++ imps.flatMap Imp.given, ',' ∉ s := by
    intro s hs
    rcases List.mem_append.1 hs with hs | hs
    · have : ∀ s ∈ givenAtStart, ',' ∉ s := by decide +kernel
      exact this s hs
    · obtain ⟨i, hi1, hi2⟩ := List.mem_flatMap.1 hs
      have key : ∀ j : Item, Parts j.what → (∀ a, j.as_ = some a → PyName a) → ',' ∉ j.as_.getD (dotted j.what) := by
        intro j hj hj2 hm
        cases hja : j.as_ with
        | none => rw [hja] at hm; exact (dotted_char hj hm).2.1 rfl
        | some a => rw [hja] at hm; exact (pyChar_space ((hj2 a hja).2 _ hm)).2.1 rfl
      have hgi := hg i hi1
      cases i with
      | modules items =>
        obtain ⟨j, hj, rfl⟩ := List.mem_map.1 hi2
        exact key j (hgi.2 j hj).1 (hgi.2 j hj).2
      | names m items =>
        obtain ⟨j, hj, rfl⟩ := List.mem_map.1 hi2
        exact key j (hgi.2.2 j hj).1 (hgi.2.2 j hj).2.2
      | everything m => cases hi2
  obtain ⟨c', h4, h5, h6⟩ := setBase_eq (c := d) hl ha hne hp (fun s => by rw [k2, h2]; rfl) hcomma hu
  refine ⟨c', ?_, h5, ?_, ?_⟩
  · rw [steps_snoc, h]
    show (c.setMainName cf.mainForSub >>= fun c => c.setBase cf _) = .ok c'
    rw [hd]
    exact h4
  · rw [h6, k1, h1, List.map_append]
    rfl
  · intro ks hks
    rcases added_bound kss (givenAtStart ++ imps.flatMap Imp.given) ks hks with hb | ⟨i, hb1, hb2⟩
    · rcases List.mem_append.1 hb with hb | hb
      · exact .inl (start_bound (parts_last (hp ks hks).1) hb)
      · obtain ⟨i, hi1, hi2⟩ := List.mem_flatMap.1 hb
        exact .inr ⟨i, List.mem_append_left _ hi1, given_bound (hg i hi1) (parts_last (hp ks hks).1) hi2⟩
    · exact .inr ⟨i, List.mem_append_right _ hb1, hb2⟩

/-- A template with imports that is derived from three classes. -/
example : ∃ c', CC.steps demoCf ([.strConst c!"hi", .simple c!"from" c!"from m import Page, x as Base", .simple c!"import" c!"import lib.util"] ++
      [.extends_ c!"Base, Cheetah.Templates.SkeletonPage, site.Main.Main"]) (CC.start demoCf) = .ok c' ∧
    c'.base = c!"Base, SkeletonPage, Main" ∧ c'.imports = [c!"from m import Page, x as Base", c!"import lib.util",
      c!"from Cheetah.Templates.SkeletonPage import SkeletonPage", c!"from site.Main import Main"] := by
  have hok : (CC.steps demoCf [.strConst c!"hi", .simple c!"from" c!"from m import Page, x as Base", .simple c!"import" c!"import lib.util"]
      (CC.start demoCf)).isOk = true := by decide +kernel
  obtain ⟨c, hc⟩ : ∃ c, CC.steps demoCf [.strConst c!"hi", .simple c!"from" c!"from m import Page, x as Base",
      .simple c!"import" c!"import lib.util"] (CC.start demoCf) = .ok c := by
    revert hok
    generalize CC.steps demoCf _ _ = r
    intro hok
    cases r with
    | ok c => exact ⟨c, rfl⟩
    | error e => cases hok
  obtain ⟨c', h1, h2, h3, _⟩ := C72_extends_partial demoCf rfl rfl
    [.strConst c!"hi", .simple c!"from" c!"from m import Page, x as Base", .simple c!"import" c!"import lib.util"] (by simp)
    c hc [.names [c!"m"] [⟨[c!"Page"], none⟩, ⟨[c!"x"], some c!"Base"⟩], .modules [⟨[c!"lib", c!"util"], none⟩]]
    (by simp [Imp.Good, Parts, PyName]) rfl [[c!"Base"], [c!"Cheetah", c!"Templates", c!"SkeletonPage"], [c!"site", c!"Main", c!"Main"]]
    (by simp) (by simp [Parts, PyName])
    (by
      refine ⟨?_, ?_, ?_, trivial⟩
      · intro h; simp at h
      · intro _ n h1 h2; obtain rfl | rfl | rfl : n = 1 ∨ n = 2 ∨ n = 3 := (by simp at h2; omega)
        all_goals decide
      · intro _ n h1 h2; obtain rfl | rfl | rfl : n = 1 ∨ n = 2 ∨ n = 3 := (by simp at h2; omega)
        all_goals decide)
  exact ⟨c', h1, h2, h3⟩

/-! ### What the exceptions are for -/

/-- The base class and the added imports of a template. -/
def derived (cf : Cf) (src : Str) : Option (Str × List Str) :=
  match (Parser.demoEnv src).parse ⟨true, true, true, true⟩ with
  | .error _ => none
  | .ok cmds => (CC.compile cf cmds).toOption.map fun c => (c.base, c.imports)

/-- The rule of the users' guide, from the source. -/
example : derived demoCf c!"#from lib import Page\n#extends Page\nhi\n" = some (c!"Page", [c!"from lib import Page"]) ∧
    derived demoCf c!"#extends Cheetah.Templates.SkeletonPage\nhi\n" =
      some (c!"SkeletonPage", [c!"from Cheetah.Templates.SkeletonPage import SkeletonPage"]) := by decide +kernel

/-- Of a class written through an imported package only the rest of the name is left, and that is not bound: `import pkg` binds `pkg`,
the class is derived from `mod.Page`. -/
theorem C72_imported_package_counterexample :
    derived demoCf c!"#import pkg\n#extends pkg.mod.Page\n" = some (c!"mod.Page", [c!"import pkg"]) ∧ c!"mod" ∉ boundAtStart ∧
      c!"mod" ∉ (Imp.modules [⟨[c!"pkg"], none⟩]).binds := by decide +kernel

/-- The module's name is taken out wherever it is: `a.ba.C` becomes `bC`. -/
theorem C72_name_cut_twice_counterexample :
    derived demoCf c!"#import a\n#extends a.ba.C\n" = some (c!"bC", [c!"import a"]) := by decide +kernel

/-- A class in an imported module is imported from a module of its own name all the same. -/
theorem C72_imported_module_counterexample :
    derived demoCf c!"#import forms\n#extends forms.Page\n" = some (c!"Page", [c!"import forms", c!"from forms.Page import Page"]) := by decide +kernel

/-- A class imported in brackets counts as not imported, and is imported again from a module of its own name. -/
theorem C72_brackets_counterexample :
    derived demoCf c!"#from forms import (Page, Part)\n#extends Page\n" =
      some (c!"Page", [c!"from forms import (Page, Part)", c!"from Page import Page"]) := by decide +kernel

/-- With two names and no comma the template is derived from a class that neither of them names. -/
theorem C72_two_names_counterexample : derived demoCf c!"#extends Page Part\n" = some (c!"PagePart", [c!"from PagePart import PagePart"]) := by
  decide +kernel

/-- Without `useLegacyImportMode`, `from m import *` behind some output is lost: no statement of the module or of a method has it. -/
theorem C72_star_import_lost_counterexample :
    ((Parser.demoEnv c!"$x\n#from m import *\n").parse ⟨true, true, true, true⟩).toOption.bind (fun cmds =>
      (CC.compile { demoCf with legacyImports := false } cmds).toOption.map fun c =>
        (c.imports, c.finished.all fun m => m.chunks.all fun l => !containsStr c!"import" l.2)) = some ([], true) := by decide +kernel

/-- Without `useLegacyImportMode`, the import that `#extends` adds behind some output goes into the method: the name in the class statement is not
bound. -/
theorem C72_late_extends_counterexample :
    derived { demoCf with legacyImports := false } c!"$x\n#extends Page\n" = some (c!"Page", []) := by decide +kernel

end Cheetah.Driver
