import Verif.Props.ClassSource
import Verif.ModuleText
import Verif.Props.DocText
import Verif.Props.CompileCache
/-
What a name of the generated module stands for, and what the module says about its encoding.
-/
namespace Cheetah.EndToEnd
open Driver Parser
open ClassBody
open ModuleText

/-! ### Specification: how Python reads a module -/

/-- What a name of a module is bound to: what an import statement gives, the value of an expression, or a class. -/
inductive Global where
  | imported (stmt : Str)
  | val (expr : Str)
  | cls (head : Str)
  deriving DecidableEq, Repr

/-- The name that an item of an import statement binds: `a.b` binds `a`, `a.b as c` binds `c`. -/
def itemName (t : Str) : Str :=
  match splitCh ' ' (t.dropWhile (· == ' ')) with
  | [_, _, b] => b
  | a :: _ => a.takeWhile (· != '.')
  | [] => []

/-- The names that `import …` or `from m import …` binds. What `*` stands for is not known. -/
def importNames (s : Str) : Option (List Str) :=
  match stripPrefix? c!"import " s with
  | some r => some ((splitCh ',' r).map itemName)
  | none =>
    match stripPrefix? c!"from " s with
    | some r => (stripPrefix? c!" import " (r.dropWhile (· != ' '))).map fun t => ((splitCh ',' t).map itemName).filter (· ≠ c!"*")
    | none => none

/-- The names that a statement at the top of a module binds. -/
def globalsOf (s : Str) : List (Str × Global) :=
  match importNames s with
  | some ns => ns.map fun n => (n, .imported s)
  | none =>
    match stripPrefix? c!"class " s with
    | some r => [(headWord r, .cls s)]
    | none =>
      match assignment s with
      | some (x, e) => [(x, .val e)]
      | none => []

/-- The same for all the lines that are not indented. -/
def allGlobals (lines : List (Nat × Str)) : List (Str × Global) := lines.flatMap fun l => if l.1 = 0 then globalsOf l.2 else []

/-- What the name stands for when the module has been read: a later binding replaces an earlier one. -/
def globalOf (lines : List (Nat × Str)) (x : Str) : Option Global := (((allGlobals lines).filter (·.1 = x)).getLast?).map Prod.snd

/-- Names that the compiler sets last, and those bound in indented lines or by `*`. -/
def keptNames : List Str :=
  [c!"__CHEETAH_version__", c!"__CHEETAH_versionTuple__", c!"__CHEETAH_genTime__", c!"__CHEETAH_genTimestamp__", c!"__CHEETAH_src__",
   c!"__CHEETAH_srcLastModified__", c!"builtin", c!"templateAPIClass", c!"CmdLineIface"]

/-- The names of the lookup functions, and their values. -/
def shortNames : List (Str × Str) :=
  [(c!"VFFSL", c!"valueFromFrameOrSearchList"), (c!"VFSL", c!"valueFromSearchList"), (c!"VFN", c!"valueForName"), (c!"currentTime", c!"time.time")]

/-- Words that begin a statement of another kind. -/
def notNames : List Str := [c!"import", c!"from", c!"class"]

/-- Does the line declare an encoding to Python (PEP 263)? -/
def Declares (l : Str) : Prop := ∃ a b c, l = a ++ '#' :: b ++ c ∧ (c!"coding:" <+: c ∨ c!"coding=" <+: c)

/-! ### Lemmas -/

theorem itemName_text {i : Item} (hp : Parts i.what) (ha : ∀ a, i.as_ = some a → PyName a) :
    itemName i.text = i.as_.getD (i.what.headD []) ∧ itemName (i.text.drop 1) = i.as_.getD (i.what.headD []) := by
  have hd : ∀ c ∈ dotted i.what, c ≠ ' ' := fun c hc => (dotted_char hp hc).2.2.2
  have hn := dotted_ne_nil hp
  have hdot : (dotted i.what).takeWhile (· != '.') = i.what.headD [] := by
    obtain ⟨h1, h2⟩ := hp
    cases hw : i.what with
    | nil => exact absurd hw h1
    | cons k ks =>
      have hk : ∀ c ∈ k, (c != '.') = true := by
        intro c hc
        have := (pyChar_space ((h2 k (by simp [hw])).2 c hc)).2.2.1
        simpa using this
      cases ks with
      | nil =>
        show List.takeWhile _ k = k
        have := (takeWhile_stop (a := k) (t := []) hk (by simp)).1
        simpa using this
      | cons l ks =>
        show List.takeWhile _ (joinStr c!"." (k :: l :: ks)) = k
        rw [joinStr, List.append_assoc]
        exact (takeWhile_stop hk (by rintro _ ⟨⟩; decide)).1
  have hdrop : ∀ r : Str, (dotted i.what ++ r).dropWhile (· == ' ') = dotted i.what ++ r := by
    intro r
    cases he : dotted i.what with
    | nil => exact absurd he hn
    | cons c t =>
      have : c ≠ ' ' := hd c (by simp [he])
      rw [List.cons_append, List.dropWhile_cons, if_neg (by simpa using this)]
  have key : ∀ t : Str, t = dotted i.what ++ (match i.as_ with | some a => c!" as " ++ a | none => []) →
      itemName (c!" " ++ t) = i.as_.getD (i.what.headD []) ∧ itemName t = i.as_.getD (i.what.headD []) := by
    intro t ht
    have h1 : (c!" " ++ t).dropWhile (· == ' ') = t.dropWhile (· == ' ') := by
      show (' ' :: t).dropWhile _ = _
      rw [List.dropWhile_cons, if_pos (by decide)]
    have h2 : itemName (c!" " ++ t) = itemName t := by unfold itemName; rw [h1]
    rw [h2]
    refine ⟨?_, ?_⟩ <;>
    · unfold itemName
      rw [ht, hdrop]
      cases hi : i.as_ with
      | none =>
        simp only [List.append_nil, splitCh_of_not_mem (fun h => hd _ h rfl), Option.getD_none]
        exact hdot
      | some a =>
        have e : dotted i.what ++ (c!" as " ++ a) = dotted i.what ++ ' ' :: (c!"as" ++ ' ' :: a) := by simp
        have hna : ' ' ∉ a := fun h => (pyChar_space ((ha a hi).2 _ h)).2.2.2.2 rfl
        simp only [e]
        rw [splitCh_append_sep, splitCh_append_sep, splitCh_of_not_mem (fun h => hd _ h rfl), splitCh_of_not_mem (s := c!"as") (by decide),
          splitCh_of_not_mem hna]
        rfl
  have ht : i.text = c!" " ++ (dotted i.what ++ (match i.as_ with | some a => c!" as " ++ a | none => [])) := by
    unfold Item.text; rw [List.append_assoc]; cases i.as_ <;> rfl
  have := key _ rfl
  rw [ht]
  exact ⟨this.1, this.2⟩

theorem items_names {items : List Item} (hne : items ≠ []) (hg : ∀ i ∈ items, Parts i.what ∧ ∀ a, i.as_ = some a → PyName a) :
    ∃ r, joinStr c!"," (items.map Item.text) = ' ' :: r ∧
      (splitCh ',' r).map itemName = items.map fun i => i.as_.getD (i.what.headD []) := by
  cases items with
  | nil => exact absurd rfl hne
  | cons i is =>
    have hi : i.text = ' ' :: i.text.drop 1 := by unfold Item.text; simp
    refine ⟨joinStr c!"," (i.text.drop 1 :: is.map Item.text), ?_, ?_⟩
    · rw [List.map_cons, hi, ← List.singleton_append (x := ' '), ← joinStr_head]
      rfl
    · have hc : ∀ j ∈ i :: is, ',' ∉ j.text := fun j hj => (item_last (hg j hj).1 (hg j hj).2 []).2.2
      rw [splitCh_join (by simp)]
      · rw [List.map_cons, List.map_cons, (itemName_text (hg i (by simp)).1 (hg i (by simp)).2).2, List.map_map]
        congr 1
        exact List.map_congr_left fun j hj => (itemName_text (hg j (List.mem_cons_of_mem _ hj)).1 (hg j (List.mem_cons_of_mem _ hj)).2).1
      · intro p hp
        rcases List.mem_cons.1 hp with rfl | hp
        · exact fun h => hc i (by simp) (List.mem_of_mem_drop h)
        · obtain ⟨j, hj, rfl⟩ := List.mem_map.1 hp
          exact hc j (List.mem_cons_of_mem _ hj)

theorem binds_star {items : List Item} (hg : ∀ i ∈ items, Parts i.what ∧ ∀ a, i.as_ = some a → PyName a) :
    (items.map fun i => i.as_.getD (i.what.headD [])).filter (· ≠ c!"*") = items.map fun i => i.as_.getD (i.what.headD []) := by
  rw [List.filter_eq_self]
  intro s hs
  obtain ⟨i, hi, rfl⟩ := List.mem_map.1 hs
  obtain ⟨h1, h2⟩ := hg i hi
  have hname : PyName (i.as_.getD (i.what.headD [])) := by
    cases ha : i.as_ with
    | some a => exact h2 a ha
    | none =>
      obtain ⟨h3, h4⟩ := h1
      cases hw : i.what with
      | nil => exact absurd hw h3
      | cons k ks => exact h4 k (by simp [hw])
  simp only [ne_eq, decide_not, Bool.not_eq_true', decide_eq_false_iff_not]
  intro he
  exact (pyChar_space (hname.2 '*' (by rw [he]; simp))).2.2.2.1 rfl

/-- An import statement binds its names. -/
theorem importNames_text {i : Imp} (hg : i.Good) : importNames i.text = some i.binds := by
  cases i with
  | modules items =>
    obtain ⟨h1, h2⟩ := hg
    obtain ⟨r, hr, hn⟩ := items_names h1 h2
    have : (Imp.modules items).text = c!"import " ++ r := by
      show c!"import" ++ joinStr c!"," (items.map Item.text) = _
      rw [hr]; simp
    unfold importNames
    rw [this, (stripPrefix?_some (pat := c!"import ")).2 rfl]
    simp only [hn]
    rfl
  | names m items =>
    obtain ⟨h1, h2, h3⟩ := hg
    have h3' : ∀ i ∈ items, Parts i.what ∧ ∀ a, i.as_ = some a → PyName a := fun i hi => ⟨(h3 i hi).1, (h3 i hi).2.2⟩
    obtain ⟨r, hr, hn⟩ := items_names h2 h3'
    have : (Imp.names m items).text = c!"from " ++ (dotted m ++ (c!" import " ++ r)) := by
      show c!"from " ++ dotted m ++ c!" import" ++ joinStr c!"," (items.map Item.text) = _
      rw [hr]; simp
    unfold importNames
    have e1 : stripPrefix? c!"import " (c!"from " ++ (dotted m ++ (c!" import " ++ r))) = none := by
      simp [stripPrefix?]
    have e2 : (dotted m ++ (c!" import " ++ r)).dropWhile (· != ' ') = c!" import " ++ r :=
      (takeWhile_stop (fun c hc => by simpa using (dotted_char h1 hc).2.2.2) (by rintro _ ⟨⟩; decide)).2
    rw [this, e1, (stripPrefix?_some (pat := c!"from ")).2 rfl]
    simp only [e2, (stripPrefix?_some (pat := c!" import ")).2 rfl, Option.map_some, hn, binds_star h3']
    rfl
  | everything m =>
    have : (Imp.everything m).text = c!"from " ++ (dotted m ++ (c!" import " ++ c!"*")) := by
      show c!"from " ++ dotted m ++ c!" import *" = _
      simp
    unfold importNames
    have e1 : stripPrefix? c!"import " (c!"from " ++ (dotted m ++ (c!" import " ++ c!"*"))) = none := by
      simp [stripPrefix?]
    have e2 : (dotted m ++ (c!" import " ++ c!"*")).dropWhile (· != ' ') = c!" import " ++ c!"*" :=
      (takeWhile_stop (fun c hc => by simpa using (dotted_char hg hc).2.2.2) (by rintro _ ⟨⟩; decide)).2
    rw [this, e1, (stripPrefix?_some (pat := c!"from ")).2 rfl]
    simp only [e2, (stripPrefix?_some (pat := c!" import ")).2 rfl, Option.map_some]
    rfl

theorem headWord_assign {v r : Str} (hv : Word v) : headWord (v ++ c!" = " ++ r) = v := by
  unfold headWord
  rw [show v ++ c!" = " ++ r = v ++ (' ' :: ('=' :: ' ' :: r)) by simp]
  exact (takeWhile_stop (fun c hc => hv.all c hc) (by rintro _ ⟨⟩; decide)).1

theorem not_keyword {v r w : Str} (hv : Word v) (hw : ∀ c ∈ w, identChar c = true) (hne : v ≠ w) :
    stripPrefix? (w ++ c!" ") (v ++ c!" = " ++ r) = none := by
  cases e : stripPrefix? (w ++ c!" ") (v ++ c!" = " ++ r) with
  | none => rfl
  | some t =>
    exfalso
    apply hne
    have e := stripPrefix?_some.1 e
    rw [← headWord_assign (r := r) hv, e]
    unfold headWord
    rw [show w ++ c!" " ++ t = w ++ (' ' :: t) by simp]
    exact (takeWhile_stop hw (by rintro _ ⟨⟩; decide)).1

theorem globalsOf_assign {v r : Str} (hv : Word v) (hn : v ∉ notNames) (hr : r.head? ≠ some ' ') :
    globalsOf (v ++ c!" = " ++ r) = [(v, .val r)] := by
  have h1 := not_keyword (r := r) (w := c!"import") hv (by decide) (fun h => hn (by simp [h, notNames]))
  have h2 := not_keyword (r := r) (w := c!"from") hv (by decide) (fun h => hn (by simp [h, notNames]))
  have h3 := not_keyword (r := r) (w := c!"class") hv (by decide) (fun h => hn (by simp [h, notNames]))
  have h0 : importNames (v ++ c!" = " ++ r) = none := by
    unfold importNames
    rw [show (c!"import " : Str) = c!"import" ++ c!" " from rfl, h1, show (c!"from " : Str) = c!"from" ++ c!" " from rfl, h2]
  unfold globalsOf
  rw [h0, show (c!"class " : Str) = c!"class" ++ c!" " from rfl, h3, assignment_eq hv hr]

theorem globalsOf_hash (l : Str) : globalsOf ('#' :: l) = [] := by
  have h1 : headWord ('#' :: l) = [] := by unfold headWord; rw [List.takeWhile_cons, if_neg (by decide)]
  have h2 : assignment ('#' :: l) = none := by unfold assignment; rw [h1]; rfl
  have h0 : importNames ('#' :: l) = none := by simp [importNames, stripPrefix?]
  unfold globalsOf
  rw [h0, h2]
  simp [stripPrefix?]

theorem globalsOf_class (n b : Str) (hn : Word n) : globalsOf (c!"class " ++ n ++ c!"(" ++ b ++ c!"):") =
    [(n, .cls (c!"class " ++ n ++ c!"(" ++ b ++ c!"):"))] := by
  have h0 : importNames (c!"class " ++ n ++ c!"(" ++ b ++ c!"):") = none := by simp [importNames, stripPrefix?]
  have h1 : stripPrefix? c!"class " (c!"class " ++ n ++ c!"(" ++ b ++ c!"):") = some (n ++ ('(' :: (b ++ c!"):"))) := by
    rw [stripPrefix?_some]; simp
  have h2 : headWord (n ++ ('(' :: (b ++ c!"):"))) = n := by
    unfold headWord
    exact (takeWhile_stop (fun c hc => hn.all c hc) (by rintro _ ⟨⟩; decide)).1
  unfold globalsOf
  rw [h0, h1]
  simp only [h2]

theorem allGlobals_append (a b : List (Nat × Str)) : allGlobals (a ++ b) = allGlobals a ++ allGlobals b := by simp [allGlobals]

theorem allGlobals_deep {L : List (Nat × Str)} (h : ∀ p ∈ L, 0 < p.1) : allGlobals L = [] := by
  unfold allGlobals
  rw [List.flatMap_eq_nil_iff]
  intro p hp
  rw [if_neg (by have := h p hp; omega)]

theorem allGlobals_flat (S : List Str) : allGlobals (S.map (0, ·)) = S.flatMap globalsOf := by
  unfold allGlobals
  rw [List.flatMap_map]
  simp

/-- The last global bound to the name. -/
def lastGlobal (M : List (Str × Global)) (x : Str) : Option Global := ((M.filter (·.1 = x)).getLast?).map Prod.snd

theorem lastGlobal_append (A B : List (Str × Global)) (x : Str) : lastGlobal (A ++ B) x = (lastGlobal B x).or (lastGlobal A x) := by
  unfold lastGlobal
  rw [List.filter_append, List.getLast?_append]
  cases (B.filter (·.1 = x)).getLast? <;> simp

theorem lastGlobal_none {M : List (Str × Global)} {x : Str} (h : ∀ p ∈ M, p.1 ≠ x) : lastGlobal M x = none := by
  unfold lastGlobal
  rw [List.filter_eq_nil_iff.2 (by simpa using h)]
  rfl

theorem lastGlobal_map {α : Type} (l : List α) (n : α → Str) (f : α → Global) (x : Str) :
    lastGlobal (l.map fun a => (n a, f a)) x = ((l.filter fun a => n a = x).getLast?).map f := by
  unfold lastGlobal
  rw [List.filter_map, List.getLast?_map, Option.map_map]
  rfl

theorem lastGlobal_imports (imps : List Imp) (x : Str) :
    lastGlobal (imps.flatMap fun i => i.binds.map fun n => (n, Global.imported i.text)) x =
      ((imps.filter fun i => x ∈ i.binds).getLast?).map fun i => .imported i.text := by
  induction imps with
  | nil => rfl
  | cons i is ih =>
    have h0 : lastGlobal (i.binds.map fun n => (n, Global.imported i.text)) x = if x ∈ i.binds then some (.imported i.text) else none := by
      split
      · rename_i hm
        rw [show lastGlobal (i.binds.map fun n => (n, Global.imported i.text)) x = _ from lastGlobal_map i.binds id (fun _ => Global.imported i.text) x]
        cases hl : (i.binds.filter fun a => id a = x).getLast? with
        | some a => rfl
        | none =>
          exfalso
          rw [List.getLast?_eq_none_iff, List.filter_eq_nil_iff] at hl
          exact hl x hm (by simp)
      · rename_i hm
        refine lastGlobal_none ?_
        intro p hp
        obtain ⟨n, hn, rfl⟩ := List.mem_map.1 hp
        exact fun e => hm (e ▸ hn)
    rw [List.flatMap_cons, lastGlobal_append, ih, h0, List.filter_cons]
    by_cases hm : x ∈ i.binds
    · simp only [hm, decide_true, if_true]
      rw [List.getLast?_cons]
      cases hl : (is.filter fun i => decide (x ∈ i.binds)).getLast? <;> simp
    · simp [hm]

theorem flat_assign (as : List (Str × Str)) (hw : ∀ a ∈ as, Word a.1 ∧ a.1 ∉ notNames ∧ a.2.head? ≠ some ' ') :
    (as.map fun a => a.1 ++ c!" = " ++ a.2).flatMap globalsOf = as.map fun a => (a.1, Global.val a.2) := by
  induction as with
  | nil => rfl
  | cons a as ih =>
    rw [List.map_cons, List.flatMap_cons, ih fun b hb => hw b (List.mem_cons_of_mem _ hb)]
    obtain ⟨h1, h2, h3⟩ := hw a (by simp)
    rw [globalsOf_assign h1 h2 h3]
    rfl

theorem repr_head (p : Char → Bool) (s : Str) : (pyRepr p s).head? ≠ some ' ' := by
  unfold pyRepr
  simp only [List.singleton_append, List.cons_append, List.head?_cons, ne_eq, Option.some.injEq]
  unfold reprQuote
  split <;> decide

theorem get_filter : ∀ (d : Dict Str Str) (x : Str), (d.map Prod.fst).Nodup →
    d.filter (·.1 = x) = match Dict.get d x with | some v => [(x, v)] | none => []
  | [], _, _ => rfl
  | (k, v) :: d, x, h => by
    rw [List.map_cons, List.nodup_cons] at h
    have ih := get_filter d x h.2
    rw [List.filter_cons, Dict.get]
    by_cases hk : x = k
    · subst hk
      simp only [decide_true, if_true]
      rw [List.filter_eq_nil_iff.2]
      intro a ha
      simp only [decide_eq_true_eq]
      exact fun e => h.1 (List.mem_map.2 ⟨a, ha, e⟩)
    · rw [if_neg (by simpa using fun e : k = x => hk e.symm), if_neg hk]
      exact ih

theorem keys_set : ∀ (d : Dict Str Str) (k v : Str), (d.map Prod.fst).Nodup → ((Dict.set d k v).map Prod.fst).Nodup ∧
    ∀ x ∈ (Dict.set d k v).map Prod.fst, x = k ∨ x ∈ d.map Prod.fst
  | [], k, v, _ => by simp [Dict.set]
  | (k', v') :: d, k, v, h => by
    rw [List.map_cons, List.nodup_cons] at h
    obtain ⟨h1, h2⟩ := keys_set d k v h.2
    rw [Dict.set]
    split
    · exact ⟨by rw [List.map_cons, List.nodup_cons]; exact h, fun x hx => .inr (by simpa using hx)⟩
    · rename_i hk
      refine ⟨?_, ?_⟩
      · rw [List.map_cons, List.nodup_cons]
        exact ⟨fun hm => (h2 _ hm).elim (fun e => hk e.symm) h.1, h1⟩
      · intro x hx
        rw [List.map_cons] at hx
        rcases List.mem_cons.1 hx with rfl | hx
        · exact .inr (by simp)
        · exact (h2 x hx).imp id fun hm => by simp [hm]

theorem get_set_other : ∀ (d : Dict Str Str) (k v x : Str), x ≠ k → Dict.get (Dict.set d k v) x = Dict.get d x
  | [], k, v, x, h => by simp [Dict.set, Dict.get, h]
  | (k', v') :: d, k, v, x, h => by
    rw [Dict.set]
    split
    · rename_i hk
      subst hk
      simp [Dict.get, h]
    · rw [Dict.get, Dict.get, get_set_other d k v x h]

theorem docstring_word : Word c!"__CHEETAH_docstring__" := word_of_ascii _ _ _ rfl (by decide) (by decide)

/-- The special variables: a name has the value given to it. -/
theorem special_globals (p : Char → Bool) (i : Info) (special : Dict Str Str) (hs : (special.map Prod.fst).Nodup)
    (hw : ∀ k ∈ special.map Prod.fst, Word k ∧ k ∉ notNames) {x : Str} (hx : x ≠ c!"__CHEETAH_docstring__") :
    lastGlobal ((specialLines p i special).flatMap globalsOf) x = (Dict.get special x).map fun v => .val (pyRepr p v) := by
  have hset := keys_set special c!"__CHEETAH_docstring__" (strip i.docMsg) hs
  have hget := get_set_other special c!"__CHEETAH_docstring__" (strip i.docMsg) x hx
  unfold specialLines
  rw [← hget]
  have hw' : ∀ a ∈ Dict.set special c!"__CHEETAH_docstring__" (strip i.docMsg), Word a.1 ∧ a.1 ∉ notNames := by
    intro a ha
    rcases hset.2 a.1 (List.mem_map_of_mem ha) with e | hm
    · rw [e]; exact ⟨docstring_word, by decide⟩
    · exact hw _ hm
  generalize Dict.set special c!"__CHEETAH_docstring__" (strip i.docMsg) = d at hset hw'
  have hperm : (d.foldr Doc.insert []).Perm d := by
    clear hset hw' hget
    induction d with
    | nil => exact List.Perm.refl _
    | cons a d ih => exact (Doc.insert_perm a _).trans (List.Perm.cons a ih)
  have e : (d.foldr Doc.insert []).map (fun kv => kv.1 ++ c!" = " ++ pyRepr p kv.2) =
      ((d.foldr Doc.insert []).map fun kv => (kv.1, pyRepr p kv.2)).map fun a => a.1 ++ c!" = " ++ a.2 := by
    rw [List.map_map]; rfl
  rw [e, flat_assign _ (by
    intro a ha
    obtain ⟨b, hb, rfl⟩ := List.mem_map.1 ha
    have := hw' b (hperm.mem_iff.1 hb)
    exact ⟨this.1, this.2, repr_head p b.2⟩), List.map_map]
  show lastGlobal ((d.foldr Doc.insert []).map fun kv => (kv.1, Global.val (pyRepr p kv.2))) x = _
  rw [lastGlobal_map]
  have hf : ((d.foldr Doc.insert []).filter fun a => decide (a.1 = x)).Perm (d.filter fun a => decide (a.1 = x)) := hperm.filter _
  rw [get_filter d x hset.1] at hf
  cases hg : Dict.get d x with
  | none => rw [hg] at hf; rw [List.Perm.eq_nil hf]; rfl
  | some v =>
    rw [hg] at hf
    rw [List.perm_singleton.1 hf]
    rfl

theorem first_imports : allGlobals firstImports =
    firstImports.flatMap (fun l => if l.1 = 0 then globalsOf l.2 else []) := rfl

/-- What the compiler's own import statements bind a name to. -/
def ownImport (x : Str) : Option Global := lastGlobal (allGlobals firstImports) x

theorem last_constants (o : Opts) (p : Char → Bool) (i : Info) (ht : i.versionTuple.head? ≠ some ' ') (hg : i.genTime.head? ≠ some ' ')
    {x : Str} (hx : x ∉ keptNames) : lastGlobal ((lastConstants o p i).flatMap globalsOf) x = none := by
  have key : ∃ as : List (Str × Str), lastConstants o p i = as.map (fun a => a.1 ++ c!" = " ++ a.2) ∧
      ∀ a ∈ as, a.1 ∈ keptNames ∧ (Word a.1 ∧ a.1 ∉ notNames ∧ a.2.head? ≠ some ' ') := by
    have ok : ∀ n v : Str, n ∈ keptNames → v.head? ≠ some ' ' → (n, v).1 ∈ keptNames ∧ (Word (n, v).1 ∧ (n, v).1 ∉ notNames ∧ (n, v).2.head? ≠ some ' ') := by
      intro n v hn hv
      refine ⟨hn, ?_, ?_, hv⟩
      · simp only [keptNames, List.mem_cons, List.not_mem_nil, or_false] at hn
        rcases hn with rfl | rfl | rfl | rfl | rfl | rfl | rfl | rfl | rfl <;> exact word_of_ascii _ _ _ rfl (by decide) (by decide)
      · simp only [keptNames, List.mem_cons, List.not_mem_nil, or_false] at hn
        rcases hn with rfl | rfl | rfl | rfl | rfl | rfl | rfl | rfl | rfl <;> simp [notNames]
    refine ⟨[(c!"__CHEETAH_version__", pyRepr p i.version), (c!"__CHEETAH_versionTuple__", i.versionTuple)] ++
      (if o.stamps then [(c!"__CHEETAH_genTime__", i.genTime), (c!"__CHEETAH_genTimestamp__", pyRepr p i.genStamp)] else []) ++
      (match i.src with
       | some (path, time) => [(c!"__CHEETAH_src__", pyRepr p path), (c!"__CHEETAH_srcLastModified__", pyRepr p time)]
       | none => [(c!"__CHEETAH_src__", c!"None"), (c!"__CHEETAH_srcLastModified__", c!"None")]), ?_, ?_⟩
    · unfold lastConstants
      cases o.stamps <;> cases i.src <;> simp
    · intro a ha
      cases hst : o.stamps <;> cases hsr : i.src <;>
        simp only [hst, hsr, if_true, Bool.false_eq_true, if_false, List.append_nil, List.cons_append, List.nil_append, List.mem_cons,
          List.not_mem_nil, or_false] at ha <;>
        rcases ha with rfl | rfl | rfl | rfl | rfl | rfl <;>
        first
          | exact ok _ _ (by decide) (repr_head _ _)
          | exact ok _ _ (by decide) ht
          | exact ok _ _ (by decide) hg
          | exact ok _ _ (by decide) (by decide)
  obtain ⟨as, h1, h2⟩ := key
  rw [h1, flat_assign as fun a ha => (h2 a ha).2]
  refine lastGlobal_none ?_
  intro q hq
  obtain ⟨a, ha, rfl⟩ := List.mem_map.1 hq
  exact fun e => hx (e ▸ (h2 a ha).1)

theorem first_constants : firstConstants.flatMap globalsOf = shortNames.map fun a => (a.1, Global.val a.2) := by decide +kernel

theorem class_deep (o : Opts) (cf : Cf) (cc : CC) (hl : 0 < cf.initLev) (hm : ∀ m ∈ cc.finished, ∀ p ∈ m.chunks, 0 < p.1) :
    ∀ p ∈ (classLines o cf cc).tail, 0 < p.1 := by
  have h1 : ∀ p ∈ methodsPart cf cc, 0 < p.1 := by
    intro p hp
    unfold methodsPart initLines at hp
    simp only [List.mem_append, List.mem_cons, List.not_mem_nil, or_false, List.mem_flatMap] at hp
    rcases hp with ((rfl | rfl) | rfl | rfl | rfl | rfl | rfl | rfl | rfl | rfl) | ⟨m, h1, h2⟩
    any_goals decide
    · exact hl
    · unfold methodLines signature at h2
      simp only [List.mem_append, List.mem_map, List.mem_cons, List.not_mem_nil, or_false] at h2
      rcases h2 with (⟨a, _, rfl⟩ | rfl) | h2
      · exact Nat.zero_lt_one
      · exact Nat.zero_lt_one
      · exact hm m h1 p h2
  have h2 : ∀ p ∈ attribsPart o cf cc, 0 < p.1 := by
    intro p hp
    unfold attribsPart at hp
    simp only [List.mem_append, List.mem_map, List.mem_cons, List.not_mem_nil, or_false] at hp
    rcases hp with (rfl | rfl) | ⟨a, _, rfl⟩ <;> exact Nat.zero_lt_one
  unfold classLines
  intro p hp
  rw [List.tail_cons] at hp
  split at hp <;> rcases List.mem_append.1 hp with hp | hp
  · exact h1 p hp
  · exact h2 p hp
  · exact h2 p hp
  · exact h1 p hp

theorem ending_globals (n : Str) : allGlobals (ending n) = [] := by
  have h : globalsOf (c!"if not hasattr(" ++ n ++ c!", '_initCheetahAttributes'):") = [] := by
    have e : c!"if not hasattr(" ++ n ++ c!", '_initCheetahAttributes'):" = 'i' :: 'f' :: ' ' :: 'n' :: (c!"ot hasattr(" ++ n ++ c!", '_initCheetahAttributes'):") := by
      simp
    rw [e]
    have h0 : ∀ s : Str, importNames ('i' :: 'f' :: ' ' :: 'n' :: s) = none := by intro s; simp [importNames, stripPrefix?]
    have h1 : ∀ s : Str, headWord ('i' :: 'f' :: ' ' :: 'n' :: s) = c!"if" := by
      intro s
      unfold headWord
      rw [List.takeWhile_cons, if_pos (by decide), List.takeWhile_cons, if_pos (by decide), List.takeWhile_cons, if_neg (by decide)]
    unfold globalsOf
    rw [h0]
    simp only [stripPrefix?]
    rw [if_neg (by decide)]
    simp [assignment, h1]
  have e : ending n = [(0, []), (0, c!"## END CLASS DEFINITION"), (0, [])] ++ [(0, c!"if not hasattr(" ++ n ++ c!", '_initCheetahAttributes'):")] ++
      [(1, c!"templateAPIClass = getattr(" ++ n ++ c!","), (1, c!"                           '_CHEETAH_templateClass',"),
       (1, c!"                           Template)"), (1, c!"templateAPIClass._addCheetahPlumbingCodeToClass(" ++ n ++ c!")")] ++
      (((ending []).drop 8).take 10) ++ [(1, c!"CmdLineIface(templateObj=" ++ n ++ c!"()).run()")] := rfl
  rw [e]
  simp only [allGlobals_append]
  have h1 : allGlobals [(0, []), (0, c!"## END CLASS DEFINITION"), (0, [])] = [] := by decide +kernel
  have h2 : allGlobals (((ending []).drop 8).take 10) = [] := by decide +kernel
  rw [h1, h2, allGlobals_deep (L := [(1, _), (1, _), (1, _), (1, _)]) (by simp), allGlobals_deep (L := [(1, _)]) (by simp)]
  simp only [allGlobals, List.flatMap_cons, List.flatMap_nil, h, if_true, List.append_nil]

/-! ### The properties -/

/-- C85: what a name of the generated module stands for, once Python has read it. The name of the class is the class. Any other name is what a comment
`##name@ value` says; else the value of the last `#set module` for it; else one of the compiler's short names; else what the last `#import` or `#from` that
gives the name imports; else what the compiler's own imports give. (The constants that the compiler sets last, `keptNames`, aside.) -/
theorem C85_names_of_a_module (o : Opts) (cf : Cf) (hl : 0 < cf.initLev) (hc : Word cf.className) (i : Info) (ht : i.versionTuple.head? ≠ some ' ')
    (hgt : i.genTime.head? ≠ some ' ') (offset : Nat) (header : List Str) (special : Dict Str Str) (hs : (special.map Prod.fst).Nodup)
    (hsw : ∀ k ∈ special.map Prod.fst, Word k ∧ k ∉ notNames) (cc : CC) (hsh : cc.shBang.head? = some '#')
    (hm : ∀ m ∈ cc.finished, ∀ p ∈ m.chunks, 0 < p.1) (imps : List Imp) (hg : ∀ i ∈ imps, i.Good) (hi : cc.imports = imps.map Imp.text)
    (as : List (Str × Str)) (has : cc.constants = as.map fun a => a.1 ++ c!" = " ++ a.2) (hw : ∀ a ∈ as, Word a.1 ∧ a.1 ∉ notNames ∧ a.2.head? ≠ some ' ')
    (x : Str) (hx : x ∉ keptNames) (hxd : x ≠ c!"__CHEETAH_docstring__") :
    globalOf (moduleLines o cf i offset header special cc) x =
      if x = cf.className then some (.cls (c!"class " ++ cf.className ++ c!"(" ++ cc.base ++ c!"):"))
      else match Dict.get special x with
      | some v => some (.val (pyRepr cf.printable v))
      | none =>
        match (as.filter fun a => a.1 = x).getLast? with
        | some a => some (.val a.2)
        | none =>
          match Dict.get shortNames x with
          | some e => some (.val e)
          | none =>
            match (imps.filter fun i => x ∈ i.binds).getLast? with
            | some i => some (.imported i.text)
            | none => ownImport x := by
  have hhead : allGlobals (headerLines offset cc.shBang header) = [] := by
    unfold headerLines
    obtain ⟨r, hr⟩ : ∃ r, cc.shBang = '#' :: r := by
      cases h : cc.shBang with
      | nil => rw [h] at hsh; cases hsh
      | cons c r => rw [h] at hsh; cases hsh; exact ⟨r, rfl⟩
    rw [allGlobals_append, hr]
    have e1 : allGlobals [(0, '#' :: r), (0, [])] = [] := by
      simp only [allGlobals, List.flatMap_cons, List.flatMap_nil, if_true, globalsOf_hash, List.nil_append, List.append_nil]
      decide +kernel
    rw [e1, List.nil_append]
    unfold allGlobals
    rw [List.flatMap_eq_nil_iff]
    intro p hp
    obtain ⟨l, _, rfl⟩ := List.mem_map.1 hp
    rw [if_pos rfl, List.cons_append]
    exact globalsOf_hash _
  have himp : allGlobals (cc.imports.map (0, ·)) = imps.flatMap fun i => i.binds.map fun n => (n, Global.imported i.text) := by
    rw [allGlobals_flat, hi, List.flatMap_map]
    clear hi
    induction imps with
    | nil => rfl
    | cons i is ih =>
      rw [List.flatMap_cons, List.flatMap_cons, ih fun j hj => hg j (List.mem_cons_of_mem _ hj)]
      congr 1
      unfold globalsOf
      rw [importNames_text (hg i (by simp))]
  have hcls : allGlobals (classLines o cf cc) = [(cf.className, .cls (c!"class " ++ cf.className ++ c!"(" ++ cc.base ++ c!"):"))] := by
    have e : classLines o cf cc = [(0, c!"class " ++ cf.className ++ c!"(" ++ cc.base ++ c!"):")] ++ (classLines o cf cc).tail := by
      unfold classLines; rfl
    rw [e, allGlobals_append, allGlobals_deep (class_deep o cf cc hl hm), List.append_nil]
    simp only [allGlobals, List.flatMap_cons, List.flatMap_nil, if_true, List.append_nil, globalsOf_class _ _ hc]
  have h1 : allGlobals (heading c!"DEPENDENCIES") = [] := by decide +kernel
  have h2 : allGlobals (heading c!"MODULE CONSTANTS") = [] := by decide +kernel
  have h3 : allGlobals (heading c!"CLASSES") = [] := by decide +kernel
  have h4 : allGlobals [(0, ([] : Str)), (0, [])] = [] := by decide +kernel
  have h5 : allGlobals [(0, ([] : Str))] = [] := by decide +kernel
  have h6 : allGlobals versionTest = [] := by decide +kernel
  have hall : allGlobals (moduleLines o cf i offset header special cc) =
      allGlobals firstImports ++ (imps.flatMap fun i => i.binds.map fun n => (n, Global.imported i.text)) ++
      (shortNames.map fun a => (a.1, Global.val a.2)) ++ (as.map fun a => (a.1, Global.val a.2)) ++
      (lastConstants o cf.printable i).flatMap globalsOf ++ (specialLines cf.printable i special).flatMap globalsOf ++
      [(cf.className, .cls (c!"class " ++ cf.className ++ c!"(" ++ cc.base ++ c!"):"))] := by
    unfold moduleLines
    have hflat := flat_assign as hw
    rw [← has] at hflat
    simp only [allGlobals_append, hhead, himp, hcls, h1, h2, h3, h4, h5, h6, ending_globals, allGlobals_flat, List.flatMap_append, first_constants,
      hflat, List.nil_append, List.append_nil, List.append_assoc]
  show lastGlobal (allGlobals (moduleLines o cf i offset header special cc)) x = _
  rw [hall]
  simp only [lastGlobal_append]
  rw [special_globals cf.printable i special hs hsw hxd, last_constants o cf.printable i ht hgt hx, lastGlobal_imports]
  have e1 : lastGlobal [(cf.className, Global.cls (c!"class " ++ cf.className ++ c!"(" ++ cc.base ++ c!"):"))] x =
      if x = cf.className then some (.cls (c!"class " ++ cf.className ++ c!"(" ++ cc.base ++ c!"):")) else none := by
    by_cases h : x = cf.className
    · subst h; simp [lastGlobal]
    · rw [if_neg h]; exact lastGlobal_none (by simpa using fun e => h e.symm)
  have e2 : lastGlobal (shortNames.map fun a => (a.1, Global.val a.2)) x = (Dict.get shortNames x).map Global.val := by
    rw [lastGlobal_map shortNames Prod.fst fun a => Global.val a.2, get_filter shortNames x (by decide)]
    cases Dict.get shortNames x <;> rfl
  have e3 : lastGlobal (as.map fun a => (a.1, Global.val a.2)) x = ((as.filter fun a => a.1 = x).getLast?).map fun a => .val a.2 :=
    lastGlobal_map as Prod.fst _ x
  rw [e1, e2, e3]
  by_cases h : x = cf.className
  · simp [h]
  · simp only [if_neg h, Option.none_or]
    cases Dict.get special x with
    | some v => rfl
    | none =>
      simp only [Option.map_none, Option.none_or]
      cases (as.filter fun a => decide (a.1 = x)).getLast? with
      | some a => rfl
      | none =>
        simp only [Option.map_none, Option.none_or]
        cases Dict.get shortNames x with
        | some e => rfl
        | none =>
          simp only [Option.map_none, Option.none_or]
          cases (imps.filter fun i => decide (x ∈ i.binds)).getLast? <;> rfl

/-- The compiler's own imports give the names in `boundAtStart` (but `builtin`, which is bound in an indented line, and what `*` gives), and no others. -/
theorem C85_own_imports (x : Str) : (ownImport x).isSome = true ↔ x ∈ boundAtStart ∧ x ≠ c!"builtin" ∧ x ≠ c!"DummyTransaction" := by
  have h : (allGlobals firstImports).map Prod.fst =
      [c!"sys", c!"os", c!"os", c!"getmtime", c!"exists", c!"time", c!"types", c!"RequiredCheetahVersion", c!"RequiredCheetahVersionTuple", c!"Template",
       c!"NotFound", c!"valueForName", c!"valueFromSearchList", c!"valueFromFrameOrSearchList", c!"CacheRegion", c!"Filters", c!"ErrorCatchers", c!"unicode"] := by
    decide +kernel
  have h2 : (ownImport x).isSome = true ↔ x ∈ (allGlobals firstImports).map Prod.fst := by
    unfold ownImport lastGlobal
    rw [Option.isSome_map, Option.isSome_iff_ne_none, ne_eq, List.getLast?_eq_none_iff, List.filter_eq_nil_iff]
    simp
  rw [h2, h]
  unfold boundAtStart
  simp only [List.mem_cons, List.not_mem_nil, or_false]
  constructor
  · intro hx
    rcases hx with rfl | rfl | rfl | rfl | rfl | rfl | rfl | rfl | rfl | rfl | rfl | rfl | rfl | rfl | rfl | rfl | rfl | rfl <;>
      exact ⟨by simp, by decide, by decide⟩
  · rintro ⟨hx, h3, h4⟩
    simp only [h3, h4, false_or] at hx
    tauto

/-- C85: the first line of the module is the one that `#shBang` gives. -/
theorem C85_first_line (o : Opts) (cf : Cf) (i : Info) (offset : Nat) (header : List Str) (special : Dict Str Str) (cc : CC) :
    (moduleLines o cf i offset header special cc).head? = some (0, cc.shBang) := rfl

/-- C85, violated for `bytes(compiler)` (Compiler.py 2042-2046): `#encoding` says how the text is encoded, but changes nothing in it, and neither of the first
two lines declares an encoding (unless `#shBang` does), so Python reads it as UTF-8. `Template.compile` adds the line (`C85_encoding`). -/
theorem C85_encoding_counterexample (o : Opts) (cf : Cf) (i : Info) (offset : Nat) (header : List Str) (special : Dict Str Str) (cc : CC)
    (hsh : ¬ Declares cc.shBang) (e : Str) :
    moduleLines o cf i offset header special { cc with encoding := e } = moduleLines o cf i offset header special cc ∧
    ∀ l ∈ (moduleLines o cf i offset header special cc).take 2, ¬ Declares l.2 := by
  refine ⟨rfl, ?_⟩
  have : (moduleLines o cf i offset header special cc).take 2 = [(0, cc.shBang), (0, [])] := rfl
  rw [this]
  intro l hl
  simp only [List.mem_cons, List.not_mem_nil, or_false] at hl
  rcases hl with rfl | rfl
  · exact hsh
  · rintro ⟨a, b, c, h, _⟩
    simp at h

/-! ### From the commands -/

/-- The `#set module` directives among the commands, as statements. -/
def constantsIn (cmds : List Cmd) : List Str :=
  cmds.filterMap fun
    | .set l op r 2 => some (l ++ c!" " ++ op ++ c!" " ++ strip r)
    | _ => none

/-- The last `#encoding` among the commands. -/
def encodingIn (s : Str) (cmds : List Cmd) : Str :=
  cmds.foldl (fun s k => match k with | .encoding t => t | _ => s) s

/-- The last `#shBang` among the commands. -/
def shBangIn (s : Str) (cmds : List Cmd) : Str :=
  cmds.foldl (fun s k => match k with | .shBang t => t | _ => s) s

/-- What `#set module`, `#shBang` and `#encoding` say. -/
def facts (c : CC) : List Str × Str × Str := (c.constants, c.shBang, c.encoding)

/-- A result with the same constants, first line and encoding. -/
def Same (c : CC) (r : Except Fail CC) : Prop := ∀ c', r = .ok c' → facts c' = facts c

theorem Same.refl {c : CC} : Same c (.ok c) := by intro c' h; cases h; exact rfl

theorem Same.fail {c : CC} {e : Fail} : Same c (.error e) := fun _ h => nomatch h

theorem Same.bind {α : Type} {c : CC} {r : Except Fail α} {k : α → Except Fail CC} {g : α → CC} (h : ∀ a, r = .ok a → facts (g a) = facts c)
    (hk : ∀ a, Same (g a) (k a)) : Same c (r >>= k) := by
  intro c' h2
  cases r with
  | error e => cases h2
  | ok d =>
    exact (hk d c' h2).trans (h d rfl)

theorem Same.of {c d : CC} {r : Except Fail CC} (h : Same d r) (h1 : facts d = facts c) : Same c r := by
  intro c' hr
  exact (h c' hr).trans h1

theorem onTop_stays {c : CC} {k : Meth → Except Fail Meth} : Same c (c.onTop k) := by
  unfold CC.onTop
  cases c.active with
  | nil => exact Same.fail
  | cons m ms =>
    intro c' h
    simp only [Bind.bind, Except.bind] at h
    cases hk : k m with
    | error e => rw [hk] at h; cases h
    | ok m' => rw [hk] at h; cases h; exact rfl

theorem top_stays {c : CC} {k : Meth → Meth} : Same c (c.top k) := onTop_stays

theorem swallow_stays {cf : Cf} {c : CC} {m : Meth} : Same c (c.swallow cf m) := by
  intro c' h
  unfold CC.swallow at h
  simp only [Bind.bind, Except.bind] at h
  cases hk : m.finish cf with
  | error e => rw [hk] at h; cases h
  | ok m' => rw [hk] at h; cases h; exact rfl

theorem setMainName_stays {c : CC} {n : Str} : Same c (c.setMainName n) := by
  unfold CC.setMainName
  split
  · exact Same.refl
  · cases Dict.get c.index c.mainName with
    | none => exact Same.fail
    | some u => intro c' h; cases h; exact rfl

theorem setMainArgs_stays {c : CC} {as : List (Str × Option Str)} : Same c (c.setMainArgs as) := by
  unfold CC.setMainArgs
  cases Dict.get c.index c.mainName with
  | none => exact Same.fail
  | some u => intro c' h; cases h; exact rfl

theorem wrapExpr_stays {c : CC} {e raw : Str} {k : Str → Meth → Except Fail Meth} :
    Same c ((c.wrapExpr e raw).2.onTop (k (c.wrapExpr e raw).1)) := by
  have : facts (c.wrapExpr e raw).2 = facts c := by
    unfold CC.wrapExpr
    cases c.active with
    | nil => exact rfl
    | cons m ms =>
      show facts (if _ then _ else _ : Str × CC).2 = _
      split <;> exact rfl
  exact onTop_stays.of this

theorem placeholder_stays {cf : Cf} {c : CC} {e raw : Str} {fa : Option Str} {tok : Interval.Token} {silent : Bool} :
    Same c (c.placeholder cf e raw fa tok silent) := by
  unfold CC.placeholder
  cases Interval.genCacheInfo tok with
  | error er => exact Same.fail
  | ok info =>
    simp only
    cases CC.infoOf info with
    | none => exact wrapExpr_stays (k := fun e => CC.placeLines cf e (fa.getD []) raw silent)
    | some interval =>
      simp only
      refine Same.bind (g := id) ?_ fun d => ?_
      · exact onTop_stays.of rfl
      · exact Same.bind (g := id) (wrapExpr_stays (k := fun e => CC.placeLines cf e (fa.getD []) raw silent)) fun d => onTop_stays

theorem startCache_stays {cf : Cf} {c : CC} {as : List (Str × Option Str)} : Same c (c.startCache cf as) := by
  unfold CC.startCache
  cases CC.argVals as with
  | error e => exact Same.fail
  | ok vs =>
    simp only [Bind.bind, Except.bind]
    cases Interval.fromArgList vs with
    | error e => exact Same.fail
    | ok d => exact onTop_stays.of rfl

theorem addImported_stays {cf : Cf} {c : CC} {vs : List Str} {raw : Option Str} : Same c (c.addImported cf vs raw) := by
  unfold CC.addImported
  split
  · exact Same.refl
  split
  · exact Same.refl.of rfl
  split
  · split
    · exact Same.refl
    · exact top_stays
  · exact Same.refl

theorem import_stays {cf : Cf} {c : CC} {e : Str} : Same c (c.import_ cf e) := by
  unfold CC.import_
  simp only
  split
  · exact Same.fail
  · split
    · exact addImported_stays.of rfl
    · exact addImported_stays

theorem importClass_stays {cf : Cf} {c : CC} {m k : Str} : Same c (c.importClass cf m k) :=
  Same.bind (g := id) import_stays fun _ => addImported_stays

theorem oneBase_stays {cf : Cf} {c : CC} {k : Str} : ∀ a, c.oneBase cf k = .ok a → facts a.2 = facts c := by
  intro a h
  have imp : ∀ {m k b : Str}, (do let c ← c.importClass cf m k; .ok (b, c) : Except Fail (Str × CC)) = .ok a →
      facts a.2 = facts c := by
    intro m k b h
    simp only [Bind.bind, Except.bind] at h
    cases hk : c.importClass cf m k with
    | error e => rw [hk] at h; cases h
    | ok d => rw [hk] at h; cases h; exact importClass_stays d hk
  unfold CC.oneBase at h
  split at h
  · cases h; exact rfl
  · split at h
    · cases h; exact rfl
    · exact imp h
  · split at h
    · cases h; exact rfl
    · exact imp h

theorem bases_stays {cf : Cf} : ∀ (ks : List Str) (c : CC) (a : List Str × CC), c.bases cf ks = .ok a → facts a.2 = facts c
  | [], c, a, h => by cases h; exact rfl
  | k :: ks, c, a, h => by
    rw [CC.bases] at h
    simp only [Bind.bind, Except.bind] at h
    cases hk : c.oneBase cf (strip k) with
    | error e => rw [hk] at h; cases h
    | ok d =>
      rw [hk] at h
      simp only at h
      cases hb : d.2.bases cf ks with
      | error e => rw [hb] at h; cases h
      | ok b =>
        rw [hb] at h
        cases h
        exact (bases_stays ks d.2 b hb).trans (oneBase_stays _ hk)

theorem setBase_stays {cf : Cf} {c : CC} {e : Str} : Same c (c.setBase cf e) := by
  unfold CC.setBase
  split
  · exact Same.refl.of rfl
  · exact Same.bind (g := Prod.snd) (bases_stays _ c) fun a => Same.refl.of rfl

/-- Only `#set module`, `#shBang` and `#encoding` change the constants, the first line and the encoding. -/
theorem step_stays {cf : Cf} {k : Cmd} {c : CC} (h1 : ∀ l op r, k ≠ .set l op r 2) (h2 : ∀ s, k ≠ .shBang s) (h3 : ∀ s, k ≠ .encoding s) : Same c (CC.step cf k c) := by
  cases k with
  | strConst s => exact top_stays
  | raw s => exact top_stays
  | comment s =>
    show Same c (if _ then _ else _)
    split
    · exact Same.refl
    · exact top_stays
  | handleWS => exact top_stays
  | commit => exact top_stays
  | placeholder e raw fa tok silent => exact placeholder_stays
  | psp s => exact onTop_stays
  | indenting n e => exact top_stays
  | reindenting n e d => exact onTop_stays
  | ternary a b e => exact onTop_stays
  | dedent => exact onTop_stays
  | simple n e =>
    show Same c (c.simple cf n e)
    unfold CC.simple
    split
    · exact top_stays
    split
    · exact top_stays
    split
    · exact onTop_stays
    split
    · exact onTop_stays
    split
    · exact import_stays
    · exact top_stays
  | set l op r style =>
    have hs : style ≠ 2 := fun e => h1 l op r (by rw [e])
    show Same c (match SetDirective.addSet l op r (if style = 1 then .global else if style = 2 then .module else .local) with
      | .inMethod t => _ | .inModule t => _)
    rw [if_neg hs]
    by_cases h : style = 1
    · rw [if_pos h]; exact top_stays
    · rw [if_neg h]; exact top_stays
  | include_ e a b => exact top_stays
  | startCall f a => exact top_stays.of rfl
  | endCall => exact onTop_stays
  | callArg n => exact onTop_stays
  | startCapture e => exact top_stays.of rfl
  | endCapture => exact onTop_stays
  | startCache as => exact startCache_stays
  | endCache => exact onTop_stays
  | setFilter g k => exact onTop_stays.of rfl
  | closeFilter => exact onTop_stays
  | setTransform g k => exact top_stays
  | errorCatcher n => exact onTop_stays
  | errorCatcherOff => exact top_stays
  | startMethod n as => intro c' h; cases h; exact rfl
  | addClosure n as => exact top_stays
  | closeDef =>
    show Same c (c.closeDef cf)
    unfold CC.closeDef
    cases c.active with
    | nil => exact Same.fail
    | cons m ms => exact swallow_stays.of rfl
  | closeBlock =>
    show Same c (c.closeBlock cf)
    unfold CC.closeBlock
    cases c.active with
    | nil => exact Same.fail
    | cons m ms => exact Same.bind (g := id) (swallow_stays.of rfl) fun d => top_stays
  | attr n e =>
    show Same c (if _ then _ else _)
    split
    · exact Same.fail
    · exact Same.refl.of rfl
  | decorator e => exact Same.refl.of rfl
  | extends_ e => exact Same.bind (g := id) setMainName_stays fun d => setBase_stays
  | implements_ n as => exact Same.bind (g := id) setMainName_stays fun d => setMainArgs_stays
  | super as =>
    show Same c (match c.active with | [] => _ | m :: _ => _)
    cases c.active with
    | nil => exact Same.fail
    | cons m ms => exact top_stays
  | shBang s => exact absurd rfl (h2 s)
  | encoding s => exact absurd rfl (h3 s)

theorem finishAll_stays {cf : Cf} : ∀ (ms : List Meth) (c : CC), Same c (CC.finishAll cf ms c)
  | [], c => Same.refl.of rfl
  | m :: ms, c => by
    rw [CC.finishAll]
    exact Same.bind (g := id) swallow_stays fun d => finishAll_stays ms d

/-- C85: wherever the directives are written, in a loop, a `#def` or a `#block`, each `#set module` becomes a statement of the module, once and in order,
the last `#shBang` gives its first line and the last `#encoding` its encoding; nothing else does. -/
theorem C85_module_statements (cf : Cf) (cmds : List Cmd) (cc : CC) (h : CC.compile cf cmds = .ok cc) :
    cc.constants = constantsIn cmds ∧ cc.shBang = shBangIn c!"#!/usr/bin/env python" cmds ∧ cc.encoding = encodingIn c!"ascii" cmds := by
  have key : ∀ (cmds : List Cmd) (d c : CC), CC.steps cf cmds d = .ok c →
      facts c = (d.constants ++ constantsIn cmds, shBangIn d.shBang cmds, encodingIn d.encoding cmds) := by
    intro cmds
    induction cmds with
    | nil => intro d c h; cases h; simp [constantsIn, shBangIn, encodingIn, facts]
    | cons k ks ih =>
      intro d c h
      rw [CC.steps] at h
      simp only [Bind.bind, Except.bind] at h
      cases hk : CC.step cf k d with
      | error e => rw [hk] at h; cases h
      | ok d' =>
        rw [hk] at h
        have i1 := ih d' c h
        by_cases h1 : ∃ l op r, k = .set l op r 2
        · obtain ⟨l, op, r, rfl⟩ := h1
          cases hk
          rw [i1]
          simp [constantsIn, SetDirective.addSet, shBangIn, encodingIn]
        by_cases h2 : ∃ s, k = .shBang s
        · obtain ⟨s, rfl⟩ := h2
          cases hk
          exact i1
        by_cases h3 : ∃ s, k = .encoding s
        · obtain ⟨s, rfl⟩ := h3
          cases hk
          exact i1
        have s1 := step_stays (fun l op r e => h1 ⟨l, op, r, e⟩) (fun s e => h2 ⟨s, e⟩) (fun s e => h3 ⟨s, e⟩) d' hk
        have e1 : d'.constants = d.constants := congrArg Prod.fst s1
        have e2 : d'.shBang = d.shBang := congrArg (fun p => p.2.1) s1
        have e3 : d'.encoding = d.encoding := congrArg (fun p => p.2.2) s1
        rw [i1, e1, e2, e3]
        have c1 : constantsIn (k :: ks) = constantsIn ks := by
          unfold constantsIn
          rw [List.filterMap_cons]
          split
          · rfl
          · rename_i b hb
            exfalso
            split at hb
            · rename_i l op r
              exact h1 ⟨l, op, r, rfl⟩
            · cases hb
        have c2 : shBangIn d.shBang (k :: ks) = shBangIn d.shBang ks := by
          unfold shBangIn
          rw [List.foldl_cons]
          congr 1
          split
          · rename_i t
            exact absurd ⟨t, rfl⟩ h2
          · rfl
        have c3 : encodingIn d.encoding (k :: ks) = encodingIn d.encoding ks := by
          unfold encodingIn
          rw [List.foldl_cons]
          congr 1
          split
          · rename_i t
            exact absurd ⟨t, rfl⟩ h3
          · rfl
        rw [c1, c2, c3]
  unfold CC.compile at h
  simp only [Bind.bind, Except.bind] at h
  cases hs : CC.steps cf cmds (CC.start cf) with
  | error e => rw [hs] at h; cases h
  | ok c =>
    rw [hs] at h
    have f1 := (finishAll_stays c.active c cc h).trans (key cmds _ c hs)
    exact ⟨congrArg Prod.fst f1, congrArg (fun p => p.2.1) f1, congrArg (fun p => p.2.2) f1⟩

example : ((CC.compile demoCf [.indenting c!"for" c!"for x in y", .set c!"n" c!"=" c!" 1 " 2, .shBang c!"#!/bin/py", .encoding c!"utf-8", .dedent,
      .set c!"n" c!"=" c!" 2" 0, .set c!"m" c!"=" c!" 3" 2]).toOption.map fun c => (c.constants, c.shBang, c.encoding)) =
    some ([c!"n = 1", c!"m = 3"], c!"#!/bin/py", c!"utf-8") := by decide +kernel

/-- The text of lines. -/
def linesText (ls : List (Nat × Str)) : Str := joinStr c!"\n" (ls.map fun l => List.replicate (4 * l.1) ' ' ++ l.2)

/-- C85, the encoding: in the text that `compile` returns for a file, where the encoding of the template is not ASCII, the second line declares it to Python,
and the rest is the module. -/
theorem C85_encoding (o : Opts) (cf : Cf) (i : Info) (offset : Nat) (header : List Str) (special : Dict Str Str) (cc : CC) (hn : '\n' ∉ cc.shBang)
    (he : cc.encoding ≠ c!"ascii") (other : Str → Str → Option (List Nat)) :
    ∃ first coding rest, moduleLines o cf i offset header special cc = first :: rest ∧ Declares coding ∧ cc.encoding <:+: coding ∧
      CompileCache.moduleText other (some cc.encoding) (linesText (moduleLines o cf i offset header special cc)) =
        other cc.encoding (linesText (first :: (0, coding) :: rest)) := by
  obtain ⟨rest, hr, hne⟩ : ∃ rest, moduleLines o cf i offset header special cc = (0, cc.shBang) :: rest ∧ rest ≠ [] := ⟨_, rfl, List.cons_ne_nil _ _⟩
  rw [hr]
  generalize cc.encoding = e at he ⊢
  generalize cc.shBang = f at hn ⊢
  clear hr
  refine ⟨(0, f), c!"# -*- coding: " ++ e ++ c!" -*-", rest, rfl, ⟨[], c!" -*- ", c!"coding: " ++ e ++ c!" -*-", ?_, Or.inl ?_⟩, ?_, ?_⟩
  · simp
  · exact ⟨' ' :: e ++ c!" -*-", by simp⟩
  · exact ⟨_, _, rfl⟩
  · unfold CompileCache.moduleText
    simp only [Option.getD_some]
    rw [if_neg he, CompileCache.encode, if_neg he]
    have hj : ∀ (a : Nat × Str) (ls : List (Nat × Str)), ls ≠ [] →
        linesText (a :: ls) = List.replicate (4 * a.1) ' ' ++ a.2 ++ '\n' :: linesText ls := by
      intro a ls hls
      cases ls with
      | nil => exact absurd rfl hls
      | cons b ls => simp [linesText, joinStr]
    rw [hj _ _ hne, hj _ _ (List.cons_ne_nil _ _), hj _ _ hne]
    simp only [Nat.mul_zero, List.replicate_zero, List.nil_append]
    rw [(CompileCache.C66_coding_line e f _ hn).1]
    simp

/-- A module in UTF-8 meets the hypotheses. -/
example : '\n' ∉ ({ CC.start demoCf with encoding := c!"utf-8" } : CC).shBang ∧ ({ CC.start demoCf with encoding := c!"utf-8" } : CC).encoding ≠ c!"ascii" := by
  decide +kernel

/-! ### Examples -/

/-- What a module says about itself. -/
def demoInfo : Info := ⟨c!"Autogenerated", c!"3.4.0", c!"(3, 4, 0)", c!"1.5", c!"Mon", none⟩

/-- A class with imports and constants. -/
def demoModule : CC := { demoCC with imports := [c!"import os.path as os, time", c!"from m import x, y as z"],
                                     constants := [c!"VFN = 1", c!"a = 2", c!"a = 3"] }

/-- What a name of the module stands for. -/
def demoGlobal (x : Str) : Option Global :=
  globalOf (moduleLines {} Driver.demoCf demoInfo 1 [c!"hello"] [(c!"__author__", c!"me")] demoModule) x

example : demoGlobal c!"a" = some (.val c!"3") ∧ demoGlobal c!"VFN" = some (.val c!"1") ∧ demoGlobal c!"VFSL" = some (.val c!"valueFromSearchList") ∧
    demoGlobal c!"os" = some (.imported c!"import os.path as os, time") ∧ demoGlobal c!"z" = some (.imported c!"from m import x, y as z") ∧
    demoGlobal c!"sys" = some (.imported c!"import sys") ∧ demoGlobal c!"y" = none ∧ demoGlobal c!"__author__" = some (.val c!"'me'") := by
  decide +kernel

example : demoModule.imports = [Imp.modules [⟨[c!"os", c!"path"], some c!"os"⟩, ⟨[c!"time"], none⟩],
      .names [c!"m"] [⟨[c!"x"], none⟩, ⟨[c!"y"], some c!"z"⟩]].map Imp.text ∧
    demoModule.constants = [(c!"VFN", c!"1"), (c!"a", c!"2"), (c!"a", c!"3")].map (fun a => a.1 ++ c!" = " ++ a.2) ∧
    demoModule.shBang.head? = some '#' ∧ ∀ m ∈ demoModule.finished, ∀ p ∈ m.chunks, 0 < p.1 := by decide

end Cheetah.EndToEnd
