import Verif.WebInput
/-
C47: webInput.
-/
namespace Cheetah.WebInput

/-! ### Specification -/

/-- A requested name is a name, or a name and a suffix after the first colon. -/
def Asks (name short ext : Str) : Prop :=
  ':' ∉ short ∧ (name = short ++ ':' :: ext ∨ name = short ∧ ext = [])

/-- The strings a lookup gave. -/
def given : Raw → List Str
  | .none => []
  | .one s => [s]
  | .many l => l

def Empty (r : Raw) : Prop := r = .none ∨ r = .one [] ∨ r = .many []

/-- The strings found for a request: the full name comes first, the bare name is used if
the full name gives nothing. -/
def Found (func : Str → Raw) (name short : Str) (l : List Str) : Prop :=
  (¬ Empty (func name) ∧ l = given (func name)) ∨ (Empty (func name) ∧ l = given (func short))

/-- The value of one string under a suffix. -/
def ValueOf (d : Defaults) (ext s : Str) (v : V) : Prop :=
  (ext = [] ∧ v = .str s) ∨
  (ext = c!"int" ∧ ((∃ n, pyInt s = some n ∧ v = .int n) ∨ (pyInt s = none ∧ d.badInt = .val v))) ∨
  (ext = c!"float" ∧ ((∃ q, Interval.parseFloat s = some q ∧ v = .float q) ∨
    (Interval.parseFloat s = none ∧ d.badFloat = .val v)))

/-- What stands in for a missing value. -/
def Missing (d : Defaults) (ext : Str) (t : Thing) : Prop :=
  (ext = [] ∧ t = d.default) ∨ (ext = c!"int" ∧ t = d.defaultInt) ∨ (ext = c!"float" ∧ t = d.defaultFloat)

inductive Values (d : Defaults) (ext : Str) : List Str → List V → Prop
  | nil : Values d ext [] []
  | cons {s : Str} {v : V} {l : List Str} {vs : List V} : ValueOf d ext s v → Values d ext l vs → Values d ext (s :: l) (v :: vs)

/-- The entry for one request: all values, or the first one, or the default. -/
def Answer (d : Defaults) (multi : Bool) (ext : Str) (l : List Str) (e : Entry) : Prop :=
  (ext = [] ∨ ext = c!"int" ∨ ext = c!"float") ∧
  ∃ vs, Values d ext l vs ∧
    ((multi = true ∧ e = .multi vs) ∨
     (multi = false ∧ ∃ v rest, vs = v :: rest ∧ e = .single v) ∨
     (multi = false ∧ vs = [] ∧ ∃ v, Missing d ext (.val v) ∧ e = .single v))

/-- Why a request raises. -/
def Fails (d : Defaults) (multi : Bool) (ext : Str) (l : List Str) (e : Err) : Prop :=
  (e = .typeError ∧ ext ≠ [] ∧ ext ≠ c!"int" ∧ ext ≠ c!"float") ∨
  (∃ c, e = .user c ∧ ext = c!"int" ∧ d.badInt = .exc c ∧ ∃ s ∈ l, pyInt s = none) ∨
  (∃ c, e = .user c ∧ ext = c!"float" ∧ d.badFloat = .exc c ∧ ∃ s ∈ l, Interval.parseFloat s = none) ∨
  (∃ c, e = .user c ∧ multi = false ∧ l = [] ∧ Missing d ext (.exc c))

/-- Where the values come from: fields of the form in a CGI script (read once per process),
else the request. -/
inductive ComesFrom (st : State) (out : Outside) : Str → (Str → Raw) → Prop
  | remembered {src : Str} {f : Str → Raw} : st.isCgi = true → src ∈ [c!"f", c!"F", c!"v", c!"V"] →
      st.form = some f → ComesFrom st out src f
  | read {src : Str} : st.isCgi = true → src ∈ [c!"f", c!"F", c!"v", c!"V"] →
      st.form = none → ComesFrom st out src out.query
  | servlet {src : Str} {s : Source} : st.isCgi = false →
      (src, s) ∈ [(c!"f", Source.requestField), (c!"F", .requestField), (c!"c", .requestCookie),
        (c!"C", .requestCookie), (c!"v", .requestValue), (c!"V", .requestValue),
        (c!"s", .requestSession), (c!"S", .requestSession)] →
      ComesFrom st out src (out.request s)

/-! ### Lemmas -/

theorem cutSuffix_asks (name : Str) : Asks name (cutSuffix name).1 (cutSuffix name).2 := by
  induction name with
  | nil => exact ⟨by simp [cutSuffix], .inr ⟨rfl, rfl⟩⟩
  | cons c s ih =>
    rw [cutSuffix]
    split
    · rename_i h; subst h; exact ⟨by simp, .inl rfl⟩
    · rename_i h
      refine ⟨by simp [ih.1, Ne.symm h], ?_⟩
      rcases ih.2 with e | ⟨e1, e2⟩
      · left; simp only [List.cons_append, ← e]
      · right; exact ⟨by rw [← e1], e2⟩

theorem asks_unique {name short ext : Str} (h : Asks name short ext) : cutSuffix name = (short, ext) := by
  obtain ⟨h1, h2⟩ := h
  have key : ∀ short : Str, ':' ∉ short → (∀ ext, cutSuffix (short ++ ':' :: ext) = (short, ext)) ∧
      cutSuffix short = (short, []) := by
    intro short
    induction short with
    | nil => intro _; exact ⟨fun ext => by simp [cutSuffix], rfl⟩
    | cons c s ih =>
      intro hn
      obtain ⟨i1, i2⟩ := ih fun hm => hn (List.mem_cons_of_mem _ hm)
      have hc : c ≠ ':' := fun e => hn (by simp [e])
      constructor
      · intro ext; simp [cutSuffix, hc, i1]
      · simp [cutSuffix, hc, i2]
  rcases h2 with e | ⟨e1, e2⟩
  · rw [e, (key short h1).1]
  · rw [e1, e2, (key short h1).2]

theorem truthy_iff (r : Raw) : r.truthy = true ↔ ¬ Empty r := by
  cases r with
  | none => simp [Raw.truthy, Empty]
  | one s => cases s <;> simp [Raw.truthy, Empty]
  | many l => cases l <;> simp [Raw.truthy, Empty]

theorem toList_eq (r : Raw) : r.toList = given r := by cases r <;> rfl

theorem find_found {func : Str → Raw} {name short ext : Str} (h : Asks name short ext) :
    Found func name short ((find func name).toList) := by
  have hc := asks_unique h
  have toList_empty : ∀ r : Raw, Empty r → ¬ Empty r ∧ True ∨ Empty r := fun r h => .inr h
  unfold find
  simp only [hc]
  by_cases hn : name = short
  · rw [if_neg (by simp [hn]), toList_eq]
    subst hn
    by_cases he : Empty (func name)
    · exact .inr ⟨he, rfl⟩
    · exact .inl ⟨he, rfl⟩
  · rw [if_pos hn]
    by_cases ht : (func name).truthy = true
    · rw [if_pos ht, toList_eq]; exact .inl ⟨(truthy_iff _).mp ht, rfl⟩
    · rw [if_neg ht, toList_eq]
      have : Empty (func name) := Classical.byContradiction fun hh => ht ((truthy_iff _).mpr hh)
      exact .inr ⟨this, rfl⟩

theorem found_unique {func : Str → Raw} {name short : Str} {l l' : List Str}
    (h : Found func name short l) (h' : Found func name short l') : l = l' := by
  rcases h with ⟨a, b⟩ | ⟨a, b⟩ <;> rcases h' with ⟨a', b'⟩ | ⟨a', b'⟩
  · rw [b, b']
  · exact absurd a' a
  · exact absurd a a'
  · rw [b, b']

theorem convertAll_cases {f : Str → Option V} {error : Thing} {d : Defaults} {ext : Str}
    (hok : ∀ s v, f s = some v → ValueOf d ext s v)
    (hbad : ∀ s v, f s = none → error = .val v → ValueOf d ext s v) : ∀ l : List Str,
    (∃ vs, convertAll f error l = .ok vs ∧ Values d ext l vs) ∨
    (∃ c, convertAll f error l = .error (.user c) ∧ error = .exc c ∧ ∃ s ∈ l, f s = none)
  | [] => .inl ⟨[], rfl, .nil⟩
  | s :: l => by
    cases hf : f s with
    | some v =>
      have h1 : convertOne f error s = .ok v := by simp [convertOne, hf]
      rcases convertAll_cases hok hbad l with ⟨vs, e, hv⟩ | ⟨c, e, hc, x, hx, hn⟩
      · left; exact ⟨v :: vs, by simp [convertAll, h1, e], .cons (hok s v hf) hv⟩
      · right; exact ⟨c, by simp [convertAll, h1, e], hc, x, by simp [hx], hn⟩
    | none =>
      cases he : error with
      | exc c =>
        right
        exact ⟨c, by simp [convertAll, convertOne, hf, useOrRaise], rfl, s, by simp, hf⟩
      | val v =>
        have h1 : convertOne f (.val v) s = .ok v := by simp [convertOne, hf, useOrRaise]
        rw [he] at hbad
        rcases convertAll_cases hok hbad l with ⟨vs, e, hv⟩ | ⟨c, e, hc, x, hx, hn⟩
        · left; exact ⟨v :: vs, by simp [convertAll, h1, e], .cons (hbad s v hf rfl) hv⟩
        · cases hc

theorem values_str (d : Defaults) : ∀ l : List Str, Values d [] l (l.map V.str)
  | [] => .nil
  | _ :: l => .cons (.inl ⟨rfl, rfl⟩) (values_str d l)

theorem shape_cases {d : Defaults} {c : Conv} {ext : Str} (multi : Bool) {l : List Str} {vs : List V}
    (hm : Missing d ext c.default)
    (hext : ext = [] ∨ ext = c!"int" ∨ ext = c!"float") (hv : Values d ext l vs) :
    (∃ e, shape c multi vs = .ok e ∧ Answer d multi ext l e) ∨
    (∃ e, shape c multi vs = .error e ∧ Fails d multi ext l e) := by
  unfold shape
  cases multi with
  | true => left; exact ⟨.multi vs, rfl, hext, vs, hv, .inl ⟨rfl, rfl⟩⟩
  | false =>
    cases hv with
    | nil =>
      cases hd : c.default with
      | val v =>
        rw [hd] at hm
        left
        refine ⟨.single v, ?_, hext, [], .nil, .inr (.inr ⟨rfl, rfl, v, hm, rfl⟩)⟩
        simp [useOrRaise, Except.map, hd]
      | exc k =>
        rw [hd] at hm
        right
        exact ⟨.user k, by simp [useOrRaise, Except.map, hd], .inr (.inr (.inr ⟨k, rfl, rfl, rfl, hm⟩))⟩
    | @cons s v l vs h1 h2 =>
      left; exact ⟨.single v, rfl, hext, v :: vs, .cons h1 h2, .inr (.inl ⟨rfl, v, vs, rfl, rfl⟩)⟩

/-- One request either is answered or fails, for one of the stated reasons. -/
theorem lookup_cases {func : Str → Raw} {d : Defaults} (multi : Bool) {name short ext : Str} {l : List Str}
    (ha : Asks name short ext) (hf : Found func name short l) :
    (∃ e, lookup name func multi (converters d) = .ok (short, e) ∧ Answer d multi ext l e) ∨
    (∃ e, lookup name func multi (converters d) = .error e ∧ Fails d multi ext l e) := by
  have hl : (find func name).toList = l := found_unique (find_found ha) hf
  unfold lookup
  simp only [asks_unique ha, hl]
  by_cases h0 : ext = []
  · subst h0
    have hc : converters d [] = some ⟨none, d.default, d.default⟩ := by simp [converters]
    simp only [hc, convert]
    rcases shape_cases (c := ⟨none, d.default, d.default⟩) multi (.inl ⟨rfl, rfl⟩) (.inl rfl) (values_str d l)
      with ⟨e, h1, h2⟩ | ⟨e, h1, h2⟩
    · left; exact ⟨e, by rw [h1]; rfl, h2⟩
    · right; exact ⟨e, by rw [h1]; rfl, h2⟩
  · by_cases h1 : ext = c!"int"
    · subst h1
      have hc : converters d c!"int" = some ⟨some fun s => (pyInt s).map .int, d.defaultInt, d.badInt⟩ := by
        simp [converters]
      simp only [hc, convert]
      rcases convertAll_cases (f := fun s => (pyInt s).map V.int) (error := d.badInt) (d := d) (ext := c!"int")
        (fun s v h => by
          cases hp : pyInt s with
          | none => simp [hp] at h
          | some n => simp [hp] at h; exact .inr (.inl ⟨rfl, .inl ⟨n, hp, h.symm⟩⟩))
        (fun s v h he => by
          cases hp : pyInt s with
          | none => exact .inr (.inl ⟨rfl, .inr ⟨hp, he⟩⟩)
          | some n => simp [hp] at h) l with ⟨vs, e, hv⟩ | ⟨c, e, hb, s, hs, hn⟩
      · simp only [e]
        rcases shape_cases (c := ⟨some fun s => (pyInt s).map .int, d.defaultInt, d.badInt⟩) multi
          (.inr (.inl ⟨rfl, rfl⟩)) (.inr (.inl rfl)) hv with ⟨e, h1, h2⟩ | ⟨e, h1, h2⟩
        · left; exact ⟨e, by rw [h1]; rfl, h2⟩
        · right; exact ⟨e, by rw [h1]; rfl, h2⟩
      · right
        simp only [e]
        refine ⟨_, rfl, .inr (.inl ⟨c, rfl, rfl, hb, s, hs, ?_⟩)⟩
        cases hp : pyInt s with
        | none => rfl
        | some n => simp [hp] at hn
    · by_cases h2 : ext = c!"float"
      · subst h2
        have hc : converters d c!"float" =
            some ⟨some fun s => (Interval.parseFloat s).map .float, d.defaultFloat, d.badFloat⟩ := by
          simp [converters]
        simp only [hc, convert]
        rcases convertAll_cases (f := fun s => (Interval.parseFloat s).map V.float) (error := d.badFloat) (d := d)
          (ext := c!"float")
          (fun s v h => by
            cases hp : Interval.parseFloat s with
            | none => simp [hp] at h
            | some n => simp [hp] at h; exact .inr (.inr ⟨rfl, .inl ⟨n, hp, h.symm⟩⟩))
          (fun s v h he => by
            cases hp : Interval.parseFloat s with
            | none => exact .inr (.inr ⟨rfl, .inr ⟨hp, he⟩⟩)
            | some n => simp [hp] at h) l with ⟨vs, e, hv⟩ | ⟨c, e, hb, s, hs, hn⟩
        · simp only [e]
          rcases shape_cases (c := ⟨some fun s => (Interval.parseFloat s).map .float, d.defaultFloat, d.badFloat⟩) multi
            (.inr (.inr ⟨rfl, rfl⟩)) (.inr (.inr rfl)) hv with ⟨e, h1, h2⟩ | ⟨e, h1, h2⟩
          · left; exact ⟨e, by rw [h1]; rfl, h2⟩
          · right; exact ⟨e, by rw [h1]; rfl, h2⟩
        · right
          simp only [e]
          refine ⟨_, rfl, .inr (.inr (.inl ⟨c, rfl, rfl, hb, s, hs, ?_⟩))⟩
          cases hp : Interval.parseFloat s with
          | none => rfl
          | some n => simp [hp] at hn
      · right
        have hc : converters d ext = none := by simp [converters, h0, h1, h2]
        simp only [hc]
        exact ⟨_, rfl, .inl ⟨rfl, h0, h1, h2⟩⟩

/-- An answered request does not fail. -/
theorem answer_not_fails {d : Defaults} {multi : Bool} {ext : Str} {l : List Str} {en : Entry} {e : Err}
    (h : Answer d multi ext l en) (hf : Fails d multi ext l e) : False := by
  obtain ⟨hext, vs, hv, hs⟩ := h
  have bad : ∀ (s : Str), s ∈ l → ∃ v, ValueOf d ext s v := by
    clear hs hf
    intro s hs
    induction hv with
    | nil => cases hs
    | @cons s' v l vs h1 _ ih =>
      rcases List.mem_cons.mp hs with e | hm
      · exact ⟨v, by rw [e]; exact h1⟩
      · exact ih hm
  rcases hf with ⟨_, a, b, c⟩ | ⟨c, _, he, hb, s, hm, hn⟩ | ⟨c, _, he, hb, s, hm, hn⟩ | ⟨c, _, hmu, hl, hmi⟩
  · rcases hext with h | h | h
    · exact a h
    · exact b h
    · exact c h
  · obtain ⟨v, h | ⟨_, h⟩ | ⟨h, _⟩⟩ := bad s hm
    · rw [he] at h; exact absurd h.1 (by simp)
    · rcases h with ⟨n, h, _⟩ | ⟨_, h⟩
      · rw [hn] at h; cases h
      · rw [hb] at h; cases h
    · rw [he] at h; exact absurd h (by simp)
  · obtain ⟨v, h | ⟨h, _⟩ | ⟨_, h⟩⟩ := bad s hm
    · rw [he] at h; exact absurd h.1 (by simp)
    · rw [he] at h; exact absurd h (by simp)
    · rcases h with ⟨n, h, _⟩ | ⟨_, h⟩
      · rw [hn] at h; cases h
      · rw [hb] at h; cases h
  · subst hl
    cases hv
    rcases hs with ⟨h, _⟩ | ⟨_, v, rest, h, _⟩ | ⟨_, _, v, h, _⟩
    · rw [hmu] at h; cases h
    · cases h
    · have : ∀ t t', Missing d ext t → Missing d ext t' → t = t' := by
        rintro t t' (⟨a, b⟩ | ⟨a, b⟩ | ⟨a, b⟩) (⟨a', b'⟩ | ⟨a', b'⟩ | ⟨a', b'⟩) <;> first
          | (rw [a] at a'; exact absurd a' (by decide))
          | (rw [b, b'])
      have := this _ _ h hmi
      cases this

/-- What a loop over names has done: it met the requests in order. -/
theorem fill_ok {func : Str → Raw} {multi : Bool} {conv : Str → Option Conv} : ∀ {ns : List Str} {dic dic' : Dict Str Entry},
    fill func multi conv ns dic = .ok dic' →
    (∀ n ∈ ns, ∃ e, lookup n func multi conv = .ok ((cutSuffix n).1, e)) ∧
    (∀ k, (∀ n ∈ ns, (cutSuffix n).1 ≠ k) → dic'.get k = dic.get k) ∧
    (∀ pre n post e, ns = pre ++ n :: post → lookup n func multi conv = .ok ((cutSuffix n).1, e) →
      (∀ m ∈ post, (cutSuffix m).1 ≠ (cutSuffix n).1) → dic'.get (cutSuffix n).1 = some e) ∧
    (dic.keys.Nodup → dic'.keys.Nodup) ∧
    (∀ k, k ∈ dic'.keys ↔ k ∈ dic.keys ∨ ∃ n ∈ ns, (cutSuffix n).1 = k)
  | [], dic, dic', h => by
    injection h with h
    subst h
    refine ⟨by simp, by simp, ?_, id, by simp⟩
    intro pre n post e hs; simp at hs
  | n :: ns, dic, dic', h => by
    unfold fill at h
    cases hl : lookup n func multi conv with
    | error e => rw [hl] at h; cases h
    | ok r =>
      obtain ⟨k, v⟩ := r
      have hk : k = (cutSuffix n).1 := by
        unfold lookup at hl
        dsimp only at hl
        split at hl
        · cases hl
        · split at hl
          · cases hl
          · rename_i c _ _ vs _
            cases hsh : shape c multi vs with
            | error e => simp [hsh, Except.map] at hl
            | ok e => simp [hsh, Except.map] at hl; exact hl.1.symm
      subst hk
      simp only [hl] at h
      obtain ⟨i1, i2, i3, i4, i5⟩ := fill_ok h
      refine ⟨?_, ?_, ?_, ?_, ?_⟩
      · intro m hm
        rcases List.mem_cons.mp hm with e | hm
        · rw [e]; exact ⟨v, hl⟩
        · exact i1 m hm
      · intro k hk
        rw [i2 k fun m hm => hk m (List.mem_cons_of_mem _ hm), Dict.get_set_ne]
        exact fun e => hk n (by simp) e.symm
      · intro pre m post e hs he hp
        cases pre with
        | nil =>
          simp at hs
          obtain ⟨e1, e2⟩ := hs
          subst e1; subst e2
          rw [hl] at he
          injection he with he
          injection he with _ he
          rw [i2 _ hp, Dict.get_set_self, he]
        | cons x pre =>
          simp at hs
          exact i3 pre m post e hs.2 he hp
      · intro hn; exact i4 (Dict.nodup_set _ _ _ hn)
      · intro k
        rw [i5 k, Dict.mem_keys_set]
        simp only [List.mem_cons, exists_eq_or_imp]
        constructor
        · rintro ((h | h) | h)
          · exact .inr (.inl h.symm)
          · exact .inl h
          · exact .inr (.inr h)
        · rintro (h | h | h)
          · exact .inl (.inr h)
          · exact .inl (.inl h.symm)
          · exact .inr h

theorem fill_err {func : Str → Raw} {multi : Bool} {conv : Str → Option Conv} {e : Err} :
    ∀ {ns : List Str} {dic : Dict Str Entry}, fill func multi conv ns dic = .error e →
    ∃ n ∈ ns, lookup n func multi conv = .error e
  | [], dic, h => by cases h
  | n :: ns, dic, h => by
    unfold fill at h
    cases hl : lookup n func multi conv with
    | error e' => simp only [hl] at h; injection h with h; subst h; exact ⟨n, by simp, hl⟩
    | ok r =>
      obtain ⟨k, v⟩ := r
      simp only [hl] at h
      obtain ⟨m, hm, he⟩ := fill_err h
      exact ⟨m, by simp [hm], he⟩

/-- webInput once its source of values is known. -/
theorem webInput_eq {st : State} {out : Outside} {src : Str} {func : Str → Raw} (h : ComesFrom st out src func)
    (names namesMulti : List Str) (d : Defaults) :
    ∃ st' : State, st'.searchList = st.searchList ∧
    webInput st out names namesMulti d src =
      match fill func false (converters d) names [] with
      | .error e => (.error e, st')
      | .ok dic =>
        match fill func true (converters d) namesMulti dic with
        | .error e => (.error e, st')
        | .ok dic => (.ok dic, { st' with searchList := dic :: st'.searchList }) := by
  cases h with
  | remembered hc hs hf =>
    have : source st.isCgi src = .ok .form := by
      rw [hc]; simp at hs; rcases hs with h | h | h | h <;> subst h <;> decide
    refine ⟨{ st with form := some func }, rfl, ?_⟩
    simp only [webInput, this, hf, if_true]
    rfl
  | read hc hs hf =>
    have : source st.isCgi src = .ok .form := by
      rw [hc]; simp at hs; rcases hs with h | h | h | h <;> subst h <;> decide
    refine ⟨{ st with form := some out.query }, rfl, ?_⟩
    simp only [webInput, this, hf, if_true]
    rfl
  | @servlet s hc hs =>
    have : source st.isCgi src = .ok s ∧ s ≠ .form := by
      rw [hc]; simp at hs
      rcases hs with ⟨h, h'⟩ | ⟨h, h'⟩ | ⟨h, h'⟩ | ⟨h, h'⟩ | ⟨h, h'⟩ | ⟨h, h'⟩ | ⟨h, h'⟩ | ⟨h, h'⟩ <;>
        subst h <;> subst h' <;> decide
    refine ⟨st, rfl, ?_⟩
    simp only [webInput, this.1, this.2, if_false]
    rfl

/-! ### C47 -/

/-- C47: on success the dictionary has exactly one entry for each requested bare name, and
it is the first namespace searched from then on. -/
theorem C47_one_entry_per_name {st st' : State} {out : Outside} {src : Str} {func : Str → Raw}
    (hsrc : ComesFrom st out src func) {names namesMulti : List Str} {d : Defaults} {dic : Dict Str Entry}
    (h : webInput st out names namesMulti d src = (.ok dic, st')) :
    dic.keys.Nodup ∧ (∀ k, k ∈ dic.keys ↔ ∃ n ∈ names ++ namesMulti, ∃ ext, Asks n k ext) ∧
    st'.searchList = dic :: st.searchList := by
  obtain ⟨s1, hs, he⟩ := webInput_eq hsrc names namesMulti d
  rw [he] at h
  cases h1 : fill func false (converters d) names [] with
  | error e => rw [h1] at h; cases h
  | ok d1 =>
    simp only [h1] at h
    cases h2 : fill func true (converters d) namesMulti d1 with
    | error e => rw [h2] at h; cases h
    | ok d2 =>
      simp only [h2] at h
      injection h with h h'
      injection h with h
      subst h
      obtain ⟨_, _, _, n1, k1⟩ := fill_ok h1
      obtain ⟨_, _, _, n2, k2⟩ := fill_ok h2
      refine ⟨n2 (n1 (by simp [Dict.keys])), ?_, by rw [← h']; simp [hs]⟩
      intro k
      rw [k2, k1]
      constructor
      · rintro ((hk | ⟨n, hn, e⟩) | ⟨n, hn, e⟩)
        · simp [Dict.keys] at hk
        · exact ⟨n, by simp [hn], _, by rw [← e]; exact cutSuffix_asks n⟩
        · exact ⟨n, by simp [hn], _, by rw [← e]; exact cutSuffix_asks n⟩
      · rintro ⟨n, hn, ext, ha⟩
        have e : (cutSuffix n).1 = k := by rw [asks_unique ha]
        rcases List.mem_append.mp hn with hn | hn
        · exact .inl (.inr ⟨n, hn, e⟩)
        · exact .inr ⟨n, hn, e⟩

/-- C47: the entry under a name answers the last request for it (single requests come
before multi requests). -/
theorem C47_entry {st st' : State} {out : Outside} {src : Str} {func : Str → Raw}
    (hsrc : ComesFrom st out src func) {names namesMulti : List Str} {d : Defaults} {dic : Dict Str Entry}
    (h : webInput st out names namesMulti d src = (.ok dic, st'))
    {pre post : List (Str × Bool)} {n k ext : Str} {multi : Bool} {l : List Str}
    (hsplit : names.map (·, false) ++ namesMulti.map (·, true) = pre ++ (n, multi) :: post)
    (ha : Asks n k ext) (hlast : ∀ m ∈ post, ∀ ext', ¬ Asks m.1 k ext') (hf : Found func n k l) :
    ∃ e, dic.get k = some e ∧ Answer d multi ext l e := by
  obtain ⟨s1, hs, he⟩ := webInput_eq hsrc names namesMulti d
  rw [he] at h
  have hk : (cutSuffix n).1 = k := by rw [asks_unique ha]
  have hpost : ∀ m ∈ post, (cutSuffix m.1).1 ≠ k := fun m hm e => hlast m hm _ (by rw [← e]; exact cutSuffix_asks m.1)
  cases h1 : fill func false (converters d) names [] with
  | error e => rw [h1] at h; cases h
  | ok d1 =>
    simp only [h1] at h
    cases h2 : fill func true (converters d) namesMulti d1 with
    | error e => rw [h2] at h; cases h
    | ok d2 =>
      simp only [h2] at h
      injection h with h h'
      injection h with h
      subst h
      obtain ⟨a1, _, c1, _, _⟩ := fill_ok h1
      obtain ⟨a2, b2, c2, _, _⟩ := fill_ok h2
      rcases List.append_eq_append_iff.mp hsplit with ⟨as, e1, e2⟩ | ⟨bs, e1, e2⟩
      · -- the request is one for a multi value
        have hmem : (n, multi) ∈ namesMulti.map (·, true) := by rw [e2]; simp
        obtain ⟨n', hn', e⟩ := List.mem_map.mp hmem
        obtain ⟨rfl, rfl⟩ := Prod.mk.inj e
        obtain ⟨pre2, l2, rfl, p1, p2⟩ := List.map_eq_append_iff.mp e2
        obtain ⟨x, post2, rfl, p3, p4⟩ := List.map_eq_cons_iff.mp p2
        obtain rfl := (Prod.mk.inj p3).1
        rcases lookup_cases (d := d) true ha hf with ⟨en, hl, hans⟩ | ⟨e, hl, hfail⟩
        · refine ⟨en, ?_, hans⟩
          rw [← hk]
          refine c2 pre2 x post2 en rfl (by rw [hl, hk]) ?_
          intro m hm; rw [hk]
          exact hpost (m, true) (by rw [← p4]; exact List.mem_map_of_mem hm)
        · obtain ⟨en, hx⟩ := a2 x (by simp)
          rw [hl] at hx; cases hx
      · cases bs with
        | nil =>
          simp at e1 e2
          have hmem : (n, multi) ∈ namesMulti.map (·, true) := by rw [← e2]; simp
          obtain ⟨n', hn', e⟩ := List.mem_map.mp hmem
          obtain ⟨rfl, rfl⟩ := Prod.mk.inj e
          obtain ⟨x, post2, rfl, p3, p4⟩ := List.map_eq_cons_iff.mp e2.symm
          obtain rfl := (Prod.mk.inj p3).1
          rcases lookup_cases (d := d) true ha hf with ⟨en, hl, hans⟩ | ⟨e, hl, hfail⟩
          · refine ⟨en, ?_, hans⟩
            rw [← hk]
            refine c2 [] x post2 en rfl (by rw [hl, hk]) ?_
            intro m hm; rw [hk]
            exact hpost (m, true) (by rw [← p4]; exact List.mem_map_of_mem hm)
          · obtain ⟨en, hx⟩ := a2 x (by simp)
            rw [hl] at hx; cases hx
        | cons b bs =>
          simp only [List.cons_append] at e2
          injection e2 with e2 e3
          subst e2
          have hmem : (n, multi) ∈ names.map (·, false) := by rw [e1]; simp
          obtain ⟨n', hn', e⟩ := List.mem_map.mp hmem
          obtain ⟨rfl, rfl⟩ := Prod.mk.inj e
          obtain ⟨pre2, l2, rfl, p1, p2⟩ := List.map_eq_append_iff.mp e1
          obtain ⟨x, post2, rfl, p3, p4⟩ := List.map_eq_cons_iff.mp p2
          obtain rfl := (Prod.mk.inj p3).1
          rcases lookup_cases (d := d) false ha hf with ⟨en, hl, hans⟩ | ⟨e, hl, hfail⟩
          · refine ⟨en, ?_, hans⟩
            rw [b2 k, ← hk]
            · refine c1 pre2 x post2 en rfl (by rw [hl, hk]) ?_
              intro m hm; rw [hk]
              exact hpost (m, false) (by rw [e3, ← p4]; exact List.mem_append_left _ (List.mem_map_of_mem hm))
            · intro m hm
              exact hpost (m, true) (by rw [e3]; exact List.mem_append_right _ (List.mem_map_of_mem hm))
          · obtain ⟨en, hx⟩ := a1 x (by simp)
            rw [hl] at hx; cases hx

/-- C47: webInput raises exactly when one of the requests fails, with an exception one of
them calls for; the search list is then as before. -/
theorem C47_raises {st : State} {out : Outside} {src : Str} {func : Str → Raw}
    (hsrc : ComesFrom st out src func) (names namesMulti : List Str) (d : Defaults) :
    (∀ e st', webInput st out names namesMulti d src = (.error e, st') → st'.searchList = st.searchList ∧
      ∃ r ∈ names.map (·, false) ++ namesMulti.map (·, true), ∃ k ext l, Asks r.1 k ext ∧ Found func r.1 k l ∧
        Fails d r.2 ext l e) ∧
    (∀ r ∈ names.map (·, false) ++ namesMulti.map (·, true), ∀ k ext l e, Asks r.1 k ext → Found func r.1 k l →
      Fails d r.2 ext l e → ∃ e', (webInput st out names namesMulti d src).1 = .error e') := by
  obtain ⟨s1, hs, he⟩ := webInput_eq hsrc names namesMulti d
  rw [he]
  have reason : ∀ n multi e, lookup n func multi (converters d) = .error e → ∃ k ext l, Asks n k ext ∧
      Found func n k l ∧ Fails d multi ext l e := by
    intro n multi e hl
    refine ⟨_, _, _, cutSuffix_asks n, find_found (cutSuffix_asks n), ?_⟩
    rcases lookup_cases (d := d) multi (cutSuffix_asks n) (find_found (func := func) (cutSuffix_asks n))
      with ⟨en, h, _⟩ | ⟨e', h, hf⟩
    · rw [hl] at h; cases h
    · rw [hl] at h; injection h with h; rw [h]; exact hf
  have noans : ∀ n multi en k ext l e, lookup n func multi (converters d) = .ok en → Asks n k ext → Found func n k l →
      Fails d multi ext l e → False := by
    intro n multi en k ext l e hl ha hf hfail
    rcases lookup_cases (d := d) multi ha hf with ⟨en', h, hans⟩ | ⟨e', h, _⟩
    · exact answer_not_fails hans hfail
    · rw [hl] at h; cases h
  constructor
  · intro e st' h
    cases h1 : fill func false (converters d) names [] with
    | error e' =>
      simp only [h1] at h
      injection h with h h'
      injection h with h
      subst h
      obtain ⟨n, hn, hl⟩ := fill_err h1
      obtain ⟨k, ext, l, a, b, c⟩ := reason n false _ hl
      exact ⟨by rw [← h', hs], (n, false), by simp [hn], k, ext, l, a, b, c⟩
    | ok d1 =>
      simp only [h1] at h
      cases h2 : fill func true (converters d) namesMulti d1 with
      | error e' =>
        simp only [h2] at h
        injection h with h h'
        injection h with h
        subst h
        obtain ⟨n, hn, hl⟩ := fill_err h2
        obtain ⟨k, ext, l, a, b, c⟩ := reason n true _ hl
        exact ⟨by rw [← h', hs], (n, true), by simp [hn], k, ext, l, a, b, c⟩
      | ok d2 => simp only [h2] at h; cases h
  · rintro ⟨n, m⟩ hr k ext l e ha hf hfail
    cases h1 : fill func false (converters d) names [] with
    | error e' => exact ⟨e', rfl⟩
    | ok d1 =>
      cases h2 : fill func true (converters d) namesMulti d1 with
      | error e' => exact ⟨e', by simp only [h2]⟩
      | ok d2 =>
        exfalso
        rcases List.mem_append.mp hr with hr | hr
        · obtain ⟨n', hn', e'⟩ := List.mem_map.mp hr
          obtain ⟨rfl, rfl⟩ := Prod.mk.inj e'
          obtain ⟨en, hl⟩ := (fill_ok h1).1 _ hn'
          exact noans _ _ _ _ _ _ _ hl ha hf hfail
        · obtain ⟨n', hn', e'⟩ := List.mem_map.mp hr
          obtain ⟨rfl, rfl⟩ := Prod.mk.inj e'
          obtain ⟨en, hl⟩ := (fill_ok h2).1 _ hn'
          exact noans _ _ _ _ _ _ _ hl ha hf hfail

/-- C47: cookies and session variables are refused in a CGI script, unknown sources
everywhere; nothing else is done then. -/
theorem C47_refused_source (st : State) (out : Outside) (names namesMulti : List Str) (d : Defaults) (src : Str)
    (h : ¬ ∃ func, ComesFrom st out src func) :
    ∃ e, webInput st out names namesMulti d src = (.error e, st) ∧ (e = .runtimeError ∨ e = .typeError) := by
  have key : ∃ e, source st.isCgi src = .error e ∧ (e = .runtimeError ∨ e = .typeError) := by
    have up : ∀ (c u : Char), 97 ≤ c.toNat ∧ c.toNat ≤ 122 → u.toNat + 32 = c.toNat →
        src.map lowerCh = [c] → src = [c] ∨ src = [u] := by
      intro c u hc hu hs
      match src, hs with
      | [x], hs =>
        have hx : lowerCh x = c := by simpa using hs
        unfold lowerCh at hx
        split at hx
        · rename_i hr
          right
          have : x.toNat + 32 = c.toNat := by
            rw [← hx]
            have hv : (x.toNat + 32).isValidChar := .inl (by omega)
            simp only [Char.ofNat, hv, dif_pos]
            rfl
          have : x.toNat = u.toNat := by omega
          rw [← Char.ofNat_toNat x, ← Char.ofNat_toNat u, this]
        · left; rw [hx]
    simp only [source]
    split
    · rename_i hh
      exfalso; apply h
      have hm : src ∈ [c!"f", c!"F", c!"v", c!"V"] := by
        rcases hh.2 with e | e
        · rcases up 'f' 'F' (by decide) (by decide) e with e | e <;> simp [e]
        · rcases up 'v' 'V' (by decide) (by decide) e with e | e <;> simp [e]
      cases hf : st.form with
      | none => exact ⟨_, .read hh.1 hm hf⟩
      | some f => exact ⟨_, .remembered hh.1 hm hf⟩
    · rename_i h1
      split
      · exact ⟨_, rfl, .inl rfl⟩
      · rename_i h2
        split
        · exact ⟨_, rfl, .inl rfl⟩
        · rename_i h3
          have hcgi : ∀ c, (c = c!"f" ∨ c = c!"v" ∨ c = c!"c" ∨ c = c!"s") → src.map lowerCh = c → st.isCgi = false := by
            intro c hc e
            cases hs : st.isCgi with
            | false => rfl
            | true =>
              exfalso
              rcases hc with hc | hc | hc | hc <;> rw [hc] at e
              · exact h1 ⟨hs, .inl e⟩
              · exact h1 ⟨hs, .inr e⟩
              · exact h2 ⟨hs, e⟩
              · exact h3 ⟨hs, e⟩
          split
          · rename_i e
            exfalso; apply h
            have := hcgi _ (.inl rfl) e
            rcases up 'f' 'F' (by decide) (by decide) e with e | e <;>
              exact ⟨_, .servlet (s := .requestField) this (by simp [e])⟩
          · split
            · rename_i e
              exfalso; apply h
              have := hcgi _ (.inr (.inr (.inl rfl))) e
              rcases up 'c' 'C' (by decide) (by decide) e with e | e <;>
                exact ⟨_, .servlet (s := .requestCookie) this (by simp [e])⟩
            · split
              · rename_i e
                exfalso; apply h
                have := hcgi _ (.inr (.inl rfl)) e
                rcases up 'v' 'V' (by decide) (by decide) e with e | e <;>
                  exact ⟨_, .servlet (s := .requestValue) this (by simp [e])⟩
              · split
                · rename_i e
                  exfalso; apply h
                  have := hcgi _ (.inr (.inr (.inr rfl))) e
                  rcases up 's' 'S' (by decide) (by decide) e with e | e <;>
                    exact ⟨_, .servlet (s := .requestSession) this (by simp [e])⟩
                · exact ⟨_, rfl, .inr rfl⟩
  obtain ⟨e, h1, h2⟩ := key
  exact ⟨e, by simp [webInput, h1], h2⟩

/-- A CGI script asks for `age:int`, `name` and all values of `tag`; `age` is bad and `name`
is missing. -/
def exampleQuery (n : Str) : Raw :=
  if n = c!"age" then .one c!"x1" else if n = c!"tag" then .many [c!"a", c!"b"] else .none

def exampleDefaults : Defaults :=
  ⟨.val (.str c!"?"), .val (.int 0), .val (.int 0), .val (.int (-1)), .val (.int 0)⟩

example : (webInput ⟨true, none, []⟩ ⟨exampleQuery, fun _ _ => .none⟩ [c!"age:int", c!"name"] [c!"tag"]
    exampleDefaults c!"f").1 =
    .ok [(c!"age", .single (.int (-1))), (c!"name", .single (.str c!"?")),
      (c!"tag", .multi [.str c!"a", .str c!"b"])] := by decide +kernel

example : ComesFrom ⟨true, none, []⟩ ⟨exampleQuery, fun _ _ => .none⟩ c!"f" exampleQuery :=
  .read rfl (by simp) rfl

example : Asks c!"age:int" c!"age" c!"int" ∧ Found exampleQuery c!"age:int" c!"age" [c!"x1"] :=
  ⟨⟨by decide, .inl rfl⟩, .inr ⟨.inl (by decide), by decide⟩⟩

example : (webInput ⟨true, none, []⟩ ⟨exampleQuery, fun _ _ => .none⟩ [c!"age:int"] []
    { exampleDefaults with badInt := .exc c!"ValueError" } c!"f").1 = .error (.user c!"ValueError") := by
  decide +kernel

/-- C47, violated: one entry *per requested name* does not hold when two requests share
the bare name; the second one wins and the first value is lost. -/
theorem C47_same_name_counterexample :
    (webInput ⟨true, none, []⟩ ⟨exampleQuery, fun _ _ => .none⟩ [c!"age:int", c!"age"] [] exampleDefaults c!"f").1 =
    .ok [(c!"age", .single (.str c!"x1"))] := by decide +kernel

/-- C47, violated: the fields of a CGI form are read once per process; a later request's
own fields are not seen. -/
theorem C47_stale_form_counterexample :
    let first := webInput ⟨true, none, []⟩ ⟨exampleQuery, fun _ _ => .none⟩ [c!"age"] [] exampleDefaults c!"f"
    let second := webInput first.2 ⟨fun _ => .one c!"7", fun _ _ => .none⟩ [c!"age"] [] exampleDefaults c!"f"
    second.1 = .ok [(c!"age", .single (.str c!"x1"))] := by decide +kernel

end Cheetah.WebInput
