import Verif.Props.Cache
import Verif.Props.Driver
import Verif.Props.Interval
/-
The code generated for a `#cache` region, run as Python, does what the model of cache regions says.  Property C15.
-/
namespace Cheetah.CacheCode
open Cheetah.Driver Cheetah.Cache

/-! ### Specification: Python's way with indented lines -/

/-- A meaning of the conditions and of the simple statements of Python. A statement may raise KeyError (`true`). -/
structure Py (σ : Type) where
  test : Str → σ → Bool × σ
  step : Str → σ → Bool × σ

/-- The condition of `if …:`. -/
def condOf : Str → Option Str
  | 'i' :: 'f' :: ' ' :: r => if r.getLast? = some ':' then some r.dropLast else none
  | _ => none

/-- The lines indented more than `n` at the start, and the lines behind them. -/
def inner (n : Nat) (ls : List (Nat × Str)) : List (Nat × Str) := ls.takeWhile fun l => n < l.1

/-- The lines from the first one on that is not indented more than `n`. -/
def outer (n : Nat) (ls : List (Nat × Str)) : List (Nat × Str) := ls.dropWhile fun l => n < l.1

/-- `k` if nothing was raised. `none`: the lines are no program of this kind. -/
def next {σ : Type} (r : Option (Bool × σ)) (k : σ → Option (Bool × σ)) : Option (Bool × σ) :=
  match r with
  | some (false, s) => k s
  | r => r

theorem outer_le (n : Nat) (ls : List (Nat × Str)) : (outer n ls).length ≤ ls.length := (List.dropWhile_sublist _).length_le

theorem inner_le (n : Nat) (ls : List (Nat × Str)) : (inner n ls).length ≤ ls.length := (List.takeWhile_sublist _).length_le

/-- Lines with the indentation `n`: `if` with a block, `try` with `except KeyError` and `else`, and simple statements. -/
def run {σ : Type} (P : Py σ) (n : Nat) : List (Nat × Str) → σ → Option (Bool × σ)
  | [], s => some (false, s)
  | (k, t) :: ls, s =>
    if k ≠ n then none
    else if t = c!"try:" then
      if (outer n ls).head? = some (n, c!"except KeyError:") ∧ (outer n (outer n ls).tail).head? = some (n, c!"else:") then
        match run P (n + 1) (inner n ls) s with
        | some (true, s) => next (run P (n + 1) (inner n (outer n ls).tail) s) (run P n (outer n (outer n (outer n ls).tail).tail))
        | some (false, s) => next (run P (n + 1) (inner n (outer n (outer n ls).tail).tail) s) (run P n (outer n (outer n (outer n ls).tail).tail))
        | none => none
      else none
    else
      match condOf t with
      | some c =>
        match P.test c s with
        | (true, s) => next (run P (n + 1) (inner n ls) s) (run P n (outer n ls))
        | (false, s) => run P n (outer n ls) s
      | none => next (some (P.step t s)) (run P n ls)
termination_by ls => ls.length
decreasing_by
  all_goals
    simp only [List.length_cons]
    have h1 := outer_le n ls
    have h2 := inner_le n ls
    have h3 := List.length_tail (l := outer n ls)
    have h4 := outer_le n (outer n ls).tail
    have h5 := inner_le n (outer n ls).tail
    have h6 := List.length_tail (l := outer n (outer n ls).tail)
    have h7 := outer_le n (outer n (outer n ls).tail).tail
    have h8 := inner_le n (outer n (outer n ls).tail).tail
    omega

/-! ### Specification: what the operations of a cache region do -/

/-- The local variables of a cache region, and the state of the caches (see Cache.lean). -/
structure Loc where
  recache : Bool
  region : Region
  item : Item
  output : Str
  frame : Option Cache.Frame
  data : Str
  s : State

/-- Put the text into the store and note the time (CacheRegion.py 55-57), for an item of a region. -/
def setData (pfx : Str) (now : Int) (id key txt : Str) (s : State) : State :=
  match (Cache.getRegion s id).items.get key with
  | some it =>
    { s with
      store := s.store.set (storeKey pfx id key) (txt, it.expiry)
      regions := s.regions.set id { Cache.getRegion s id with items := (Cache.getRegion s id).items.set key { it with refresh := some now } } }
  | none => s

/-- Python's objects behave as the model of CacheRegion.py and Template.py says: `P` gives every operation on the region `id` its meaning. `shown`: the
Python literal for `id`; `info`: the dictionary of the region's arguments; `vary`: the expression that says which item, and the item's key; `tests`: test
expressions and their values; `waits`: Python's numbers and their values; `t`: the times read; `now`: the time of `setData`. -/
structure Objects (P : Py Loc) (pfx id shown info : Str) (vary : Str × Str) (tests : Option (Str × Bool)) (waits : Option (Str × Int)) (t : Times) (now : Int) : Prop where
  flag : ∀ l, P.step (c!"_RECACHE_" ++ id ++ c!" = False") l = (false, { l with recache := false })
  again : ∀ l, P.step (c!"_RECACHE_" ++ id ++ c!" = True") l = (false, { l with recache := true })
  region : ∀ l, P.step (c!"_cacheRegion_" ++ id ++ c!" = self.getCacheRegion(regionID=" ++ shown ++ c!", cacheInfo=" ++ info ++ c!")") l =
    (false, { l with region := Cache.getRegion l.s id })
  isNew : ∀ l, P.test (c!"_cacheRegion_" ++ id ++ c!".isNew()") l = (l.region.isNew, l)
  item : ∀ l, P.step (c!"_cacheItem_" ++ id ++ c!" = _cacheRegion_" ++ id ++ c!".getCacheItem(" ++ vary.1 ++ c!")") l =
    (false, { l with item := (Cache.getItem l.region vary.2).1, region := (Cache.getItem l.region vary.2).2,
                     s := { l.s with regions := l.s.regions.set id (Cache.getItem l.region vary.2).2 } })
  expired : ∀ l, P.test (c!"_cacheItem_" ++ id ++ c!".hasExpired()") l = (l.item.hasExpired t.expired, l)
  test : ∀ e v, tests = some (e, v) → ∀ l, P.test e l = (v, l)
  fresh : ∀ l, P.test (c!"(not _RECACHE_" ++ id ++ c!") and _cacheItem_" ++ id ++ c!".getRefreshTime()") l = (!l.recache && l.item.refreshed, l)
  render : ∀ l, P.step (c!"_output = _cacheItem_" ++ id ++ c!".renderOutput()") l =
    match l.s.store.get' t.get (storeKey pfx id vary.2) with
    | (.error _, d) => (true, { l with s := { l.s with store := d } })
    | (.ok v, d) => (false, { l with output := v, s := { l.s with store := d } })
  show_ : ∀ l, P.step c!"write(_output)" l = (false, { l with s := l.s.write l.output })
  stale : ∀ l, P.test (c!"_RECACHE_" ++ id ++ c!" or not _cacheItem_" ++ id ++ c!".getRefreshTime()") l = (l.recache || !l.item.refreshed, l)
  collect : ∀ l, P.step (c!"trans = _cacheCollector_" ++ id ++ c!" = DummyTransaction()") l = (false, { l with s := { l.s with stack := ⟨id, vary.2, []⟩ :: l.s.stack } })
  wait : ∀ n v, waits = some (n, v) → ∀ l, P.step (c!"_cacheItem_" ++ id ++ c!".setExpiryTime(currentTime() +" ++ n ++ c!")") l =
    (false, { l with s := { l.s with regions := l.s.regions.set id { l.region with items := l.region.items.set vary.2 { l.item with expiry := t.current + v } } } })
  restore : ∀ l, P.step (c!"trans = _orig_trans" ++ id) l = (false, { l with frame := l.s.stack.head?, s := { l.s with stack := l.s.stack.tail } })
  value : ∀ l f, l.frame = some f → P.step (c!"_cacheData = _cacheCollector_" ++ id ++ c!".response().getvalue()") l = (false, { l with data := f.buf })
  store : ∀ l, P.step (c!"_cacheItem_" ++ id ++ c!".setData(_cacheData)") l = (false, { l with s := setData pfx now id vary.2 l.data l.s })
  showData : ∀ l, P.step c!"write(_cacheData)" l = (false, { l with s := l.s.write l.data })
  /-- names are kept and dropped -/
  names : ∀ e, e ∈ [c!"_orig_trans" ++ id ++ c!" = trans", c!"write = _cacheCollector_" ++ id ++ c!".response().write", c!"write = trans.response().write", c!"del _output",
    c!"del _cacheData", c!"del _cacheCollector_" ++ id, c!"del _orig_trans" ++ id] → ∀ l, P.step e l = (false, l)

/-! ### Specification: the arguments of `#cache` -/

/-- The value of the last argument with that name. -/
def last (key : Str) : List (Str × Str) → Option Str
  | [] => none
  | (k, v) :: as =>
    match last key as with
    | some w => some w
    | none => if k = key then some v else none

/-- A value without its quotes. -/
def bare : Str → Str
  | '"' :: s => s.dropLast
  | '\'' :: s => s.dropLast
  | s => s

/-- The text given for an argument; an empty one counts as none. -/
def given (key : Str) (args : List (Str × Str)) : Option Str := ((last key args).map bare).filter fun s => s ≠ []

/-- The seconds given by `timer`: a number and a unit (see C32). -/
def Wait (args : List (Str × Str)) : Option Int → Prop
  | none => last c!"timer" args = none
  | some w => ∃ v t u x n, last c!"timer" args = some v ∧ bare v = t ++ u ∧ Interval.Numeral t x ∧ Interval.Unit u n ∧ x * n = w

/-! ### The lines -/

/-- A block whose lines are all indented. -/
theorem inner_append {n : Nat} {xs ys : List (Nat × Str)} (hx : ∀ l ∈ xs, n < l.1) (hy : ∀ l, ys.head? = some l → l.1 ≤ n) : inner n (xs ++ ys) = xs ∧ outer n (xs ++ ys) = ys := by
  unfold inner outer
  rw [List.takeWhile_append_of_pos (by simpa using hx), List.dropWhile_append_of_pos (by simpa using hx)]
  cases ys with
  | nil => simp
  | cons y ys =>
    have := hy y rfl
    simp [List.takeWhile_cons, List.dropWhile_cons, Nat.not_lt.2 this]

variable {P : Py Loc}

theorem run_step {n : Nat} {t : Str} {ls : List (Nat × Str)} {l l' : Loc} (h1 : t ≠ c!"try:") (h2 : condOf t = none) (h : P.step t l = (false, l')) :
    run P n ((n, t) :: ls) l = run P n ls l' := by
  rw [run, if_neg (by simp), if_neg h1, h2]
  simp [h, next]

theorem run_raise {n : Nat} {t : Str} {ls : List (Nat × Str)} {l l' : Loc} (h1 : t ≠ c!"try:") (h2 : condOf t = none) (h : P.step t l = (true, l')) :
    run P n ((n, t) :: ls) l = some (true, l') := by
  rw [run, if_neg (by simp), if_neg h1, h2]
  simp [h, next]

theorem run_if {n : Nat} {c : Str} {b : Bool} {xs ys : List (Nat × Str)} {l l' : Loc} (hx : ∀ l ∈ xs, n < l.1) (hy : ∀ l, ys.head? = some l → l.1 ≤ n) (h : P.test c l = (b, l')) :
    run P n ((n, c!"if " ++ c ++ c!":") :: (xs ++ ys)) l = if b then next (run P (n + 1) xs l') (run P n ys) else run P n ys l' := by
  have hc : condOf (c!"if " ++ c ++ c!":") = some c := by
    simp [condOf]
  obtain ⟨h1, h2⟩ := inner_append hx hy
  rw [run, if_neg (by simp), if_neg (by simp), hc]
  simp only [h, h1, h2]
  cases b <;> simp

theorem run_try {n : Nat} {xs hs es ys : List (Nat × Str)} {l : Loc} (hx : ∀ l ∈ xs, n < l.1) (hh : ∀ l ∈ hs, n < l.1) (he : ∀ l ∈ es, n < l.1)
    (hy : ∀ l, ys.head? = some l → l.1 ≤ n) :
    run P n ((n, c!"try:") :: (xs ++ (n, c!"except KeyError:") :: (hs ++ (n, c!"else:") :: (es ++ ys)))) l =
      match run P (n + 1) xs l with
      | some (true, s) => next (run P (n + 1) hs s) (run P n ys)
      | some (false, s) => next (run P (n + 1) es s) (run P n ys)
      | none => none := by
  obtain ⟨h1, h2⟩ := inner_append (n := n) (xs := xs) (ys := (n, c!"except KeyError:") :: (hs ++ (n, c!"else:") :: (es ++ ys))) hx (by simp)
  obtain ⟨h3, h4⟩ := inner_append (n := n) (xs := hs) (ys := (n, c!"else:") :: (es ++ ys)) hh (by simp)
  obtain ⟨h5, h6⟩ := inner_append (n := n) (xs := es) (ys := ys) he hy
  rw [run, if_neg (by simp), if_pos rfl, h1, h2, List.tail_cons, h3, h4, List.tail_cons, h5, h6, if_pos ⟨rfl, rfl⟩]
  rcases run P (n + 1) xs l with _ | ⟨_ | _, s⟩ <;> rfl

theorem inner_outer_append {ys : List (Nat × Str)} {n : Nat} (hy : ∀ l, ys.head? = some l → l.1 ≤ n) (ls : List (Nat × Str)) :
    inner n (ls ++ ys) = inner n ls ∧ outer n (ls ++ ys) = outer n ls ++ ys := by
  induction ls with
  | nil => simpa [inner, outer] using inner_append (n := n) (xs := []) (by simp) hy
  | cons l ls ih =>
    unfold inner outer at ih ⊢
    by_cases h : n < l.1
    · simp [h, ih]
    · simp [h]

/-- Lines behind lines. -/
theorem run_append {ys : List (Nat × Str)} {n : Nat} (hy : ∀ l, ys.head? = some l → l.1 ≤ n ∧ l.2 ≠ c!"except KeyError:" ∧ l.2 ≠ c!"else:") :
    ∀ (k : Nat) (xs : List (Nat × Str)), xs.length ≤ k → ∀ l : Loc, run P n xs l ≠ none → run P n (xs ++ ys) l = next (run P n xs l) (run P n ys) := by
  have hy1 := inner_outer_append (n := n) (fun l hl => (hy l hl).1)
  have hnext : ∀ (r : Option (Bool × Loc)) (zs : List (Nat × Str)), (∀ l, run P n zs l ≠ none → run P n (zs ++ ys) l = next (run P n zs l) (run P n ys)) →
      next r (run P n zs) ≠ none → next r (run P n (zs ++ ys)) = next (next r (run P n zs)) (run P n ys) := by
    intro r zs hz hne
    match r with
    | none => rfl
    | some (true, s) => rfl
    | some (false, s) => exact hz s hne
  intro k
  induction k with
  | zero =>
    intro xs hk l _
    rw [List.eq_nil_of_length_eq_zero (Nat.le_zero.1 hk), run, List.nil_append]
    rfl
  | succ k ih =>
    intro xs hk l hne
    match xs with
    | [] => rw [run, List.nil_append]; rfl
    | (j, t) :: ls =>
      simp only [List.length_cons] at hk
      have o1 := outer_le n ls
      rw [List.cons_append, run]
      conv_rhs => rw [run]
      rw [run] at hne
      by_cases hj : j ≠ n
      · rw [if_pos hj] at hne; exact absurd rfl hne
      rw [if_neg hj] at hne ⊢
      rw [if_neg hj]
      by_cases ht : t = c!"try:"
      · rw [if_pos ht] at hne ⊢
        rw [if_pos ht]
        by_cases hc : (outer n ls).head? = some (n, c!"except KeyError:") ∧ (outer n (outer n ls).tail).head? = some (n, c!"else:")
        · rw [if_pos hc] at hne
          obtain ⟨a, ha⟩ := List.head?_eq_some_iff.1 hc.1
          obtain ⟨b, hb⟩ := List.head?_eq_some_iff.1 hc.2
          have o2 := outer_le n a
          have o3 := outer_le n b
          rw [ha] at o1 hb hne ⊢
          rw [List.tail_cons] at hb
          simp only [List.tail_cons, hb] at hne
          rw [hb] at o2
          simp only [List.length_cons] at o1 o2
          have ihr := fun l => ih (outer n b) (by omega) l
          simp only [(hy1 ls).1, (hy1 ls).2, ha, List.cons_append, List.tail_cons, (hy1 a).1, (hy1 a).2, hb, (hy1 b).1, (hy1 b).2, List.head?_cons, and_self, if_true]
          cases hr : run P (n + 1) (inner n ls) l with
          | none => rfl
          | some v =>
            obtain ⟨v, s⟩ := v
            rw [hr] at hne
            cases v <;> exact hnext _ _ ihr hne
        · rw [if_neg hc] at hne; exact absurd rfl hne
      · rw [if_neg ht] at hne ⊢
        rw [if_neg ht]
        cases hcond : condOf t with
        | none =>
          rw [hcond] at hne
          exact hnext _ _ (fun l => ih ls (by omega) l) hne
        | some c =>
          rw [hcond] at hne
          simp only [(hy1 ls).1, (hy1 ls).2] at hne ⊢
          have ihr := fun l => ih (outer n ls) (by omega) l
          cases hp : P.test c l with
          | mk b s =>
            rw [hp] at hne
            cases b
            · exact ihr s hne
            · exact hnext _ _ ihr hne

/-! ### What the compiler writes -/

theorem chunk_fresh {cf : Cf} {m : Meth} (h : m.pending = []) (t : Str) : m.chunk cf t = { m with chunks := m.chunks ++ [(m.lev, t)] } := by
  unfold Meth.chunk Meth.commit
  rw [h]
  simp

theorem commit_pending (cf : Cf) (m : Meth) : (m.commit cf).pending = [] := by
  unfold Meth.commit
  split <;> rfl

theorem chunk_commit (cf : Cf) (m : Meth) (t : Str) : m.chunk cf t = (m.commit cf).chunk cf t := by
  rw [chunk_fresh (commit_pending cf m)]
  rfl

theorem chunks_fresh {cf : Cf} (ts : List Str) : ∀ {m : Meth}, m.pending = [] → m.chunks' cf ts = { m with chunks := m.chunks ++ ts.map fun t => (m.lev, t) } := by
  induction ts with
  | nil => intro m _; simp [Meth.chunks']
  | cons t ts ih =>
    intro m h
    rw [Meth.chunks', List.foldl_cons, ← Meth.chunks', chunk_fresh h, ih (by exact h)]
    simp

theorem guarded_fresh {cf : Cf} {m : Meth} (h : m.pending = []) (c : Str) (b : List Str) :
    m.guarded cf c b = .ok { m with chunks := m.chunks ++ (m.lev, c) :: b.map fun t => (m.lev + 1, t) } := by
  unfold Meth.guarded
  rw [chunk_fresh h, chunks_fresh b (by exact h)]
  simp [Meth.indent, Meth.dedent]

/-- The lines before the body of the region. -/
def startCode (n : Nat) (id shown info vary : Str) (test wait : Option Str) : List (Nat × Str) :=
  [(n, c!"_RECACHE_" ++ id ++ c!" = False"), (n, c!"_cacheRegion_" ++ id ++ c!" = self.getCacheRegion(regionID=" ++ shown ++ c!", cacheInfo=" ++ info ++ c!")")] ++
  ((n, c!"if " ++ (c!"_cacheRegion_" ++ id ++ c!".isNew()") ++ c!":") :: ([(n + 1, c!"_RECACHE_" ++ id ++ c!" = True")] ++
  ((n, c!"_cacheItem_" ++ id ++ c!" = _cacheRegion_" ++ id ++ c!".getCacheItem(" ++ vary ++ c!")") ::
  (n, c!"if " ++ (c!"_cacheItem_" ++ id ++ c!".hasExpired()") ++ c!":") :: ([(n + 1, c!"_RECACHE_" ++ id ++ c!" = True")] ++
  ((match test with | some t => [(n, c!"if " ++ t ++ c!":"), (n + 1, c!"_RECACHE_" ++ id ++ c!" = True")] | none => []) ++
  ((n, c!"if " ++ (c!"(not _RECACHE_" ++ id ++ c!") and _cacheItem_" ++ id ++ c!".getRefreshTime()") ++ c!":") ::
  ([(n + 1, c!"try:"), (n + 2, c!"_output = _cacheItem_" ++ id ++ c!".renderOutput()"), (n + 1, c!"except KeyError:"), (n + 2, c!"_RECACHE_" ++ id ++ c!" = True"),
    (n + 1, c!"else:"), (n + 2, c!"write(_output)"), (n + 2, c!"del _output")] ++
  ((n, c!"if " ++ (c!"_RECACHE_" ++ id ++ c!" or not _cacheItem_" ++ id ++ c!".getRefreshTime()") ++ c!":") ::
  ([(n + 1, c!"_orig_trans" ++ id ++ c!" = trans"), (n + 1, c!"trans = _cacheCollector_" ++ id ++ c!" = DummyTransaction()"),
    (n + 1, c!"write = _cacheCollector_" ++ id ++ c!".response().write")] ++
  (match wait with | some x => [(n + 1, c!"_cacheItem_" ++ id ++ c!".setExpiryTime(currentTime() +" ++ x ++ c!")")] | none => []))))))))))

/-- The lines behind it. -/
def endCode (n : Nat) (id : Str) : List (Nat × Str) :=
  [c!"trans = _orig_trans" ++ id, c!"write = trans.response().write", c!"_cacheData = _cacheCollector_" ++ id ++ c!".response().getvalue()",
   c!"_cacheItem_" ++ id ++ c!".setData(_cacheData)", c!"write(_cacheData)", c!"del _cacheData", c!"del _cacheCollector_" ++ id, c!"del _orig_trans" ++ id].map fun t => (n + 1, t)

theorem startCache_code (cf : Cf) (id info : Str) (varyBy test : Option Str) (interval : Option Rat) (m : Meth) :
    m.startCache cf id info varyBy test interval = .ok { m.commit cf with
      cache := id :: m.cache
      lev := m.lev + 1
      chunks := (m.commit cf).chunks ++ startCode m.lev id (pyRepr cf.printable id) info (varyBy.getD (pyRepr cf.printable id))
        (test.bind fun t => if t = [] then none else some t) ((Interval.expiry interval).map cf.showNum) } := by
  have h0 : ∀ t ts, ({ m with cache := id :: m.cache } : Meth).chunks' cf (t :: ts) = ({ m.commit cf with cache := id :: m.cache } : Meth).chunks' cf (t :: ts) := by
    intro t ts
    simp only [Meth.chunks', List.foldl_cons]
    rw [chunk_commit]
    congr 2
    unfold Meth.commit
    split <;> rfl
  have hl : (m.commit cf).lev = m.lev := by unfold Meth.commit; split <;> rfl
  have hp := commit_pending cf m
  unfold Meth.startCache
  dsimp only
  rw [h0]
  revert hl hp
  generalize m.commit cf = M
  intro hl hp
  obtain ⟨⟩ := M
  simp only at hl hp
  subst hl hp
  simp only [Meth.recacheTest]
  cases test with
  | none =>
    cases Interval.expiry interval <;> simp [chunks_fresh, chunk_fresh, guarded_fresh, Meth.indent, Meth.dedent, startCode, bind, Except.bind]
  | some t =>
    by_cases ht : t = []
    · cases Interval.expiry interval <;> simp [ht, chunks_fresh, chunk_fresh, guarded_fresh, Meth.indent, Meth.dedent, startCode, bind, Except.bind]
    · cases Interval.expiry interval <;> simp [ht, chunks_fresh, chunk_fresh, guarded_fresh, Meth.indent, Meth.dedent, startCode, bind, Except.bind]

theorem endCache_code (cf : Cf) (id : Str) (ids : List Str) (n : Nat) (m : Meth) (hc : m.cache = id :: ids) (hn : m.lev = n + 1) :
    m.endCache cf = .ok { m.commit cf with cache := ids, lev := n, chunks := (m.commit cf).chunks ++ endCode n id } := by
  have h0 : ∀ t ts, ({ m with cache := ids } : Meth).chunks' cf (t :: ts) = ({ m.commit cf with cache := ids } : Meth).chunks' cf (t :: ts) := by
    intro t ts
    simp only [Meth.chunks', List.foldl_cons]
    rw [chunk_commit]
    congr 2
    unfold Meth.commit
    split <;> rfl
  have hl : (m.commit cf).lev = n + 1 := by unfold Meth.commit; split <;> exact hn
  have hp := commit_pending cf m
  unfold Meth.endCache
  rw [hc]
  dsimp only
  rw [h0, chunks_fresh _ (m := { m.commit cf with cache := ids }) hp]
  simp [Meth.dedent, hl, endCode]

/-! ### Running them -/

theorem run_guard {n : Nat} {pfx id shown info : Str} {vary tests waits t now} (h : Objects P pfx id shown info vary tests waits t now) {c : Str} {b : Bool} {l : Loc}
    {ys : List (Nat × Str)} (hy : ∀ x, ys.head? = some x → x.1 ≤ n) (hc : P.test c l = (b, l)) :
    run P n ((n, c!"if " ++ c ++ c!":") :: ([(n + 1, c!"_RECACHE_" ++ id ++ c!" = True")] ++ ys)) l = run P n ys { l with recache := l.recache || b } := by
  rw [run_if (by simp) hy hc]
  cases b
  · simp
  · rw [if_pos rfl, run_step (by simp) rfl (h.again l), run]
    simp [next]

theorem run_lastIf {n : Nat} {c : Str} {b : Bool} {xs : List (Nat × Str)} {l l' : Loc} (hx : ∀ l ∈ xs, n < l.1) (h : P.test c l = (b, l')) :
    run P n ((n, c!"if " ++ c ++ c!":") :: xs) l = if b then run P (n + 1) xs l' else some (false, l') := by
  have := run_if (ys := []) hx (by simp) h
  rw [List.append_nil] at this
  rw [this]
  have e : ∀ r : Option (Bool × Loc), next r (run P n []) = r := by
    intro r
    match r with
    | none => rfl
    | some (true, s) => rfl
    | some (false, s) => simp [next, run]
  simp [e, run]

/-- The last `if`, with the body and what follows it. -/
def collectCode (n : Nat) (id : Str) (wait : Option Str) (bl : List (Nat × Str)) : List (Nat × Str) :=
  (n + 1, c!"_orig_trans" ++ id ++ c!" = trans") :: (n + 1, c!"trans = _cacheCollector_" ++ id ++ c!" = DummyTransaction()") ::
  (n + 1, c!"write = _cacheCollector_" ++ id ++ c!".response().write") ::
  ((match wait with | some x => [(n + 1, c!"_cacheItem_" ++ id ++ c!".setExpiryTime(currentTime() +" ++ x ++ c!")")] | none => []) ++ (bl ++ endCode n id))

theorem run_end {n : Nat} {pfx id shown info : Str} {vary tests waits t now} (h : Objects P pfx id shown info vary tests waits t now) {l : Loc} {buf : Str} {fs : List Cache.Frame}
    (hs : l.s.stack = ⟨id, vary.2, buf⟩ :: fs) : ∃ l', run P (n + 1) (endCode n id) l = some (false, l') ∧ l'.s = leave pfx l.s now := by
  unfold endCode
  simp only [List.map_cons, List.map_nil]
  rw [run_step (by simp) rfl (h.restore l), run_step (by simp) rfl (h.names _ (by simp) _), run_step (by simp) rfl (h.value _ ⟨id, vary.2, buf⟩ (by simp [hs])),
    run_step (by simp) rfl (h.store _), run_step (by simp) rfl (h.showData _), run_step (by simp) rfl (h.names _ (by simp) _),
    run_step (by simp) rfl (h.names _ (by simp) _), run_step (by simp) rfl (h.names _ (by simp) _), run]
  refine ⟨_, rfl, ?_⟩
  simp only [leave, hs, List.tail_cons, setData, Cache.getRegion]
  cases (((l.s.regions.get id).getD ⟨true, []⟩).items.get vary.2) <;> rfl

/-- The regions when the expiry time has been noted. -/
def waited (waits : Option (Str × Int)) (now : Int) (id key : Str) (l : Loc) (s : State) : Dict Str Region :=
  match waits with
  | some (_, v) => s.regions.set id { l.region with items := l.region.items.set key { l.item with expiry := now + v } }
  | none => s.regions

theorem run_collect {n : Nat} {pfx id shown info : Str} {vary tests waits t now} (h : Objects P pfx id shown info vary tests waits t now)
    {bl : List (Nat × Str)} {B : State → State} (hlev : ∀ x ∈ bl, n < x.1) (hb : ∀ l, ∃ l', run P (n + 1) bl l = some (false, l') ∧ l'.s = B l.s)
    (hB : ∀ s fs, s.stack = ⟨id, vary.2, []⟩ :: fs → ∃ buf, (B s).stack = ⟨id, vary.2, buf⟩ :: fs) (l : Loc) :
    ∃ l', run P (n + 1) (collectCode n id (waits.map (·.1)) bl) l = some (false, l') ∧
      l'.s = leave pfx (B { l.s with
        stack := ⟨id, vary.2, []⟩ :: l.s.stack
        regions := waited waits t.current id vary.2 l l.s }) now := by
  have hrest : ∀ l fs, l.s.stack = ⟨id, vary.2, []⟩ :: fs → ∃ l', run P (n + 1) (bl ++ endCode n id) l = some (false, l') ∧ l'.s = leave pfx (B l.s) now := by
    intro l fs hs
    obtain ⟨l1, h1, h2⟩ := hb l
    obtain ⟨buf, h3⟩ := hB _ _ hs
    rw [← h2] at h3
    obtain ⟨l2, h4, h5⟩ := run_end (n := n) h h3
    refine ⟨l2, ?_, by rw [h5, h2]⟩
    rw [run_append (by simp [endCode]) _ _ (Nat.le_refl _) l (by rw [h1]; simp), h1]
    exact h4
  unfold collectCode
  rw [run_step (by simp) rfl (h.names _ (by simp) _), run_step (by simp) rfl (h.collect _), run_step (by simp) rfl (h.names _ (by simp) _)]
  match hw : waits with
  | none => exact hrest _ l.s.stack rfl
  | some (x, v) =>
    dsimp only [Option.map_some]
    rw [List.singleton_append, run_step (by simp) rfl (h.wait x v rfl _)]
    exact hrest _ l.s.stack rfl

theorem set_same {α β : Type} [DecidableEq α] (d : Dict α β) (k : α) (v : β) (h : d.get k = some v) : d.set k v = d := by
  induction d with
  | nil => simp [Dict.get] at h
  | cons x d ih =>
    obtain ⟨k', v'⟩ := x
    simp only [Dict.get, Dict.set] at h ⊢
    split at h
    · rename_i hk; simp_all
    · rename_i hk; simp_all

theorem set_set {α β : Type} [DecidableEq α] (d : Dict α β) (k : α) (v w : β) : (d.set k v).set k w = d.set k w := by
  induction d with
  | nil => simp [Dict.set]
  | cons x d ih =>
    obtain ⟨k', v'⟩ := x
    simp only [Dict.set]
    split
    · rename_i hk; simp [Dict.set, hk]
    · rename_i hk; simp [Dict.set, hk, ih]

/-- The lines from the one that looks at the item on. -/
def showCode (n : Nat) (id : Str) (wait : Option Str) (bl : List (Nat × Str)) : List (Nat × Str) :=
  (n, c!"if " ++ (c!"(not _RECACHE_" ++ id ++ c!") and _cacheItem_" ++ id ++ c!".getRefreshTime()") ++ c!":") ::
  (((n + 1, c!"try:") :: ([(n + 2, c!"_output = _cacheItem_" ++ id ++ c!".renderOutput()")] ++ (n + 1, c!"except KeyError:") ::
    ([(n + 2, c!"_RECACHE_" ++ id ++ c!" = True")] ++ (n + 1, c!"else:") :: ([(n + 2, c!"write(_output)"), (n + 2, c!"del _output")] ++ [])))) ++
  ((n, c!"if " ++ (c!"_RECACHE_" ++ id ++ c!" or not _cacheItem_" ++ id ++ c!".getRefreshTime()") ++ c!":") :: collectCode n id wait bl))

theorem collect_levels {n : Nat} {id : Str} {wait : Option Str} {bl : List (Nat × Str)} (hlev : ∀ x ∈ bl, n < x.1) : ∀ x ∈ collectCode n id wait bl, n < x.1 := by
  intro x hx
  unfold collectCode endCode at hx
  simp only [List.mem_cons, List.mem_append, List.map_cons, List.map_nil, List.not_mem_nil, or_false] at hx
  have hy : ∀ x', x' ∈ (match wait with | some x => [(n + 1, c!"_cacheItem_" ++ id ++ c!".setExpiryTime(currentTime() +" ++ x ++ c!")")] | none => []) → n < x'.1 := by
    cases wait <;> simp
  rcases hx with hx | hx | hx | hx | hx | hx | hx | hx | hx | hx | hx | hx | hx
  all_goals first | exact hlev _ hx | exact hy _ hx | (rw [hx]; simp)

theorem run_show {n : Nat} {pfx id shown info : Str} {vary tests waits t now} (h : Objects P pfx id shown info vary tests waits t now)
    {bl : List (Nat × Str)} {B : State → State} (hlev : ∀ x ∈ bl, n < x.1) (hb : ∀ l, ∃ l', run P (n + 1) bl l = some (false, l') ∧ l'.s = B l.s)
    (hB : ∀ s fs, s.stack = ⟨id, vary.2, []⟩ :: fs → ∃ buf, (B s).stack = ⟨id, vary.2, buf⟩ :: fs) (l : Loc) :
    ∃ l', run P n (showCode n id (waits.map (·.1)) bl) l = some (false, l') ∧
      l'.s =
        let (rc, s) :=
          if !l.recache && l.item.refreshed then
            match l.s.store.get' t.get (storeKey pfx id vary.2) with
            | (.error _, d) => (true, { l.s with store := d })
            | (.ok v, d) => (l.recache, { l.s with store := d }.write v)
          else (l.recache, l.s)
        if rc || !l.item.refreshed then
          leave pfx (B { s with
            stack := ⟨id, vary.2, []⟩ :: s.stack
            regions := waited waits t.current id vary.2 l s }) now
        else s := by
  have hlast : ∀ l : Loc, ∃ l', run P n ((n, c!"if " ++ (c!"_RECACHE_" ++ id ++ c!" or not _cacheItem_" ++ id ++ c!".getRefreshTime()") ++ c!":") ::
      collectCode n id (waits.map (·.1)) bl) l = some (false, l') ∧ l'.s =
      if l.recache || !l.item.refreshed then
        leave pfx (B { l.s with
          stack := ⟨id, vary.2, []⟩ :: l.s.stack
          regions := waited waits t.current id vary.2 l l.s }) now
      else l.s := by
    intro l
    rw [run_lastIf (collect_levels hlev) (h.stale l)]
    cases l.recache || !l.item.refreshed
    · exact ⟨l, rfl, rfl⟩
    · exact run_collect h hlev hb hB l
  have hnil : ∀ k (l : Loc), run P k [] l = some (false, l) := fun k l => by rw [run]
  have hag : ∀ l, run P (n + 1 + 1) [(n + 2, c!"_RECACHE_" ++ id ++ c!" = True")] l = some (false, { l with recache := true }) := by
    intro l
    rw [run_step (n := n + 1 + 1) (by simp) rfl (h.again _), run]
  have hsh : ∀ l, run P (n + 1 + 1) [(n + 2, c!"write(_output)"), (n + 2, c!"del _output")] l = some (false, { l with s := l.s.write l.output }) := by
    intro l
    rw [run_step (n := n + 1 + 1) (by simp) rfl (h.show_ _), run_step (n := n + 1 + 1) (by simp) rfl (h.names _ (by simp) _), run]
  unfold showCode
  rw [run_if (by simp) (by simp) (h.fresh l)]
  cases hf : !l.recache && l.item.refreshed with
  | false =>
    simp only [Bool.false_eq_true, if_false]
    exact hlast l
  | true =>
    simp only [if_true]
    rw [run_try (by simp) (by simp) (by simp) (by simp)]
    have hr := h.render l
    obtain ⟨h1, h2⟩ := Bool.and_eq_true_iff.1 hf
    have h1 : l.recache = false := by simpa using h1
    match hg : l.s.store.get' t.get (storeKey pfx id vary.2) with
    | (.error e, d) =>
      rw [hg] at hr
      simp only at hr
      rw [run_raise (by simp) rfl hr]
      simp only [hag, next, hnil]
      exact hlast _
    | (.ok v, d) =>
      rw [hg] at hr
      simp only at hr
      rw [run_step (by simp) rfl hr, hnil]
      simp only [hsh, next, hnil]
      exact hlast _

/-- The whole code. -/
def wholeCode (n : Nat) (id shown info vary : Str) (test wait : Option Str) (bl : List (Nat × Str)) : List (Nat × Str) :=
  (n, c!"_RECACHE_" ++ id ++ c!" = False") :: (n, c!"_cacheRegion_" ++ id ++ c!" = self.getCacheRegion(regionID=" ++ shown ++ c!", cacheInfo=" ++ info ++ c!")") ::
  ((n, c!"if " ++ (c!"_cacheRegion_" ++ id ++ c!".isNew()") ++ c!":") :: ([(n + 1, c!"_RECACHE_" ++ id ++ c!" = True")] ++
  ((n, c!"_cacheItem_" ++ id ++ c!" = _cacheRegion_" ++ id ++ c!".getCacheItem(" ++ vary ++ c!")") ::
  ((n, c!"if " ++ (c!"_cacheItem_" ++ id ++ c!".hasExpired()") ++ c!":") :: ([(n + 1, c!"_RECACHE_" ++ id ++ c!" = True")] ++
  (match test with
  | some t => (n, c!"if " ++ t ++ c!":") :: ([(n + 1, c!"_RECACHE_" ++ id ++ c!" = True")] ++ showCode n id wait bl)
  | none => showCode n id wait bl))))))

theorem whole_eq (n : Nat) (id shown info vary : Str) (test wait : Option Str) (bl : List (Nat × Str)) :
    startCode n id shown info vary test wait ++ (bl ++ endCode n id) = wholeCode n id shown info vary test wait bl := by
  unfold startCode wholeCode showCode collectCode
  cases test <;> cases wait <;> simp

theorem run_whole {n : Nat} {pfx id shown info : Str} {vary tests waits t now} (h : Objects P pfx id shown info vary tests waits t now)
    (hw : ∀ x v, waits = some (x, v) → v ≠ 0)
    {bl : List (Nat × Str)} {B : State → State} (hlev : ∀ x ∈ bl, n < x.1) (hb : ∀ l, ∃ l', run P (n + 1) bl l = some (false, l') ∧ l'.s = B l.s)
    (hB : ∀ s fs, s.stack = ⟨id, vary.2, []⟩ :: fs → ∃ buf, (B s).stack = ⟨id, vary.2, buf⟩ :: fs) (l : Loc) :
    ∃ l', run P n (wholeCode n id shown info vary.1 (tests.map (·.1)) (waits.map (·.1)) bl) l = some (false, l') ∧
      l'.s = match enter pfx l.s id vary.2 (waits.map (·.2)) ((tests.map (·.2)).getD false) t with
        | (true, s) => leave pfx (B s) now
        | (false, s) => s := by
  unfold wholeCode
  rw [run_step (by simp) rfl (h.flag l), run_step (by simp) rfl (h.region _), run_guard h (by simp) (h.isNew _), run_step (by simp) rfl (h.item _)]
  have hread : (Cache.getItem (Cache.getRegion l.s id) vary.2).2.items.get vary.2 = some (Cache.getItem (Cache.getRegion l.s id) vary.2).1 := getItem_get _ _
  rw [run_guard h (by cases tests <;> simp [showCode]) (h.expired _)]
  have key : ∀ l1 : Loc, l1.recache = ((Cache.getRegion l.s id).isNew || (Cache.getItem (Cache.getRegion l.s id) vary.2).1.hasExpired t.expired || (tests.map (·.2)).getD false) →
      l1.region = (Cache.getItem (Cache.getRegion l.s id) vary.2).2 → l1.item = (Cache.getItem (Cache.getRegion l.s id) vary.2).1 →
      l1.s = { l.s with regions := l.s.regions.set id (Cache.getItem (Cache.getRegion l.s id) vary.2).2 } →
      ∃ l', run P n (showCode n id (waits.map (·.1)) bl) l1 = some (false, l') ∧
      l'.s = match enter pfx l.s id vary.2 (waits.map (·.2)) ((tests.map (·.2)).getD false) t with
        | (true, s) => leave pfx (B s) now
        | (false, s) => s := by
    intro l1 e1 e2 e3 e4
    obtain ⟨l', h1, h2⟩ := run_show (n := n) h hlev hb hB l1
    refine ⟨l', h1, ?_⟩
    rw [h2, e1, e3, e4]
    unfold enter
    simp only
    generalize hI : Cache.getItem (Cache.getRegion l.s id) vary.2 = I at *
    generalize (tests.map (·.2)).getD false = tv at *
    generalize hrc : ((Cache.getRegion l.s id).isNew || I.1.hasExpired t.expired || tv) = rc at *
    have hsame : { I.2 with items := I.2.items.set vary.2 I.1 } = I.2 := by rw [set_same _ _ _ hread]
    cases hf : !rc && I.1.refreshed
    · simp only [Bool.false_eq_true, if_false]
      cases rc || !I.1.refreshed
      · simp
      · simp only [if_true]
        match hwt : waits with
        | none => simp [waited, set_set, hsame]
        | some (x, v) => simp [waited, set_set, hw x v rfl, e2, e3]
    · simp only [if_true]
      obtain ⟨hf1, hf2⟩ := Bool.and_eq_true_iff.1 hf
      have hf1 : rc = false := by simpa using hf1
      match hg : l.s.store.get' t.get (storeKey pfx id vary.2) with
      | (.error e, d) =>
        simp only [Bool.true_or, if_true]
        match hwt : waits with
        | none => simp [waited, set_set, hsame]
        | some (x, v) => simp [waited, set_set, hw x v rfl, e2, e3]
      | (.ok v, d) => simp [hf1, hf2]
  cases tests with
  | none => exact key _ (by simp) rfl rfl rfl
  | some ev =>
    obtain ⟨e, v⟩ := ev
    dsimp only [Option.map_some]
    rw [run_guard h (by simp [showCode]) (h.test e v rfl _)]
    exact key _ (by simp) rfl rfl rfl

/-! ### The arguments -/

theorem unquote_bare {v w : Str} (h : Interval.unquote v = .ok w) : w = bare v := by
  unfold Interval.unquote at h
  split at h
  · simp at h
  · rename_i c s
    split at h
    · rename_i hc
      rcases hc with rfl | rfl <;> simp at h <;> simp [bare, h]
    · rename_i hc
      simp only [not_or] at hc
      simp only [Except.ok.injEq] at h
      rw [← h]
      unfold bare
      split
      · rename_i he; exact absurd (List.cons.inj he).1 hc.1
      · rename_i he; exact absurd (List.cons.inj he).1 hc.2
      · rfl

theorem fold_args : ∀ (as : List (Str × Str)) (d0 d : Str → Option Interval.Val), as.foldlM (fun d a => Interval.addArg d a.1 a.2) d0 = .ok d →
    (∀ a ∈ as, a.1 ≠ c!"interval") →
    (∀ k, k ≠ c!"timer" → k ≠ c!"interval" → d k = match last k as with | some v => some (.text (bare v)) | none => d0 k) ∧
    (match last c!"timer" as with
     | some v => ∃ x, Interval.genTimeInterval (bare v) = .ok x ∧ d c!"interval" = some (.num x)
     | none => d c!"interval" = d0 c!"interval") := by
  intro as
  induction as with
  | nil => intro d0 d h _; simp [pure, Except.pure] at h; simp [last, h]
  | cons a as ih =>
    intro d0 d h hi
    obtain ⟨k0, v0⟩ := a
    have hk0 : k0 ≠ c!"interval" := hi (k0, v0) (by simp)
    simp only [List.foldlM_cons] at h
    cases hu : Interval.unquote v0 with
    | error e => simp [Interval.addArg, hu, bind, Except.bind] at h
    | ok w =>
      have hw := unquote_bare hu
      simp only [Interval.addArg, hu, bind, Except.bind] at h
      by_cases hk : k0 = c!"timer"
      · simp only [hk, if_true] at h
        cases hx : Interval.genTimeInterval w with
        | error e => simp [hx] at h
        | ok x =>
          simp only [hx, pure, Except.pure] at h
          obtain ⟨h1, h2⟩ := ih _ _ h (fun a ha => hi a (by simp [ha]))
          constructor
          · intro k hk1 hk2
            rw [h1 k hk1 hk2]
            simp only [last, hk]
            cases last k as <;> simp [Interval.put, hk2, Ne.symm hk1]
          · simp only [last, hk]
            cases hl : last c!"timer" as with
            | some v => rw [hl] at h2; simpa using h2
            | none =>
              rw [hl] at h2
              simp only [if_true]
              exact ⟨x, by rw [← hw]; exact hx, by rw [h2]; simp [Interval.put]⟩
      · simp only [hk, if_false, pure, Except.pure] at h
        obtain ⟨h1, h2⟩ := ih _ _ h (fun a ha => hi a (by simp [ha]))
        constructor
        · intro k hk1 hk2
          rw [h1 k hk1 hk2]
          simp only [last]
          cases last k as with
          | some v => simp
          | none =>
            by_cases hkk : k0 = k
            · simp [Interval.put, hkk, hw]
            · simp [Interval.put, hkk, Ne.symm hkk]
        · simp only [last, hk, if_false]
          cases hl : last c!"timer" as with
          | some v => rw [hl] at h2; simpa using h2
          | none =>
            rw [hl] at h2
            simpa [Interval.put, Ne.symm hk0] using h2

theorem argVals_given (as : List (Str × Str)) : CC.argVals (as.map fun a => (a.1, some a.2)) = .ok as := by
  induction as with
  | nil => rfl
  | cons a as ih => simp [CC.argVals, ih, Except.map]

theorem enter_zero (pfx : Str) (s : State) (id key : Str) (w : Option Int) (tv : Bool) (t : Times) :
    enter pfx s id key (w.filter fun v => v ≠ 0) tv t = enter pfx s id key w tv t := by
  cases w with
  | none => rfl
  | some v =>
    by_cases hv : v = 0
    · subst hv
      rw [show (some (0 : Int)).filter (fun v => v ≠ 0) = none from rfl]
      unfold enter
      simp only [ne_eq, not_true_eq_false, if_false]
    · simp [Option.filter, hv]

/-- **C15, the generated code.** Let `#cache` with these arguments be compiled, then some lines `bl` for the body, then `#end cache`. Python runs the lines that
are generated in this way like this: what `enter` says (C15_body_runs_iff, C15_interval: the body runs or the stored text is shown), for the region with the
given ID, or the one drawn for it; for the item that `varyBy` says, or the ID; with the given `test` and `timer`; and, if the body is to run, what the body does
(`B`), then what `leave` says (C15_body_is_shown: the text is stored and shown). -/
theorem C15_generated_code (cf : Cf) (args : List (Str × Str)) {c c1 : CC} {m : Meth} {ms : List Meth} {w : Option Int} (hc : c.active = m :: ms)
    (h : c.startCache cf (args.map fun a => (a.1, some a.2)) = .ok c1) (hi : ∀ a ∈ args, a.1 ≠ c!"interval") (hw : Wait args w) :
    ∃ m1 info, c1.active = m1 :: ms ∧ m1.lev = m.lev + 1 ∧
      ∀ (m2 : Meth) (bl : List (Nat × Str)), (m2.commit cf).chunks = m1.chunks ++ bl → m2.lev = m1.lev → m2.cache = m1.cache →
      ∃ m3 code, m2.endCache cf = .ok m3 ∧ m3.lev = m.lev ∧ m3.cache = m.cache ∧ m3.chunks = (m.commit cf).chunks ++ code ∧
      let id := (given c!"id" args).getD (cf.ids c.drawn)
      let vary := ((last c!"varyBy" args).map bare).getD (pyRepr cf.printable id)
      ∀ (P : Py Loc) (pfx key : Str) (tv : Bool) (t : Times) (now : Int),
      Objects P pfx id (pyRepr cf.printable id) info (vary, key) ((given c!"test" args).map fun e => (e, tv))
        ((w.filter fun v => v ≠ 0).map fun v : Int => (cf.showNum (v : Rat), v)) t now →
      ∀ B : State → State, (∀ x ∈ bl, m.lev < x.1) → (∀ l, ∃ l', run P (m.lev + 1) bl l = some (false, l') ∧ l'.s = B l.s) →
      (∀ s fs, s.stack = ⟨id, key, []⟩ :: fs → ∃ buf, (B s).stack = ⟨id, key, buf⟩ :: fs) →
      ∀ l, ∃ l', run P m.lev code l = some (false, l') ∧
        l'.s = match enter pfx l.s id key w (((given c!"test" args).map fun _ => tv).getD false) t with
          | (true, s) => leave pfx (B s) now
          | (false, s) => s := by
  unfold CC.startCache at h
  rw [argVals_given] at h
  simp only [bind, Except.bind] at h
  cases hd : Interval.fromArgList args with
  | error e => simp [hd] at h
  | ok d =>
    simp only [hd, CC.draw, CC.onTop, hc] at h
    obtain ⟨h1, h2⟩ := fold_args args _ _ hd hi
    have htext : ∀ k, k ≠ c!"timer" → k ≠ c!"interval" → k ≠ c!"type" → CC.textOf (d k) = (last k args).map bare := by
      intro k a1 a2 a3
      rw [h1 k a1 a2]
      cases last k args <;> simp [CC.textOf, Interval.put, a3]
    have hid : CC.idOf (CC.textOf (d c!"id")) (cf.ids c.drawn) = (given c!"id" args).getD (cf.ids c.drawn) := by
      rw [htext _ (by decide) (by decide) (by decide)]
      unfold given CC.idOf
      cases last c!"id" args with
      | none => rfl
      | some v => by_cases hv : bare v = [] <;> simp [Option.filter, hv]
    have htest : (CC.textOf (d c!"test")).bind (fun t => if t = [] then none else some t) = given c!"test" args := by
      rw [htext _ (by decide) (by decide) (by decide)]
      unfold given
      cases last c!"test" args with
      | none => rfl
      | some v => by_cases hv : bare v = [] <;> simp [Option.filter, hv]
    have hwait : (Interval.expiry (CC.numOf (d c!"interval"))).map cf.showNum = ((w.filter fun v => v ≠ 0).map fun v : Int => (cf.showNum (v : Rat), v)).map (·.1) := by
      cases w with
      | none =>
        rw [hw] at h2
        simp only at h2
        rw [h2]
        simp [Interval.put, CC.numOf, Interval.expiry]
      | some w =>
        obtain ⟨v, t, u, x, n, a1, a2, a3, a4, a5⟩ := hw
        rw [a1] at h2
        obtain ⟨y, b1, b2⟩ := h2
        rw [a2, Interval.C32_units a3 a4] at b1
        simp only [Except.ok.injEq] at b1
        rw [b2, ← b1, a5]
        by_cases hv : w = 0
        · simp [CC.numOf, Interval.expiry, Option.filter, hv]
        · simp [CC.numOf, Interval.expiry, Option.filter, hv]
    rw [startCache_code, hid, htest, hwait, htext _ (by decide) (by decide) (by decide)] at h
    simp only [bind, Except.bind, Except.ok.injEq] at h
    refine ⟨_, cf.showInfo d, by rw [← h], rfl, ?_⟩
    intro m2 bl hm2 hl2 hc2
    refine ⟨_, _, endCache_code cf _ _ m.lev m2 hc2 hl2, rfl, rfl, by dsimp only; rw [hm2, List.append_assoc, List.append_assoc], ?_⟩
    intro id vary P pfx key tv t now hO B b1 b2 b3 l
    rw [whole_eq]
    obtain ⟨l', r1, r2⟩ := run_whole (n := m.lev) hO (by
      intro x v hx
      cases w with
      | none => simp at hx
      | some w =>
        by_cases hv : w = 0
        · simp [Option.filter, hv] at hx
        · simp [Option.filter, hv] at hx; rw [← hx.2]; exact hv) b1 b2 b3 l
    refine ⟨l', ?_, ?_⟩
    · simpa [Option.map_map, Function.comp_def] using r1
    · rw [r2, ← enter_zero pfx l.s id key w]
      simp [Option.map_map, Function.comp_def]

/-- Python's operations for the region `x` with the test `y`, an interval of a minute, and a body that writes. -/
def demoPy (tv : Bool) (t : Times) (now : Int) : Py Loc where
  test e l :=
    if e = c!"_cacheRegion_x.isNew()" then (l.region.isNew, l)
    else if e = c!"_cacheItem_x.hasExpired()" then (l.item.hasExpired t.expired, l)
    else if e = c!"y" then (tv, l)
    else if e = c!"(not _RECACHE_x) and _cacheItem_x.getRefreshTime()" then (!l.recache && l.item.refreshed, l)
    else (l.recache || !l.item.refreshed, l)
  step e l :=
    if e = c!"_RECACHE_x = False" then (false, { l with recache := false })
    else if e = c!"_RECACHE_x = True" then (false, { l with recache := true })
    else if e = c!"_cacheRegion_x = self.getCacheRegion(regionID='x', cacheInfo=)" then (false, { l with region := Cache.getRegion l.s c!"x" })
    else if e = c!"_cacheItem_x = _cacheRegion_x.getCacheItem('x')" then
      (false, { l with item := (Cache.getItem l.region c!"k").1, region := (Cache.getItem l.region c!"k").2,
                       s := { l.s with regions := l.s.regions.set c!"x" (Cache.getItem l.region c!"k").2 } })
    else if e = c!"_output = _cacheItem_x.renderOutput()" then
      match l.s.store.get' t.get (storeKey [] c!"x" c!"k") with
      | (.error _, d) => (true, { l with s := { l.s with store := d } })
      | (.ok v, d) => (false, { l with output := v, s := { l.s with store := d } })
    else if e = c!"write(_output)" then (false, { l with s := l.s.write l.output })
    else if e = c!"trans = _cacheCollector_x = DummyTransaction()" then (false, { l with s := { l.s with stack := ⟨c!"x", c!"k", []⟩ :: l.s.stack } })
    else if e = c!"_cacheItem_x.setExpiryTime(currentTime() +)" then
      (false, { l with s := { l.s with regions := l.s.regions.set c!"x" { l.region with items := l.region.items.set c!"k" { l.item with expiry := t.current + 60 } } } })
    else if e = c!"trans = _orig_transx" then (false, { l with frame := l.s.stack.head?, s := { l.s with stack := l.s.stack.tail } })
    else if e = c!"_cacheData = _cacheCollector_x.response().getvalue()" then (false, { l with data := (l.frame.map (·.buf)).getD [] })
    else if e = c!"_cacheItem_x.setData(_cacheData)" then (false, { l with s := setData [] now c!"x" c!"k" l.data l.s })
    else if e = c!"write(_cacheData)" then (false, { l with s := l.s.write l.data })
    else if e = c!"write('a')" then (false, { l with s := l.s.write c!"a" })
    else (false, l)

theorem demo_objects (tv : Bool) (t : Times) (now : Int) :
    Objects (demoPy tv t now) [] c!"x" c!"'x'" [] (c!"'x'", c!"k") (some (c!"y", tv)) (some ([], 60)) t now where
  flag l := by simp [demoPy]
  again l := by simp [demoPy]
  region l := by simp [demoPy]
  isNew l := by simp [demoPy]
  item l := by simp [demoPy]
  expired l := by simp [demoPy]
  test e v h l := by simp only [Option.some.injEq, Prod.mk.injEq] at h; rw [← h.1, ← h.2]; simp [demoPy]
  fresh l := by simp [demoPy]
  render l := by simp [demoPy]
  show_ l := by simp [demoPy]
  stale l := by simp [demoPy]
  collect l := by simp [demoPy]
  wait n v h l := by simp only [Option.some.injEq, Prod.mk.injEq] at h; rw [← h.1, ← h.2]; simp [demoPy]
  restore l := by simp [demoPy]
  value l f h := by simp [demoPy, h]
  store l := by simp [demoPy]
  showData l := by simp [demoPy]
  names e h l := by
    simp only [List.mem_cons, List.not_mem_nil, or_false] at h
    rcases h with h | h | h | h | h | h | h <;> rw [h] <;> simp [demoPy]

-- `#cache id='x', test='y', timer='1m'` with a body that writes; the operations above meet every hypothesis.
example : Wait [(c!"id", c!"'x'"), (c!"test", c!"'y'"), (c!"timer", c!"'1m'")] (some 60) ∧ given c!"id" [(c!"id", c!"'x'"), (c!"test", c!"'y'"), (c!"timer", c!"'1m'")] = some c!"x" ∧
    given c!"test" [(c!"id", c!"'x'"), (c!"test", c!"'y'"), (c!"timer", c!"'1m'")] = some c!"y" ∧ pyRepr demoCf.printable c!"x" = c!"'x'" := by
  refine ⟨⟨_, c!"1", c!"m", 1, 60, rfl, rfl, ?_, .minutes, by norm_num⟩, by decide, by decide, by decide +kernel⟩
  have := Interval.Numeral.whole c!"1" (by decide) (by decide)
  simpa [Interval.digitsValue] using this
example : ((CC.start demoCf).startCache demoCf [(c!"id", some c!"'x'"), (c!"test", some c!"'y'"), (c!"timer", some c!"'1m'")]).isOk = true ∧
    (CC.start demoCf).active.map (·.lev) = [2] := by decide +kernel
example (tv t now l) : ∃ l', run (demoPy tv t now) 3 [(3, c!"write('a')")] l = some (false, l') ∧ l'.s = l.s.write c!"a" := by
  rw [run_step (n := 3) (l' := { l with s := l.s.write c!"a" }) (by simp) rfl (by simp [demoPy]), run]
  exact ⟨_, rfl, rfl⟩
example (s : State) (fs) (h : s.stack = ⟨c!"x", c!"k", []⟩ :: fs) : ∃ buf, (s.write c!"a").stack = ⟨c!"x", c!"k", buf⟩ :: fs := by
  simp [State.write, h]

end Cheetah.CacheCode
