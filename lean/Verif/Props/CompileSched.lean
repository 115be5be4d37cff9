import Verif.CompileSched
/-
C48: concurrent calls of `Template.compile`.
-/
namespace Cheetah.CompileSched

/-- A call that holds the lock. -/
def holds (c : Call) : Bool :=
  match c.pc with
  | .naming | .executing _ | .releasing _ => true
  | _ => false

/-- The invariant of the lock: its owner has one call that holds it, and other threads have no
such calls. -/
def LockInv (s : State) : Prop :=
  match s.lock with
  | none => ∀ t, (s.calls t).countP holds = 0
  | some o => (s.calls o).countP holds = 1 ∧ ∀ t, t ≠ o → (s.calls t).countP holds = 0

theorem put_calls (s : State) (t u : Nat) (cs : List Call) :
    (s.put t cs).calls u = if u = t then cs else s.calls u := rfl

/-- A step that keeps the lock and the number of holding calls. -/
theorem lockInv_keep {s s' : State} {t : Nat} {cs : List Call} (hl : s'.lock = s.lock)
    (hc : ∀ u, s'.calls u = if u = t then cs else s.calls u) (hn : cs.countP holds = (s.calls t).countP holds)
    (h : LockInv s) : LockInv s' := by
  have e : ∀ u, (s'.calls u).countP holds = (s.calls u).countP holds := by
    intro u
    rw [hc u]
    by_cases hu : u = t
    · subst hu; rw [if_pos rfl, hn]
    · rw [if_neg hu]
  unfold LockInv at h ⊢
  rw [hl]
  cases hk : s.lock with
  | none => rw [hk] at h; intro u; rw [e]; exact h u
  | some o =>
    rw [hk] at h
    exact ⟨by rw [e]; exact h.1, fun u hu => by rw [e]; exact h.2 u hu⟩

theorem lockInv_step {s s' : State} (hs : Step s s') (h : LockInv s) : LockInv s' := by
  cases hs with
  | @call t key base u st hc =>
    exact lockInv_keep (s := s) (t := t) (cs := ⟨s.next, key, base, u, st, .lookup⟩ :: s.calls t) rfl (fun _ => rfl) (by rw [List.countP_cons_of_neg (by simp [holds])]) h
  | @nested t c n rest key base u st hc hp =>
    exact lockInv_keep (s := s) (t := t) (cs := ⟨s.next, key, base, u, st, .lookup⟩ :: s.calls t) rfl (fun _ => rfl) (by rw [List.countP_cons_of_neg (by simp [holds])]) h
  | @hit t c rest k hc hp =>
    exact lockInv_keep (s := s) (t := t) (cs := rest) rfl (fun _ => rfl)
      (by rw [hc, List.countP_cons_of_neg (by simp [holds, hp])]) h
  | @miss t c rest hc hp =>
    exact lockInv_keep (s := s) (t := t) (cs := _ :: rest) rfl (fun _ => rfl)
      (by rw [hc, List.countP_cons_of_neg (by simp [holds]), List.countP_cons_of_neg (by simp [holds, hp])]) h
  | @parseError t c rest hc hp =>
    exact lockInv_keep (s := s) (t := t) (cs := rest) rfl (fun _ => rfl)
      (by rw [hc, List.countP_cons_of_neg (by simp [holds, hp])]) h
  | @acquire t c rest hc hp hl =>
    unfold LockInv at h ⊢
    rw [hl] at h
    have h : ∀ t, (s.calls t).countP holds = 0 := h
    show _ ∧ _
    refine ⟨?_, ?_⟩
    · rw [put_calls, if_pos rfl, List.countP_cons_of_pos (by simp [holds])]
      have := h t
      rw [hc, List.countP_cons_of_neg (by simp [holds, hp])] at this
      omega
    · intro u hu
      rw [put_calls, if_neg hu]; exact h u
  | @name t c rest n hc hp =>
    exact lockInv_keep (s := s) (t := t) (cs := _ :: rest) rfl (fun _ => rfl)
      (by rw [hc, List.countP_cons_of_pos (by simp [holds]), List.countP_cons_of_pos (by simp [holds, hp])]) h
  | @raised t c rest n hc hp =>
    exact lockInv_keep (s := s) (t := t) (cs := _ :: rest) rfl (fun _ => rfl)
      (by rw [hc, List.countP_cons_of_pos (by simp [holds]), List.countP_cons_of_pos (by simp [holds, hp])]) h
  | @register t c rest n hc hp =>
    exact lockInv_keep (s := s) (t := t) (cs := _ :: rest) rfl (fun _ => rfl)
      (by rw [hc, List.countP_cons_of_pos (by simp [holds]), List.countP_cons_of_pos (by simp [holds, hp])]) h
  | @release t c rest ok hc hp hl =>
    unfold LockInv at h ⊢
    rw [hl] at h
    obtain ⟨h2, h3⟩ := h
    rw [hc, List.countP_cons_of_pos (by simp [holds, hp])] at h2
    show ∀ u, _
    intro u
    rw [put_calls]
    by_cases hu : u = t
    · rw [if_pos hu]
      cases ok with
      | true => rw [if_pos rfl, List.countP_cons_of_neg (by simp [holds])]; omega
      | false => rw [if_neg (by simp)]; omega
    · rw [if_neg hu]; exact h3 u hu
  | @noClass t c rest hc hp =>
    exact lockInv_keep (s := s) (t := t) (cs := rest) rfl (fun _ => rfl)
      (by rw [hc, List.countP_cons_of_neg (by simp [holds, hp])]) h
  | @noStore t c rest hc hp =>
    exact lockInv_keep (s := s) (t := t) (cs := rest) rfl (fun _ => rfl)
      (by rw [hc, List.countP_cons_of_neg (by simp [holds, hp])]) h
  | @mayStore t c rest hc hp =>
    exact lockInv_keep (s := s) (t := t) (cs := _ :: rest) rfl (fun _ => rfl)
      (by rw [hc, List.countP_cons_of_neg (by simp [holds]), List.countP_cons_of_neg (by simp [holds, hp])]) h
  | @insert t c rest hc hp =>
    exact lockInv_keep (s := s) (t := t) (cs := rest) rfl (fun _ => rfl)
      (by rw [hc, List.countP_cons_of_neg (by simp [holds, hp])]) h

theorem lockInv_exec {m : List Nat} {s : State} (h : Exec (init m) s) : LockInv s := by
  generalize hi : init m = s0 at h
  induction h with
  | nil => subst hi; exact fun _ => rfl
  | snoc _ hs ih => exact lockInv_step hs ih

/-- **C48**: whatever the schedule, the failures and the nesting of calls, the compile lock is free
when no call is under way. -/
theorem C48_lock_released {m : List Nat} {s : State} (h : Exec (init m) s) (hdone : ∀ t, s.calls t = []) :
    s.lock = none := by
  have hi := lockInv_exec h
  unfold LockInv at hi
  cases hl : s.lock with
  | none => rfl
  | some o =>
    rw [hl] at hi
    obtain ⟨h2, -⟩ := hi
    rw [hdone] at h2
    simp at h2

/-- **C48**: only one thread at a time runs the part between taking a name and registering the
module. -/
theorem C48_exclusive {m : List Nat} {s : State} (h : Exec (init m) s) {t u : Nat} {c d : Call} {n n' : Nat}
    (hc : c ∈ s.calls t) (hcp : c.pc = .executing n) (hd : d ∈ s.calls u) (hdp : d.pc = .executing n') : t = u := by
  have hi := lockInv_exec h
  have hct : 0 < (s.calls t).countP holds := List.countP_pos_iff.mpr ⟨c, hc, by simp [holds, hcp]⟩
  have hdt : 0 < (s.calls u).countP holds := List.countP_pos_iff.mpr ⟨d, hd, by simp [holds, hdp]⟩
  unfold LockInv at hi
  cases hl : s.lock with
  | none =>
    rw [hl] at hi
    have : (s.calls t).countP holds = 0 := hi t
    omega
  | some o =>
    rw [hl] at hi
    obtain ⟨-, h3⟩ := hi
    have a : t = o := Classical.byContradiction fun hne => by have := h3 t hne; omega
    have b : u = o := Classical.byContradiction fun hne => by have := h3 u hne; omega
    rw [a, b]

/-- The invariant of the cache: each entry's class was compiled for the entry's key. -/
def CacheInv (s : State) : Prop :=
  (∀ k c, s.cache.get k = some c → c.key = k) ∧ (∀ p ∈ s.returned, p.2.key = p.1)

theorem cacheInv_step {s s' : State} (hs : Step s s') (h : CacheInv s) : CacheInv s' := by
  obtain ⟨h1, h2⟩ := h
  have app : ∀ (r : List (Nat × Cls)) (k : Nat) (c : Cls), (∀ p ∈ r, p.2.key = p.1) → c.key = k →
      ∀ p ∈ r ++ [(k, c)], p.2.key = p.1 := by
    intro r k c hr hk p hp
    rcases List.mem_append.mp hp with hp | hp
    · exact hr p hp
    · rw [List.mem_singleton.mp hp]; exact hk
  cases hs with
  | hit hc hp hu hg => exact ⟨h1, app _ _ _ h2 (h1 _ _ hg)⟩
  | noStore hc hp ht => exact ⟨h1, app _ _ _ h2 rfl⟩
  | @insert t c rest hc hp =>
    refine ⟨?_, app _ _ _ h2 rfl⟩
    intro k k' hk
    have hk : (s.cache.set c.key ⟨c.call, c.key⟩).get k = some k' := hk
    rw [Dict.get_set] at hk
    by_cases e : k = c.key
    · rw [if_pos e] at hk
      injection hk with hk
      rw [← hk, e]
    · rw [if_neg e] at hk
      exact h1 k k' hk
  | _ => exact ⟨h1, h2⟩

/-- **C48**: whatever the schedule, the failures and the nesting of calls, every call that returns
returns a class that was compiled for the key it asked for. -/
theorem C48_same_key {m : List Nat} {s : State} (h : Exec (init m) s) {k : Nat} {c : Cls}
    (hr : (k, c) ∈ s.returned) : c.key = k := by
  suffices hi : CacheInv s from hi.2 _ hr
  clear hr
  generalize hi : init m = s0 at h
  induction h with
  | nil => subst hi; exact ⟨fun k c h => by simp [init, Dict.get] at h, by simp [init]⟩
  | snoc _ hs ih => exact cacheInv_step hs ih

/-! ### Module names -/

/-- The invariant of the names: a name taken but not registered yet is not in `sys.modules`,
and what was registered, or there before, is still there. -/
structure NamesInv (m : List Nat) (s : State) : Prop where
  fresh : ∀ t, ∀ c ∈ s.calls t, ∀ n, c.pc = .executing n → n ∉ s.modules.keys
  nodup : (s.registered.map (·.1)).Nodup
  kept : ∀ p ∈ s.registered, s.modules.get p.1 = some (some p.2)
  old : ∀ n ∈ m, s.modules.get n = some none

/-- A step that leaves `sys.modules` alone, and in which no call takes a name. -/
theorem namesInv_keep {m : List Nat} {s s' : State} {t : Nat} {cs : List Call} (hm : s'.modules = s.modules)
    (hr : s'.registered = s.registered) (hc : ∀ u, s'.calls u = if u = t then cs else s.calls u)
    (hn : ∀ c ∈ cs, ∀ n, c.pc = .executing n → c ∈ s.calls t ∨ n ∉ s.modules.keys) (h : NamesInv m s) : NamesInv m s' := by
  refine ⟨?_, by rw [hr]; exact h.nodup, by rw [hr, hm]; exact h.kept, by rw [hm]; exact h.old⟩
  intro u c hcu n hp
  rw [hm]
  rw [hc u] at hcu
  by_cases hu : u = t
  · subst hu
    rw [if_pos rfl] at hcu
    rcases hn c hcu n hp with h' | h'
    · exact h.fresh u c h' n hp
    · exact h'
  · rw [if_neg hu] at hcu
    exact h.fresh u c hcu n hp

theorem namesInv_step {m : List Nat} {s s' : State} (hs : Step s s') (hl : LockInv s) (h : NamesInv m s) :
    NamesInv m s' := by
  cases hs with
  | @call t key base u st hc =>
    refine namesInv_keep (s := s) (t := t) (cs := ⟨s.next, key, base, u, st, .lookup⟩ :: s.calls t) rfl rfl (fun _ => rfl) ?_ h
    intro c hc n hp
    rcases List.mem_cons.mp hc with e | e
    · rw [e] at hp; cases hp
    · exact .inl e
  | @nested t c n rest key base u st hc hp =>
    refine namesInv_keep (s := s) (t := t) (cs := ⟨s.next, key, base, u, st, .lookup⟩ :: s.calls t) rfl rfl (fun _ => rfl) ?_ h
    intro c hc n hp
    rcases List.mem_cons.mp hc with e | e
    · rw [e] at hp; cases hp
    · exact .inl e
  | @hit t c rest k hc hp =>
    exact namesInv_keep (s := s) (t := t) (cs := rest) rfl rfl (fun _ => rfl)
      (fun c' h' _ _ => .inl (by rw [hc]; exact List.mem_cons_of_mem _ h')) h
  | @miss t c rest hc hp =>
    refine namesInv_keep (s := s) (t := t) (cs := _ :: rest) rfl rfl (fun _ => rfl) ?_ h
    intro c' h' n hp'
    rcases List.mem_cons.mp h' with e | e
    · rw [e] at hp'; cases hp'
    · exact .inl (by rw [hc]; exact List.mem_cons_of_mem _ e)
  | @parseError t c rest hc hp =>
    exact namesInv_keep (s := s) (t := t) (cs := rest) rfl rfl (fun _ => rfl)
      (fun c' h' _ _ => .inl (by rw [hc]; exact List.mem_cons_of_mem _ h')) h
  | @acquire t c rest hc hp hl =>
    refine namesInv_keep (s := s) (t := t) (cs := _ :: rest) rfl rfl (fun _ => rfl) ?_ h
    intro c' h' n hp'
    rcases List.mem_cons.mp h' with e | e
    · rw [e] at hp'; cases hp'
    · exact .inl (by rw [hc]; exact List.mem_cons_of_mem _ e)
  | @name t c rest n hc hp hn _ =>
    refine namesInv_keep (s := s) (t := t) (cs := _ :: rest) rfl rfl (fun _ => rfl) ?_ h
    intro c' h' n' hp'
    rcases List.mem_cons.mp h' with e | e
    · rw [e] at hp'
      injection hp' with hp'
      rw [← hp']; exact .inr hn
    · exact .inl (by rw [hc]; exact List.mem_cons_of_mem _ e)
  | @raised t c rest n hc hp =>
    refine namesInv_keep (s := s) (t := t) (cs := _ :: rest) rfl rfl (fun _ => rfl) ?_ h
    intro c' h' n hp'
    rcases List.mem_cons.mp h' with e | e
    · rw [e] at hp'; cases hp'
    · exact .inl (by rw [hc]; exact List.mem_cons_of_mem _ e)
  | @register t c rest n hc hp =>
    have hnew : n ∉ s.modules.keys := h.fresh t c (by rw [hc]; exact List.mem_cons_self) n hp
    have hnone : s.modules.get n = none := (Dict.get_eq_none _ _).mpr hnew
    -- no other call has taken a name
    have others : ∀ u, ∀ c' ∈ (if u = t then rest else s.calls u), ∀ n', c'.pc ≠ .executing n' := by
      intro u c' hc' n' hp'
      have hh : holds c' = true := by simp [holds, hp']
      have hcnt : 1 ≤ (s.calls t).countP holds := by
        rw [hc, List.countP_cons_of_pos (by simp [holds, hp])]; omega
      unfold LockInv at hl
      cases hk : s.lock with
      | none =>
        rw [hk] at hl
        have : (s.calls t).countP holds = 0 := hl t
        omega
      | some o =>
        rw [hk] at hl
        obtain ⟨h1, h2⟩ := hl
        have hto : t = o := Classical.byContradiction fun hne => by have := h2 t hne; omega
        subst hto
        by_cases hu : u = t
        · rw [if_pos hu] at hc'
          have : 0 < rest.countP holds := List.countP_pos_iff.mpr ⟨c', hc', hh⟩
          rw [hc, List.countP_cons_of_pos (by simp [holds, hp])] at h1
          omega
        · rw [if_neg hu] at hc'
          have : 0 < (s.calls u).countP holds := List.countP_pos_iff.mpr ⟨c', hc', hh⟩
          have := h2 u hu
          omega
    refine ⟨?_, ?_, ?_, ?_⟩
    · intro u c' hc' n' hp'
      have hc' : c' ∈ (if u = t then { c with pc := .releasing true } :: rest else s.calls u) := hc'
      by_cases hu : u = t
      · rw [if_pos hu] at hc'
        rcases List.mem_cons.mp hc' with e | e
        · rw [e] at hp'; cases hp'
        · exact absurd hp' (others u c' (by rw [if_pos hu]; exact e) n')
      · rw [if_neg hu] at hc'
        exact absurd hp' (others u c' (by rw [if_neg hu]; exact hc') n')
    · show ((s.registered ++ [(n, c.call)]).map (·.1)).Nodup
      rw [List.map_append, List.nodup_append]
      refine ⟨h.nodup, by simp, ?_⟩
      intro a ha b hb
      rw [List.map_singleton, List.mem_singleton] at hb
      obtain ⟨p, hp, rfl⟩ := List.mem_map.mp ha
      intro e
      have := h.kept p hp
      rw [e, hb, hnone] at this
      cases this
    · intro p hp
      show (s.modules.set n (some c.call)).get p.1 = _
      rcases List.mem_append.mp hp with hp | hp
      · have := h.kept p hp
        rw [Dict.get_set_ne]
        · exact this
        · intro e; rw [e, hnone] at this; cases this
      · rw [List.mem_singleton.mp hp, Dict.get_set_self]
    · intro k hk
      show (s.modules.set n (some c.call)).get k = _
      have := h.old k hk
      rw [Dict.get_set_ne]
      · exact this
      · intro e; rw [e, hnone] at this; cases this
  | @release t c rest ok hc hp hl =>
    refine namesInv_keep (s := s) (t := t) (cs := _) rfl rfl (fun _ => rfl) ?_ h
    intro c' h' n hp'
    have : c' = { c with pc := .storing } ∨ c' ∈ rest := by
      cases ok with
      | true => rw [if_pos rfl] at h'; exact List.mem_cons.mp h'
      | false => rw [if_neg (by simp)] at h'; exact .inr h'
    rcases this with e | e
    · rw [e] at hp'; cases hp'
    · exact .inl (by rw [hc]; exact List.mem_cons_of_mem _ e)
  | @noClass t c rest hc hp =>
    exact namesInv_keep (s := s) (t := t) (cs := rest) rfl rfl (fun _ => rfl)
      (fun c' h' _ _ => .inl (by rw [hc]; exact List.mem_cons_of_mem _ h')) h
  | @noStore t c rest hc hp =>
    exact namesInv_keep (s := s) (t := t) (cs := rest) rfl rfl (fun _ => rfl)
      (fun c' h' _ _ => .inl (by rw [hc]; exact List.mem_cons_of_mem _ h')) h
  | @mayStore t c rest hc hp =>
    refine namesInv_keep (s := s) (t := t) (cs := _ :: rest) rfl rfl (fun _ => rfl) ?_ h
    intro c' h' n hp'
    rcases List.mem_cons.mp h' with e | e
    · rw [e] at hp'; cases hp'
    · exact .inl (by rw [hc]; exact List.mem_cons_of_mem _ e)
  | @insert t c rest hc hp =>
    exact namesInv_keep (s := s) (t := t) (cs := rest) rfl rfl (fun _ => rfl)
      (fun c' h' _ _ => .inl (by rw [hc]; exact List.mem_cons_of_mem _ h')) h

theorem init_get (n : Nat) : ∀ m : List Nat, n ∈ m → (init m).modules.get n = some none
  | [], h => by cases h
  | k :: m, h => by
    show (if n = k then some none else Dict.get (m.map fun m => (m, none)) n) = some none
    by_cases e : n = k
    · rw [if_pos e]
    · rw [if_neg e]
      exact init_get n m ((List.mem_cons.mp h).resolve_left e)

theorem namesInv_exec {m : List Nat} {s : State} (h : Exec (init m) s) : NamesInv m s := by
  generalize hi : init m = s0 at h
  have key : LockInv s ∧ NamesInv m s := by
    induction h with
    | nil =>
      subst hi
      exact ⟨fun _ => rfl, by simp [init], by simp [init], by simp [init], fun n hn => init_get n m hn⟩
    | snoc _ hs ih => exact ⟨lockInv_step hs ih.1, namesInv_step hs ih.1 ih.2⟩
  exact key.2

/-- **C48**: whatever the schedule, the failures and the nesting of calls, no two compilations
register the same module name, every module that a compilation registered is still
registered, and so is every module that was there before. -/
theorem C48_distinct_modules {m : List Nat} {s : State} (h : Exec (init m) s) :
    (s.registered.map (·.1)).Nodup ∧ (∀ n call, (n, call) ∈ s.registered → s.modules.get n = some (some call)) ∧
    ∀ n ∈ m, s.modules.get n = some none :=
  have hi := namesInv_exec h
  ⟨hi.nodup, fun n call hm => hi.kept (n, call) hm, hi.old⟩

/-! ### Waiting -/

/-- A name that is not in `sys.modules`, and is the one asked for if that can be. -/
theorem exists_name (ks : List Nat) (base : Nat) : ∃ n, n ∉ ks ∧ (base ∉ ks → n = base) := by
  by_cases h : base ∈ ks
  · refine ⟨ks.foldr max 0 + 1, fun hm => ?_, fun h' => absurd h h'⟩
    have : ∀ (l : List Nat) (x : Nat), x ∈ l → x ≤ l.foldr max 0 := by
      intro l x hx
      induction l with
      | nil => cases hx
      | cons a l ih =>
        simp only [List.foldr_cons]
        rcases List.mem_cons.mp hx with e | e
        · omega
        · have := ih e; omega
    have := this ks _ hm
    omega
  · exact ⟨base, h, fun _ => rfl⟩

/-- A thread whose innermost call does not wait for the lock, and that owns it if it is to
release it, can take a step that changes its calls. -/
theorem can_step {s : State} {t : Nat} {c : Call} {rest : List Call} (hc : s.calls t = c :: rest)
    (hl : ∀ ok, c.pc = .releasing ok → s.lock = some t) (ha : c.pc = .acquire → s.lock = none) :
    ∃ s', Step s s' ∧ s'.calls t ≠ s.calls t := by
  have pcne : ∀ (p : PC), c.pc ≠ p → ({ c with pc := p } :: rest : List Call) ≠ c :: rest := by
    intro p hp e
    injection e with e _
    exact hp (congrArg Call.pc e.symm)
  have tail : rest ≠ c :: rest := fun e => by
    have := congrArg List.length e
    simp at this
  cases hp : c.pc with
  | lookup =>
    exact ⟨_, .parseError hc hp, by rw [put_calls, if_pos rfl, hc]; exact tail⟩
  | acquire =>
    exact ⟨_, .acquire hc hp (ha hp), by rw [put_calls, if_pos rfl, hc]; exact pcne _ (by rw [hp]; simp)⟩
  | naming =>
    obtain ⟨n, h1, h2⟩ := exists_name s.modules.keys c.base
    exact ⟨_, .name n hc hp h1 h2, by rw [put_calls, if_pos rfl, hc]; exact pcne _ (by rw [hp]; simp)⟩
  | executing n =>
    exact ⟨_, .raised hc hp, by rw [put_calls, if_pos rfl, hc]; exact pcne _ (by rw [hp]; simp)⟩
  | releasing ok =>
    refine ⟨_, .release hc hp (hl ok hp), ?_⟩
    rw [put_calls, if_pos rfl, hc]
    cases ok with
    | true => rw [if_pos rfl]; exact pcne _ (by rw [hp]; simp)
    | false => rw [if_neg (by simp)]; exact tail
  | storing =>
    exact ⟨_, .noClass hc hp, by rw [put_calls, if_pos rfl, hc]; exact tail⟩
  | inserting =>
    refine ⟨_, .insert hc hp, ?_⟩
    show (if t = t then rest else _) ≠ _
    rw [if_pos rfl, hc]; exact tail

/-- **C48 (partial)**: as long as no thread calls `compile` from within the module it is compiling, no
thread waits for ever: each thread in a call can go on, or waits for the lock while the thread
that has the lock can go on. Missing: modules that call `compile` when they are executed
(`C48_nested_counterexample`). -/
theorem C48_progress_partial {m : List Nat} {s : State} (h : Exec (init m) s) (hflat : ∀ t, (s.calls t).length ≤ 1)
    {t : Nat} (ht : s.calls t ≠ []) :
    (∃ s', Step s s' ∧ s'.calls t ≠ s.calls t) ∨
    ((∃ c, s.calls t = [c] ∧ c.pc = .acquire) ∧ ∃ o, s.lock = some o ∧ o ≠ t ∧
      ∃ s', Step s s' ∧ s'.calls o ≠ s.calls o) := by
  have hi := lockInv_exec h
  have one : ∀ u, s.calls u ≠ [] → ∃ c, s.calls u = [c] := by
    intro u hu
    have := hflat u
    cases e : s.calls u with
    | nil => exact absurd e hu
    | cons c r =>
      rw [e] at this
      cases r with
      | nil => exact ⟨c, rfl⟩
      | cons d r => simp at this
  obtain ⟨c, hc⟩ := one t ht
  -- the owner is the one that holds
  have own : ∀ u c, s.calls u = [c] → holds c = true → s.lock = some u := by
    intro u c hu hh
    have hcnt : (s.calls u).countP holds = 1 := by rw [hu, List.countP_cons_of_pos hh]; rfl
    unfold LockInv at hi
    cases hk : s.lock with
    | none =>
      rw [hk] at hi
      have : (s.calls u).countP holds = 0 := hi u
      omega
    | some o =>
      rw [hk] at hi
      obtain ⟨-, h2⟩ := hi
      have : u = o := Classical.byContradiction fun hne => by have := h2 u hne; omega
      rw [this]
  have rel : ∀ u c, s.calls u = [c] → ∀ ok, c.pc = .releasing ok → s.lock = some u := fun u c hu ok hp =>
    own u c hu (by simp [holds, hp])
  by_cases ha : c.pc = .acquire
  · cases hk : s.lock with
    | none => exact .inl (can_step hc (rel t c hc) fun _ => hk)
    | some o =>
      refine .inr ⟨⟨c, hc, ha⟩, o, rfl, ?_, ?_⟩
      · intro e
        subst e
        unfold LockInv at hi
        rw [hk] at hi
        obtain ⟨h1, -⟩ := hi
        rw [hc, List.countP_cons_of_neg (by simp [holds, ha])] at h1
        simp at h1
      · have hone : s.calls o ≠ [] := by
          intro e
          unfold LockInv at hi
          rw [hk] at hi
          obtain ⟨h1, -⟩ := hi
          rw [e] at h1; simp at h1
        obtain ⟨d, hd⟩ := one o hone
        refine can_step hd (rel o d hd) fun hda => ?_
        unfold LockInv at hi
        rw [hk] at hi
        obtain ⟨h1, -⟩ := hi
        rw [hd, List.countP_cons_of_neg (by simp [holds, hda])] at h1
        simp at h1
  · exact .inl (can_step hc (rel t c hc) fun h' => absurd h' ha)

/-- A thread that waits for the lock it has itself waits for ever, and keeps the lock. -/
theorem stuck {s s' : State} (h : Exec s s') {t : Nat} {c : Call} {rest : List Call} (hl : s.lock = some t)
    (hc : s.calls t = c :: rest) (hp : c.pc = .acquire) : s'.lock = some t ∧ s'.calls t = c :: rest := by
  induction h with
  | nil => exact ⟨hl, hc⟩
  | snoc _ hs ih =>
    obtain ⟨hl', hc'⟩ := ih
    clear hl hc
    cases hs <;> grind [State.put, start, ret]

/-- **C48 (counterexample)**: a template whose module calls `compile` when it is executed (for
example because it imports a Python module that compiles a template) stops its thread for
ever, with the compile lock held: the thread waits for the lock it has itself. -/
theorem C48_nested_counterexample :
    ∃ s, Exec (init []) s ∧ ∀ s', Exec s s' → s'.lock = some 0 ∧ s'.calls 0 = s.calls 0 ∧ (s.calls 0).length = 2 := by
  have e0 : Exec (init []) (init []) := .nil
  have e1 := Exec.snoc e0 (.call (t := 0) 7 5 true true rfl)
  have e2 := e1.snoc (.miss (t := 0) rfl rfl (.inr rfl))
  have e3 := e2.snoc (.acquire (t := 0) rfl rfl rfl)
  have e4 := e3.snoc (.name (t := 0) 5 rfl rfl (by decide) (fun _ => rfl))
  have e5 := e4.snoc (.nested (t := 0) 8 6 true true rfl rfl)
  have e6 := e5.snoc (.miss (t := 0) rfl rfl (.inr rfl))
  refine ⟨_, e6, fun s' h' => ?_⟩
  have := stuck h' (t := 0) rfl rfl rfl
  exact ⟨this.1, this.2, rfl⟩

/-- The hypotheses are met: a call that compiles, registers and returns its class. -/
example : ∃ s, Exec (init [1]) s ∧ s.registered = [(5, 0)] ∧ s.returned = [(7, ⟨0, 7⟩)] ∧ s.calls 0 = [] := by
  have e0 : Exec (init [1]) (init [1]) := .nil
  have e1 := Exec.snoc e0 (.call (t := 0) 7 5 true true rfl)
  have e2 := e1.snoc (.miss (t := 0) rfl rfl (.inr rfl))
  have e3 := e2.snoc (.acquire (t := 0) rfl rfl rfl)
  have e4 := e3.snoc (.name (t := 0) 5 rfl rfl (by decide) (fun _ => rfl))
  have e5 := e4.snoc (.register (t := 0) rfl rfl)
  have e6 := e5.snoc (.release (t := 0) rfl rfl rfl)
  have e7 := e6.snoc (.mayStore (t := 0) rfl rfl rfl rfl)
  have e8 := e7.snoc (.insert (t := 0) rfl rfl)
  exact ⟨_, e8, rfl, rfl, rfl⟩

end Cheetah.CompileSched
