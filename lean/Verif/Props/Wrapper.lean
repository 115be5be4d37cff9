import Verif.Wrapper
import Mathlib.Data.List.Induction
/-
C50: crash safety of the backups.  C51: parallel children.  C52: collisions of destinations.
C64: destinations without --flat.
-/
namespace Cheetah.Wrapper

/-! ### C50 -/

theorem apply_other {fs : FS} {op : Op} {p q : Str} (h : op = .truncate p ∨ ∃ s, op = .append p s) (hq : q ≠ p) :
    Op.apply fs op q = fs q := by
  rcases h with rfl | ⟨s, rfl⟩ <;> simp [Op.apply, hq]

theorem applyOps_append (fs : FS) (a b : List Op) : applyOps fs (a ++ b) = applyOps (applyOps fs a) b :=
  List.foldl_append

theorem applyOps_other {p q : Str} (hq : q ≠ p) : ∀ (ops : List Op) (fs : FS),
    (∀ op ∈ ops, op = .truncate p ∨ ∃ s, op = .append p s) → applyOps fs ops q = fs q
  | [], fs, _ => rfl
  | op :: ops, fs, h => by
    show applyOps (Op.apply fs op) ops q = fs q
    rw [applyOps_other hq ops _ (fun o ho => h o (by simp [ho])), apply_other (h op (by simp)) hq]

theorem writeOps_all (p : Str) (ps : List Str) : ∀ op ∈ writeOps p ps, op = .truncate p ∨ ∃ s, op = .append p s := by
  intro op ho
  rcases List.mem_cons.mp ho with rfl | ho
  · exact .inl rfl
  · obtain ⟨s, _, rfl⟩ := List.mem_map.mp ho
    exact .inr ⟨s, rfl⟩

theorem applyOps_appends (p : Str) : ∀ (ps : List Str) (fs : FS) (s : Str), fs p = some s →
    applyOps fs (ps.map (.append p)) p = some (s ++ ps.flatten)
  | [], fs, s, h => by simp [applyOps, h]
  | x :: ps, fs, s, h => by
    show applyOps (Op.apply fs (.append p x)) (ps.map (.append p)) p = _
    rw [applyOps_appends p ps _ (s ++ x) (by simp [Op.apply, h])]
    simp

theorem applyOps_write (p : Str) (ps : List Str) (fs : FS) : applyOps fs (writeOps p ps) p = some ps.flatten := by
  show applyOps (Op.apply fs (.truncate p)) (ps.map (.append p)) p = _
  rw [applyOps_appends p ps _ [] (by simp [Op.apply])]
  simp

theorem bak_ne (dst : Str) : dst ++ backupSuffix ≠ dst := by
  intro h
  have := congrArg List.length h
  simp [backupSuffix] at this

/-- C50: with backups, whatever point the program dies at, the old contents are complete in
the destination or in the backup file. -/
theorem C50_old_contents_survive (o : WriteOpts) (hb : o.nobackup = false) (fs : FS) (dst old : Str)
    (h : fs dst = some old) (copyPieces : Str → List Str) (hc : (copyPieces old).flatten = old)
    (outPieces : List Str) (k : Nat) :
    applyOps fs ((bundleOps o fs dst (dst ++ backupSuffix) copyPieces outPieces).take k) dst = some old ∨
    applyOps fs ((bundleOps o fs dst (dst ++ backupSuffix) copyPieces outPieces).take k) (dst ++ backupSuffix) = some old := by
  unfold bundleOps
  simp only [h, hb, Bool.false_eq_true, if_false]
  generalize hw : writeOps (dst ++ backupSuffix) (copyPieces old) = w
  rw [List.take_append, applyOps_append]
  by_cases hk : k ≤ w.length
  · left
    have : k - w.length = 0 := by omega
    rw [this, List.take_zero]
    show applyOps fs (w.take k) dst = _
    rw [applyOps_other (Ne.symm (bak_ne dst)) _ _ (fun op ho => by
      rw [← hw] at ho; exact writeOps_all _ _ op (List.mem_of_mem_take ho)), h]
  · right
    rw [List.take_of_length_le (by omega : w.length ≤ k)]
    split
    · rw [List.take_nil]
      show applyOps fs w _ = _
      rw [← hw, applyOps_write, hc]
    · rw [applyOps_other (bak_ne dst) _ _ (fun op ho => writeOps_all _ _ op (List.mem_of_mem_take ho)), ← hw,
        applyOps_write, hc]

/-- C50: when the program gets to its end, the destination holds the output, and the backup
the old contents; no other file was touched at any point. -/
theorem C50_completed (o : WriteOpts) (fs : FS) (dst : Str) (copyPieces : Str → List Str)
    (hc : ∀ s, (copyPieces s).flatten = s) (outPieces : List Str) :
    (o.stdout = false →
      applyOps fs (bundleOps o fs dst (dst ++ backupSuffix) copyPieces outPieces) dst = some outPieces.flatten) ∧
    (o.nobackup = false → ∀ old, fs dst = some old →
      applyOps fs (bundleOps o fs dst (dst ++ backupSuffix) copyPieces outPieces) (dst ++ backupSuffix) = some old) ∧
    (∀ q, q ≠ dst → q ≠ dst ++ backupSuffix → ∀ k,
      applyOps fs ((bundleOps o fs dst (dst ++ backupSuffix) copyPieces outPieces).take k) q = fs q) := by
  refine ⟨fun h => ?_, fun h old hold => ?_, fun q h1 h2 k => ?_⟩
  · unfold bundleOps
    rw [applyOps_append, h]
    simp only [Bool.false_eq_true, if_false]
    exact applyOps_write _ _ _
  · unfold bundleOps
    rw [applyOps_append]
    simp only [hold, h, Bool.false_eq_true, if_false]
    split
    · show applyOps fs _ _ = _
      rw [applyOps_write, hc]
    · rw [applyOps_other (bak_ne dst) _ _ (writeOps_all _ _), applyOps_write, hc]
  · have hall : ∀ op ∈ bundleOps o fs dst (dst ++ backupSuffix) copyPieces outPieces,
        (op = .truncate (dst ++ backupSuffix) ∨ ∃ s, op = .append (dst ++ backupSuffix) s) ∨
        (op = .truncate dst ∨ ∃ s, op = .append dst s) := by
      intro op ho
      unfold bundleOps at ho
      rcases List.mem_append.mp ho with ho | ho
      · left
        split at ho
        · split at ho
          · cases ho
          · exact writeOps_all _ _ op ho
        · cases ho
      · right
        split at ho
        · cases ho
        · exact writeOps_all _ _ op ho
    generalize bundleOps o fs dst (dst ++ backupSuffix) copyPieces outPieces = ops at hall
    have hall' : ∀ op ∈ ops.take k, (op = .truncate (dst ++ backupSuffix) ∨ ∃ s, op = .append (dst ++ backupSuffix) s) ∨
        (op = .truncate dst ∨ ∃ s, op = .append dst s) := fun op ho => hall op (List.mem_of_mem_take ho)
    generalize ops.take k = l at hall'
    clear hall
    induction l generalizing fs with
    | nil => rfl
    | cons op l ih =>
      show applyOps (Op.apply fs op) l q = fs q
      rw [ih (Op.apply fs op) (fun op ho => hall' op (by simp [ho]))]
      rcases hall' op (by simp) with h | h
      · exact apply_other h h2
      · exact apply_other h h1

/-- One file, `a.py`, with contents `old`. -/
def sampleFS : FS := fun p => if p = c!"a.py" then some c!"old" else none

example : sampleFS c!"a.py" = some c!"old" ∧ ([c!"ol", c!"d"].flatten = c!"old") := by decide

/-- C50: without backups the old contents are lost at the first write. -/
theorem C50_nobackup_loses :
    applyOps sampleFS ((bundleOps ⟨true, false⟩ sampleFS c!"a.py" c!"a.py.bak" (fun s => [s]) [c!"new"]).take 1) c!"a.py"
      = some [] := by decide

/-- C50, its limit: a run that dies while writing leaves an incomplete destination, and the
next run copies that over the backup, so the contents from before the first run are lost. -/
theorem C50_second_run_loses :
    let fs1 := applyOps sampleFS
      ((bundleOps ⟨false, false⟩ sampleFS c!"a.py" c!"a.py.bak" (fun s => [s]) [c!"ne", c!"w"]).take 4)
    let fs2 := applyOps fs1 ((bundleOps ⟨false, false⟩ fs1 c!"a.py" c!"a.py.bak" (fun s => [s]) [c!"ne", c!"w"]).take 2)
    fs1 c!"a.py.bak" = some c!"old" ∧ fs2 c!"a.py" = some c!"ne" ∧ fs2 c!"a.py.bak" = some c!"ne" := by decide

/-! ### C51 -/

variable {β : Type}

theorem childWait_some (ended : β → Ended) (pick : Nat → Nat) (p : Pool β) (h : p.pool ≠ []) :
    ∃ (i : Nat) (b : β), p.pool[i]? = some b ∧ childWait ended pick p =
      (wexitstatus (ended b), { p with pool := p.pool.eraseIdx i, waited := p.waited ++ [b] }) := by
  have hpos : 0 < p.pool.length := List.length_pos_iff.mpr h
  have hlt := Nat.mod_lt (pick p.waited.length) hpos
  refine ⟨pick p.waited.length % p.pool.length, p.pool[pick p.waited.length % p.pool.length], List.getElem?_eq_getElem hlt, ?_⟩
  unfold childWait
  simp only [List.getElem?_eq_getElem hlt]

theorem eraseIdx_perm : ∀ {l : List β} {i : Nat} {b : β}, l[i]? = some b → l.Perm (b :: l.eraseIdx i)
  | [], i, b, h => by simp at h
  | a :: l, 0, b, h => by
    simp at h
    subst h
    exact List.Perm.refl _
  | a :: l, i + 1, b, h => by
    rw [List.getElem?_cons_succ] at h
    exact ((eraseIdx_perm h).cons a).trans (List.Perm.swap b a _)

/-- What holds of the pool throughout. -/
structure Inv (ended : β → Ended) (N : Nat) (p : Pool β) : Prop where
  perm : (p.waited ++ p.pool).Perm p.forked
  peak : p.peak ≤ N
  small : p.pool.length ≤ N
  bad : p.bad ≠ 0 ↔ ∃ b ∈ p.waited, wexitstatus (ended b) ≠ 0

theorem wait_inv {ended : β → Ended} {pick : Nat → Nat} {N : Nat} {p : Pool β} (h : Inv ended N p) (hne : p.pool ≠ []) :
    ∀ r, r = childWait ended pick p →
      Inv ended N { r.2 with bad := if p.bad = 0 then r.1 else p.bad } ∧
      r.2.pool.length + 1 = p.pool.length ∧ r.2.forked = p.forked ∧ r.2.bad = p.bad := by
  rintro r rfl
  obtain ⟨i, b, hi, e⟩ := childWait_some ended pick p hne
  have hp := eraseIdx_perm hi
  rw [e]
  refine ⟨⟨?_, h.peak, ?_, ?_⟩, ?_, rfl, rfl⟩
  · refine List.Perm.trans ?_ h.perm
    rw [List.append_assoc]
    exact (List.Perm.append_left _ hp.symm)
  · have := hp.length_eq
    have := h.small
    simp only [List.length_cons] at *
    omega
  · simp only [List.mem_append, List.mem_singleton]
    by_cases hb : p.bad = 0
    · have hn : ¬ ∃ b ∈ p.waited, wexitstatus (ended b) ≠ 0 := fun hx => (h.bad.mpr hx) hb
      rw [if_pos hb]
      constructor
      · intro hx; exact ⟨b, .inr rfl, hx⟩
      · rintro ⟨c, hc | rfl, hx⟩
        · exact absurd ⟨c, hc, hx⟩ hn
        · exact hx
    · rw [if_neg hb]
      obtain ⟨c, hc, hx⟩ := h.bad.mp hb
      exact ⟨fun _ => ⟨c, .inl hc, hx⟩, fun _ => hb⟩
  · have := hp.length_eq
    simp only [List.length_cons] at *
    omega

theorem spawn_inv {ended : β → Ended} {pick : Nat → Nat} {N : Nat} (hN : 1 < N) : ∀ (bs : List β) (p : Pool β),
    Inv ended N p → p.pool.length < N → p.bad = 0 →
    Inv ended N (spawnLoop ended pick N bs p) ∧
    ((∀ b ∈ bs, wexitstatus (ended b) = 0) → (∀ b ∈ p.forked, wexitstatus (ended b) = 0) →
      (spawnLoop ended pick N bs p).forked = p.forked ++ bs) ∧
    (∃ l, l <+: bs ∧ (spawnLoop ended pick N bs p).forked = p.forked ++ l)
  | [], p, h, _, _ => ⟨h, fun _ _ => by simp [spawnLoop], [], by simp, by simp [spawnLoop]⟩
  | b :: bs, p, h, hlt, hbad => by
    have hf : Inv ended N (fork b p) := by
      refine ⟨?_, ?_, ?_, ?_⟩
      · show (p.waited ++ (p.pool ++ [b])).Perm (p.forked ++ [b])
        rw [← List.append_assoc]
        exact h.perm.append_right _
      · show max p.peak (p.pool.length + 1) ≤ N
        have := h.peak; omega
      · show (p.pool ++ [b]).length ≤ N
        simp; omega
      · exact h.bad
    have hfp : (fork b p).pool ≠ [] := by simp [fork]
    have hff : (fork b p).forked = p.forked ++ [b] := rfl
    rw [spawnLoop]
    by_cases hlen : (fork b p).pool.length = N
    · rw [if_pos hlen]
      generalize hr : childWait ended pick (fork b p) = r
      obtain ⟨h1, h2, h3, h4⟩ := wait_inv (pick := pick) hf hfp r hr.symm
      have hb0 : (fork b p).bad = 0 := hbad
      rw [if_pos hb0] at h1
      dsimp only
      by_cases hz : r.1 ≠ 0
      · rw [if_pos hz]
        refine ⟨h1, ?_, [b], by simp, by rw [← hff]; exact h3⟩
        intro ha hp0
        exfalso
        obtain ⟨i, c, hi, e⟩ := childWait_some ended pick (fork b p) hfp
        rw [hr] at e
        have hc : c ∈ p.pool ++ [b] := List.mem_of_getElem? hi
        rw [e] at hz
        rcases List.mem_append.mp hc with hc | hc
        · exact hz (hp0 c (h.perm.mem_iff.mp (List.mem_append_right _ hc)))
        · simp at hc
          exact hz (ha c (by simp [hc]))
      · rw [if_neg hz]
        have hz' : r.1 = 0 := by simpa using hz
        obtain ⟨g1, g2, l, hl, g3⟩ := spawn_inv hN bs { r.2 with bad := r.1 } h1 (by
          show r.2.pool.length < N; omega) hz'
        refine ⟨g1, ?_, b :: l, ?_, ?_⟩
        · intro ha hp0
          rw [g2 (fun b hb => ha b (by simp [hb])) (fun c hc => by
            have hc' : c ∈ (fork b p).forked := h3 ▸ hc
            rw [hff] at hc'
            rcases List.mem_append.mp hc' with hc' | hc'
            · exact hp0 c hc'
            · simp at hc'; exact ha c (by simp [hc']))]
          show r.2.forked ++ bs = _
          rw [h3, hff]; simp
        · exact (List.prefix_cons_inj b).mpr hl
        · rw [g3]
          show r.2.forked ++ l = _
          rw [h3, hff]; simp
    · rw [if_neg hlen]
      obtain ⟨g1, g2, l, hl, g3⟩ := spawn_inv hN bs (fork b p) hf (by have := hf.small; omega) hbad
      refine ⟨g1, ?_, b :: l, (List.prefix_cons_inj b).mpr hl, by rw [g3, hff]; simp⟩
      intro ha hp0
      rw [g2 (fun b hb => ha b (by simp [hb])) (fun c hc => by
        rw [hff] at hc
        rcases List.mem_append.mp hc with hc | hc
        · exact hp0 c hc
        · simp at hc; exact ha c (by simp [hc])), hff]
      simp

theorem drain_inv {ended : β → Ended} {pick : Nat → Nat} {N : Nat} : ∀ (n : Nat) (p : Pool β),
    Inv ended N p → p.pool.length ≤ n →
    Inv ended N (drainLoop ended pick n p) ∧ (drainLoop ended pick n p).pool = [] ∧
    (drainLoop ended pick n p).forked = p.forked
  | 0, p, h, hl => ⟨h, List.length_eq_zero_iff.mp (by simpa [drainLoop] using hl), rfl⟩
  | n + 1, p, h, hl => by
    rw [drainLoop]
    by_cases hp : p.pool = []
    · rw [if_pos hp]; exact ⟨h, hp, rfl⟩
    · rw [if_neg hp]
      dsimp only
      generalize hr : childWait ended pick p = r
      obtain ⟨h1, h2, h3, _⟩ := wait_inv (pick := pick) h hp r hr.symm
      obtain ⟨g1, g2, g3⟩ := drain_inv (pick := pick) n { r.2 with bad := if p.bad = 0 then r.1 else p.bad } h1 (by
        show r.2.pool.length ≤ n; omega)
      exact ⟨g1, g2, g3.trans h3⟩

theorem runPool_inv (ended : β → Ended) (pick : Nat → Nat) (N : Nat) (hN : 1 < N) (bundles : List β) :
    Inv ended N (runPool ended pick N bundles) ∧ (runPool ended pick N bundles).pool = [] ∧
    ((∀ b ∈ bundles, wexitstatus (ended b) = 0) → (runPool ended pick N bundles).forked = bundles.reverse) ∧
    (runPool ended pick N bundles).forked <+: bundles.reverse := by
  have h0 : Inv ended N (⟨[], 0, [], [], 0⟩ : Pool β) :=
    ⟨List.Perm.refl _, Nat.zero_le _, Nat.zero_le _, by simp⟩
  obtain ⟨g1, g2, l, hl, g3⟩ := spawn_inv (pick := pick) hN bundles.reverse _ h0 (by simp; omega) rfl
  obtain ⟨d1, d2, d3⟩ := drain_inv (pick := pick) _ _ g1 (Nat.le_refl _)
  refine ⟨d1, d2, fun h => ?_, ?_⟩
  · show (drainLoop _ _ _ _).forked = _
    rw [d3, g2 (by simpa using h) (by simp)]; simp
  · show (drainLoop _ _ _ _).forked <+: _
    rw [d3, g3]; simpa using hl

/-- C51: whatever children end in whatever order, at most `N` run at once. -/
theorem C51_bounded (ended : β → Ended) (pick : Nat → Nat) (N : Nat) (hN : 1 < N) (bundles : List β) :
    (runPool ended pick N bundles).peak ≤ N := (runPool_inv ended pick N hN bundles).1.peak

/-- C51: every child forked is waited for, exactly once. -/
theorem C51_all_waited_for (ended : β → Ended) (pick : Nat → Nat) (N : Nat) (hN : 1 < N) (bundles : List β) :
    (runPool ended pick N bundles).pool = [] ∧
    (runPool ended pick N bundles).waited.Perm (runPool ended pick N bundles).forked := by
  obtain ⟨h1, h2, _⟩ := runPool_inv ended pick N hN bundles
  refine ⟨h2, ?_⟩
  have := h1.perm
  rwa [h2, List.append_nil] at this

/-- C51: bundles are treated at most once, last first, and all of them unless some child
exits with a non-zero status. -/
theorem C51_all_processed (ended : β → Ended) (pick : Nat → Nat) (N : Nat) (hN : 1 < N) (bundles : List β) :
    (runPool ended pick N bundles).forked <+: bundles.reverse ∧
    ((∀ b ∈ bundles, ∀ c, ended b = .exited c → c = 0) →
      (runPool ended pick N bundles).forked = bundles.reverse) := by
  obtain ⟨_, _, h3, h4⟩ := runPool_inv ended pick N hN bundles
  refine ⟨h4, fun h => h3 fun b hb => ?_⟩
  cases he : ended b with
  | exited c => exact h b hb c he
  | killed s => rfl

/-- C51, the part that holds: the parent fails exactly if some child exited with a non-zero
status. Missing: children killed by a signal, see the counterexample. -/
theorem C51_failure_reported_partial (ended : β → Ended) (pick : Nat → Nat) (N : Nat) (hN : 1 < N) (bundles : List β) :
    (runPool ended pick N bundles).bad ≠ 0 ↔
      ∃ b ∈ (runPool ended pick N bundles).forked, ∃ c, ended b = .exited c ∧ c ≠ 0 := by
  obtain ⟨h1, h2, _⟩ := runPool_inv ended pick N hN bundles
  have hp := h1.perm
  rw [h2, List.append_nil] at hp
  rw [h1.bad]
  constructor
  · rintro ⟨b, hb, hw⟩
    refine ⟨b, hp.mem_iff.mp hb, ?_⟩
    cases he : ended b with
    | exited c => rw [he] at hw; exact ⟨c, rfl, hw⟩
    | killed s => rw [he] at hw; exact absurd rfl hw
  · rintro ⟨b, hb, c, he, hc⟩
    exact ⟨b, hp.mem_iff.mpr hb, by rw [he]; exact hc⟩

/-- C51: a failing child among the bundles is always noticed, although those not yet begun
may be left out. -/
theorem C51_failure_not_missed (ended : β → Ended) (pick : Nat → Nat) (N : Nat) (hN : 1 < N) (bundles : List β)
    (h : ∃ b ∈ bundles, ∃ c, ended b = .exited c ∧ c ≠ 0) : (runPool ended pick N bundles).bad ≠ 0 := by
  rw [C51_failure_reported_partial ended pick N hN]
  have h' := C51_all_processed ended pick N hN bundles
  by_cases hall : (runPool ended pick N bundles).forked = bundles.reverse
  · obtain ⟨b, hb, c, e, hc⟩ := h
    exact ⟨b, by rw [hall]; simpa using hb, c, e, hc⟩
  · rw [← C51_failure_reported_partial ended pick N hN]
    intro hbad
    have hnone : ∀ b ∈ (runPool ended pick N bundles).forked, wexitstatus (ended b) = 0 := by
      intro b hb
      obtain ⟨h1, h2, _⟩ := runPool_inv ended pick N hN bundles
      have hp := h1.perm
      rw [h2, List.append_nil] at hp
      by_cases hz : wexitstatus (ended b) = 0
      · exact hz
      · exact absurd hbad (h1.bad.mpr ⟨b, hp.mem_iff.mpr hb, hz⟩)
    exact hall (by
      have key : ∀ (bs : List β) (p : Pool β), Inv ended N p → p.pool.length < N → p.bad = 0 →
          (∀ b ∈ (spawnLoop ended pick N bs p).forked, wexitstatus (ended b) = 0) →
          (spawnLoop ended pick N bs p).forked = p.forked ++ bs := by
        intro bs
        induction bs with
        | nil => intro p _ _ _ _; simp [spawnLoop]
        | cons b bs ih =>
          intro p h hlt hb0 hz
          have hf : Inv ended N (fork b p) := by
            refine ⟨?_, ?_, ?_, h.bad⟩
            · show (p.waited ++ (p.pool ++ [b])).Perm (p.forked ++ [b])
              rw [← List.append_assoc]
              exact h.perm.append_right _
            · show max p.peak (p.pool.length + 1) ≤ N
              have := h.peak; omega
            · show (p.pool ++ [b]).length ≤ N
              simp; omega
          have hfp : (fork b p).pool ≠ [] := by simp [fork]
          rw [spawnLoop] at hz ⊢
          by_cases hlen : (fork b p).pool.length = N
          · rw [if_pos hlen] at hz ⊢
            generalize hr : childWait ended pick (fork b p) = r at hz ⊢
            obtain ⟨h1, h2, h3, h4⟩ := wait_inv (pick := pick) hf hfp r hr.symm
            rw [if_pos (show (fork b p).bad = 0 from hb0)] at h1
            dsimp only at hz ⊢
            by_cases hrz : r.1 ≠ 0
            · exfalso
              rw [if_pos hrz] at hz
              obtain ⟨i, c, hi, e⟩ := childWait_some ended pick (fork b p) hfp
              rw [hr] at e
              have hc : c ∈ (fork b p).forked :=
                hf.perm.mem_iff.mp (List.mem_append_right _ (List.mem_of_getElem? hi))
              have := hz c (by show c ∈ r.2.forked; rw [h3]; exact hc)
              rw [e] at hrz
              exact hrz this
            · rw [if_neg hrz] at hz ⊢
              have hrz' : r.1 = 0 := by simpa using hrz
              rw [ih { r.2 with bad := r.1 } h1 (by show r.2.pool.length < N; omega) hrz' hz]
              show r.2.forked ++ bs = _
              rw [h3]
              show p.forked ++ [b] ++ bs = _
              simp
          · rw [if_neg hlen] at hz ⊢
            rw [ih (fork b p) hf (by have := hf.small; omega) hb0 hz]
            show p.forked ++ [b] ++ bs = _
            simp
      have h0 : Inv ended N (⟨[], 0, [], [], 0⟩ : Pool β) :=
        ⟨List.Perm.refl _, Nat.zero_le _, Nat.zero_le _, by simp⟩
      obtain ⟨g1, _, _⟩ := spawn_inv (pick := pick) hN bundles.reverse _ h0 (by simp; omega) rfl
      obtain ⟨_, _, d3⟩ := drain_inv (pick := pick) _ _ g1 (Nat.le_refl _)
      have e : (runPool ended pick N bundles).forked = (spawnLoop ended pick N bundles.reverse ⟨[], 0, [], [], 0⟩).forked := d3
      rw [e] at hnone ⊢
      rw [key bundles.reverse _ h0 (by simp; omega) rfl hnone]
      simp)

example : (runPool (fun b => if b = 3 then Ended.exited 1 else .exited 0) (fun k => k) 2 [1, 2, 3, 4, 5]) =
    ⟨[], 1, [5, 4, 3], [5, 3, 4], 2⟩ := by decide

/-- C51, violated: when a child is killed by a signal, the parent succeeds. -/
theorem C51_killed_counterexample :
    (runPool (fun b => if b = 3 then Ended.killed 9 else .exited 0) (fun k => k) 2 [1, 2, 3, 4]).bad = 0 := by decide

/-! ### C52 -/

theorem flat_bundles (o : Opts) (h : o.flat = true) : ∀ ss : List Str,
    getBundles o ss = some (ss.map fun s => ⟨s, join o.odir (basename (baseOf o s) ++ o.oext),
      join o.odir (basename (baseOf o s) ++ o.oext) ++ backupSuffix, baseOf o s, basename (baseOf o s)⟩)
  | [] => rfl
  | s :: ss => by
    rw [getBundles, flat_bundles o h ss]
    simp [bundleOf, dstOf, h]

theorem get_addSource (d : Dict Str (List Str)) (b : Bundle) (k : Str) :
    (addSource d b).get k = if k = b.dst then some ((d.get k).getD [] ++ [b.src]) else d.get k := by
  unfold addSource
  split
  · rename_i l hl
    rw [Dict.get_set]
    by_cases h : k = b.dst
    · subst h; simp [hl]
    · simp [h]
  · rename_i hl
    rw [Dict.get_set]
    by_cases h : k = b.dst
    · subst h; simp [hl]
    · simp [h]

theorem keys_set (d : Dict Str (List Str)) (k : Str) (v : List Str) (h : d.keys.Nodup) : (d.set k v).keys.Nodup := by
  have : ∀ d : Dict Str (List Str), (d.set k v).keys = if k ∈ d.keys then d.keys else d.keys ++ [k] := by
    intro d
    induction d with
    | nil => simp [Dict.set, Dict.keys]
    | cons e d ih =>
      obtain ⟨j, w⟩ := e
      rw [Dict.set]
      by_cases hk : k = j
      · subst hk; simp [Dict.keys]
      · rw [if_neg hk]
        have ih' : List.map (·.1) (Dict.set d k v) = if k ∈ List.map (·.1) d then List.map (·.1) d else List.map (·.1) d ++ [k] := ih
        simp only [Dict.keys, List.map_cons, List.mem_cons, hk, false_or, ih']
        split <;> rfl
  rw [this]
  split
  · exact h
  · rename_i hk
    exact List.nodup_append.mpr ⟨h, by simp, by
      intro a ha b hb; simp at hb; subst hb; rintro rfl; exact hk ha⟩

theorem groups_spec : ∀ (bs : List Bundle) (d : Dict Str (List Str)), d.keys.Nodup →
    (bs.foldl addSource d).keys.Nodup ∧
    ∀ k, ((bs.foldl addSource d).get k).getD [] = (d.get k).getD [] ++ ((bs.filter (fun b => b.dst = k)).map (·.src))
  | [], d, h => ⟨h, by simp⟩
  | b :: bs, d, h => by
    have hk : (addSource d b).keys.Nodup := by
      unfold addSource
      split
      · exact keys_set _ _ _ h
      · exact keys_set _ _ _ h
    obtain ⟨h1, h2⟩ := groups_spec bs (addSource d b) hk
    refine ⟨h1, fun k => ?_⟩
    rw [List.foldl_cons, h2, get_addSource]
    by_cases hb : k = b.dst
    · subst hb; simp
    · rw [if_neg hb, List.filter_cons_of_neg (by simpa using Ne.symm hb)]

theorem mem_get {d : Dict Str (List Str)} (h : d.keys.Nodup) {k : Str} {v : List Str} (hm : (k, v) ∈ d) : d.get k = some v := by
  induction d with
  | nil => cases hm
  | cons e d ih =>
    obtain ⟨j, w⟩ := e
    simp only [Dict.keys, List.map_cons, List.nodup_cons] at h
    rcases List.mem_cons.mp hm with hm' | hm'
    · injection hm' with h1 h2; subst h1; subst h2; simp [Dict.get]
    · have : k ≠ j := by
        rintro rfl
        exact h.1 (List.mem_map.mpr ⟨(k, v), hm', rfl⟩)
      simp only [Dict.get, this, if_false]
      exact ih h.2 hm'

/-- C52: what is reported: the destinations that more than one of the bundles has, once
each, with the sources of these, in order. -/
theorem C52_reports (bs : List Bundle) :
    ((collisions bs).map (·.1)).Nodup ∧
    ∀ dst srcs, (dst, srcs) ∈ collisions bs ↔
      srcs = (bs.filter (fun b => b.dst = dst)).map (·.src) ∧ 1 < srcs.length := by
  obtain ⟨h1, h2⟩ := groups_spec bs [] (by simp [Dict.keys])
  constructor
  · exact (List.filter_sublist.map _).nodup h1
  · intro dst srcs
    simp only [collisions, List.mem_filter, decide_eq_true_eq]
    have h3 := h2 dst
    simp only [Dict.get, Option.getD_none, List.nil_append] at h3
    constructor
    · rintro ⟨hm, hl⟩
      have := mem_get h1 hm
      rw [this] at h3
      exact ⟨h3, hl⟩
    · rintro ⟨rfl, hl⟩
      rw [← h3] at hl ⊢
      cases hg : (bs.foldl addSource []).get dst with
      | none => rw [hg] at hl; simp at hl
      | some v => exact ⟨Dict.get_mem _ hg, by rw [hg] at hl; exact hl⟩

theorem two_iff (bs : List Bundle) (dst : Str) : 1 < (bs.filter (fun b => b.dst = dst)).length ↔
    ∃ (i j : Nat) (a b : Bundle), i < j ∧ bs[i]? = some a ∧ bs[j]? = some b ∧ a.dst = dst ∧ b.dst = dst := by
  induction bs with
  | nil => simp
  | cons c bs ih =>
    by_cases hc : c.dst = dst
    · rw [List.filter_cons_of_pos (by simpa using hc), List.length_cons]
      constructor
      · intro h
        have hpos : 0 < (bs.filter (fun b => b.dst = dst)).length := by omega
        obtain ⟨b, hb⟩ := List.exists_mem_of_length_pos hpos
        obtain ⟨hb1, hb2⟩ := List.mem_filter.mp hb
        obtain ⟨j, hj⟩ := List.mem_iff_getElem?.mp hb1
        exact ⟨0, j + 1, c, b, by omega, by simp, by simpa using hj, hc, by simpa using hb2⟩
      · rintro ⟨i, j, a, b, hij, ha, hb, hda, hdb⟩
        cases j with
        | zero => omega
        | succ j =>
          rw [List.getElem?_cons_succ] at hb
          have : b ∈ bs.filter (fun b => b.dst = dst) := List.mem_filter.mpr ⟨List.mem_of_getElem? hb, by simpa using hdb⟩
          have := List.length_pos_of_mem this
          omega
    · rw [List.filter_cons_of_neg (by simpa using hc), ih]
      constructor
      · rintro ⟨i, j, a, b, hij, ha, hb, hda, hdb⟩
        exact ⟨i + 1, j + 1, a, b, by omega, by simpa using ha, by simpa using hb, hda, hdb⟩
      · rintro ⟨i, j, a, b, hij, ha, hb, hda, hdb⟩
        cases i with
        | zero => simp at ha; subst ha; exact absurd hda hc
        | succ i =>
          cases j with
          | zero => omega
          | succ j => exact ⟨i, j, a, b, by omega, by simpa using ha, by simpa using hb, hda, hdb⟩

/-- C52: with --flat the run is aborted, before any bundle is treated, exactly if two source
files have one destination. -/
theorem C52_aborts_iff (o : Opts) (h : o.flat = true) (sources : List Str) :
    ∃ bs, getBundles o sources = some bs ∧ bs.map (·.src) = sources ∧
      ((∃ r, compileOrFill o sources = some (.aborted r)) ↔
        ∃ (i j : Nat) (a b : Bundle), i < j ∧ bs[i]? = some a ∧ bs[j]? = some b ∧ a.dst = b.dst) ∧
      ((¬ ∃ (i j : Nat) (a b : Bundle), i < j ∧ bs[i]? = some a ∧ bs[j]? = some b ∧ a.dst = b.dst) →
        compileOrFill o sources = some (.treated bs)) := by
  refine ⟨_, flat_bundles o h sources, by simp [List.map_map, Function.comp_def], ?_⟩
  simp only [compileOrFill, flat_bundles o h sources, Option.map_some, h, true_and]
  generalize (sources.map fun s => (⟨s, join o.odir (basename (baseOf o s) ++ o.oext),
      join o.odir (basename (baseOf o s) ++ o.oext) ++ backupSuffix, baseOf o s, basename (baseOf o s)⟩ : Bundle)) = bs
  have hiff : collisions bs ≠ [] ↔
      ∃ (i j : Nat) (a b : Bundle), i < j ∧ bs[i]? = some a ∧ bs[j]? = some b ∧ a.dst = b.dst := by
    constructor
    · intro hne
      obtain ⟨⟨dst, srcs⟩, hm⟩ := List.exists_mem_of_ne_nil _ hne
      obtain ⟨rfl, hl⟩ := ((C52_reports bs).2 dst srcs).mp hm
      rw [List.length_map] at hl
      obtain ⟨i, j, a, b, hij, ha, hb, hda, hdb⟩ := (two_iff bs dst).mp hl
      exact ⟨i, j, a, b, hij, ha, hb, hda.trans hdb.symm⟩
    · rintro ⟨i, j, a, b, hij, ha, hb, hd⟩
      have := ((C52_reports bs).2 a.dst _).mpr ⟨rfl, by
        rw [List.length_map]; exact (two_iff bs a.dst).mpr ⟨i, j, a, b, hij, ha, hb, rfl, hd.symm⟩⟩
      intro hnil
      rw [hnil] at this
      cases this
  rw [← hiff]
  by_cases hc : collisions bs ≠ []
  · simp [hc]
  · simp [hc]

theorem basename_noslash : ∀ {s : Str}, '/' ∉ s → basename s = s
  | [], _ => rfl
  | c :: s, h => by
    rw [List.mem_cons, not_or] at h
    rw [basename, if_neg h.2, if_neg (Ne.symm h.1)]

theorem basename_append (a b : Str) (h : '/' ∉ b) : basename (a ++ '/' :: b) = b := by
  induction a with
  | nil => rw [List.nil_append, basename, if_neg h, if_pos rfl]
  | cons c a ih => rw [List.cons_append, basename, if_pos (by simp), ih]

theorem stripPrefix?_some {p s r : Str} (h : stripPrefix? p s = some r) : s = p ++ r := by
  induction p generalizing s with
  | nil => simp [stripPrefix?] at h; exact h
  | cons c p ih =>
    cases s with
    | nil => simp [stripPrefix?] at h
    | cons d s =>
      rw [stripPrefix?] at h
      split at h
      · rename_i hcd; rw [hcd, ih h]; rfl
      · cases h

theorem split_last {a b c d : Str} (h : a ++ '/' :: b = c ++ '/' :: d) (hb : '/' ∉ b) : ∃ x, d = x ++ b ∧ (x = [] ∨ ∃ y, x = y ++ ['/']) := by
  rcases List.append_eq_append_iff.mp h with ⟨x, e1, e2⟩ | ⟨x, e1, e2⟩
  · cases x with
    | nil => simp at e2; exact ⟨[], by simp [e2], .inl rfl⟩
    | cons y x => injection e2 with e2 e3; exact absurd (by rw [e3]; simp) hb
  · cases x with
    | nil => simp at e2; exact ⟨[], by simp [e2], .inl rfl⟩
    | cons y x =>
      injection e2 with e2 e3
      exact ⟨x ++ ['/'], by rw [e3]; simp, .inr ⟨x, rfl⟩⟩

theorem dropExt_append (e s : Str) (h : e ≠ []) : dropExt e (s ++ e) = s := by
  rw [dropExt, if_pos ⟨h, by simp⟩]
  simp

/-- C52: the destination of `dir/name.ext` with --flat is `odir/name.oext`, whatever the
directory and whether or not it lies in the input directory. -/
theorem C52_flat_destination (o : Opts) (hf : o.flat = true) (dir name : Str) (hn : '/' ∉ name)
    (he : o.iext ≠ []) (hs : '/' ∉ o.iext) (hod : o.odir ≠ []) (hol : o.odir.getLast? ≠ some '/')
    (hname : (name ++ o.oext).head? ≠ some '/') :
    ∃ b, bundleOf o (dir ++ '/' :: (name ++ o.iext)) = some b ∧ b.dst = o.odir ++ '/' :: (name ++ o.oext) := by
  have hne : '/' ∉ name ++ o.iext := by simp [hn, hs]
  have hbase : basename (baseOf o (dir ++ '/' :: (name ++ o.iext))) = name := by
    have step : ∀ x : Str, (x = [] ∨ ∃ y, x = y ++ ['/']) → basename (dropExt o.iext (x ++ (name ++ o.iext))) = name := by
      rintro x (rfl | ⟨y, rfl⟩)
      · rw [List.nil_append, dropExt_append _ _ he, basename_noslash hn]
      · have : y ++ ['/'] ++ (name ++ o.iext) = (y ++ '/' :: name) ++ o.iext := by simp
        rw [this, dropExt_append _ _ he, basename_append _ _ hn]
    have full : basename (dropExt o.iext (dir ++ '/' :: (name ++ o.iext))) = name := by
      have := step (dir ++ ['/']) (.inr ⟨dir, rfl⟩)
      simpa using this
    unfold baseOf
    split
    · split
      · rename_i r hr
        have e := stripPrefix?_some hr
        rw [List.append_assoc, List.singleton_append] at e
        obtain ⟨x, hx, hx'⟩ := split_last e hne
        rw [hx]
        exact step x hx'
      · exact full
    · exact full
  refine ⟨_, by simp only [bundleOf, dstOf, hf, if_true, Option.map_some]; rfl, ?_⟩
  simp only [hbase, join, if_neg hname]
  rw [if_neg (by simp [hod, hol])]

example : (bundleOf ⟨true, c!"in", c!".tmpl", c!"out", c!".py"⟩ c!"in/a/b.tmpl").map (·.dst) = some c!"out/b.py" ∧
    compileOrFill ⟨true, c!"in", c!".tmpl", c!"out", c!".py"⟩ [c!"in/a/b.tmpl", c!"c.tmpl", c!"b.tmpl"] =
      some (.aborted [(c!"out/b.py", [c!"in/a/b.tmpl", c!"b.tmpl"])]) := by decide

/-- C52: without --flat the tree is kept. A relative template `rel.ext`, which lies in the
input directory if one is given, is written to `odir/rel.oext`, or to `rel.oext` without an
output directory, and the backup of that file has the suffix `.bak`. The extensions may be
given with or without their dot. -/
theorem C52_tree_destination (idir odir ie oe rel : Str) (hie : ie ≠ []) (hie' : ie.head? ≠ some '.')
    (hoe : oe ≠ []) (hoe' : oe.head? ≠ some '.') (hrel : rel.head? ≠ some '/') (hne : rel ≠ [])
    (hol : odir.getLast? ≠ some '/') (i o : Str) (hi : i ∈ [ie, '.' :: ie]) (ho : o ∈ [oe, '.' :: oe]) :
    let src := (if idir = [] then rel else idir ++ '/' :: rel) ++ '.' :: ie
    let dst := (if odir = [] then rel else odir ++ '/' :: rel) ++ '.' :: oe
    ∃ b, bundleOf ⟨false, idir, fixExt i, odir, fixExt o⟩ src = some b ∧
      b.src = src ∧ b.dst = dst ∧ b.bak = dst ++ c!".bak" ∧ b.base = rel := by
  have fx : ∀ {e i : Str}, e ≠ [] → e.head? ≠ some '.' → i ∈ [e, '.' :: e] → fixExt i = '.' :: e := by
    intro e i h1 h2 h3
    simp only [List.mem_cons, List.not_mem_nil, or_false] at h3
    rcases h3 with rfl | rfl
    · rw [fixExt, if_pos ⟨h1, h2⟩]
    · rw [fixExt, if_neg (by simp)]
  rw [fx hie hie' hi, fx hoe hoe' ho]
  intro src dst
  have hb : baseOf ⟨false, idir, '.' :: ie, odir, '.' :: oe⟩ src = rel := by
    unfold baseOf
    by_cases h : idir = []
    · simp only [h, ne_eq, not_true_eq_false, if_false, src, if_true]
      exact dropExt_append _ _ (by simp)
    · have : stripPrefix? (idir ++ ['/']) src = some (rel ++ '.' :: ie) := by
        rw [Cheetah.stripPrefix?_some]
        simp only [src, if_neg h]
        simp
      simp only [ne_eq, h, not_false_eq_true, if_true, this]
      exact dropExt_append _ _ (by simp)
  have hd : dstOf ⟨false, idir, '.' :: ie, odir, '.' :: oe⟩ rel = some dst := by
    have hr : (rel ++ '.' :: oe).head? ≠ some '/' := by
      cases rel with
      | nil => exact absurd rfl hne
      | cons c r => simpa using hrel
    simp only [dstOf, Bool.false_eq_true, if_false, hrel, and_false, join, if_neg hr]
    by_cases h : odir = []
    · simp [h, dst]
    · simp [h, hol, dst]
  refine ⟨⟨src, dst, dst ++ backupSuffix, rel, basename rel⟩, ?_, rfl, rfl, rfl, rfl⟩
  simp only [bundleOf, hb, hd, Option.map_some]

example : (bundleOf ⟨false, c!"in", fixExt c!"tmpl", c!"out", fixExt c!".py"⟩ c!"in/a/b.tmpl").map (fun b => (b.dst, b.bak)) =
    some (c!"out/a/b.py", c!"out/a/b.py.bak") := by decide

/-! #### Absolute templates with an output directory -/

/-- The absolute path with the given components. -/
def path (cs : List Str) : Str := cs.flatMap ('/' :: ·)

/-- A component of a path: not empty, and without a slash. -/
def Comp (c : Str) : Prop := c ≠ [] ∧ '/' ∉ c

theorem path_snoc (cs : List Str) (c : Str) : path (cs ++ [c]) = path cs ++ '/' :: c := by simp [path]

theorem path_append (as bs : List Str) : path (as ++ bs) = path as ++ path bs := by simp [path]

theorem path_last {cs : List Str} (h : ∀ c ∈ cs, Comp c) : (path cs).getLast? ≠ some '/' := by
  induction cs using List.reverseRecOn with
  | nil => simp [path]
  | append_singleton cs c ih =>
    rw [path_snoc]
    obtain ⟨hc, hs⟩ := h c (by simp)
    intro e
    rw [List.getLast?_append, List.getLast?_cons] at e
    cases hl : c.getLast? with
    | none => exact hc (List.getLast?_eq_none_iff.mp hl)
    | some x =>
      rw [hl] at e
      simp at e
      exact hs (e ▸ List.mem_of_getLast? hl)

theorem headPart_snoc (p c : Str) (h : '/' ∉ c) : headPart (p ++ '/' :: c) = p ++ ['/'] := by
  have e : p ++ '/' :: c = (p ++ ['/']) ++ c := by simp
  rw [headPart, basename_append _ _ h, e]
  have : ((p ++ ['/']) ++ c).length - c.length = (p ++ ['/']).length := by simp; omega
  rw [this, List.take_left]

theorem dirname_path {cs : List Str} {c : Str} (hcs : ∀ c ∈ cs, Comp c) (h : '/' ∉ c) (hne : cs ≠ []) :
    dirname (path (cs ++ [c])) = path cs := by
  rw [path_snoc, dirname, headPart_snoc _ _ h]
  have hl := path_last hcs
  have hn : path cs ≠ [] := by
    cases cs with
    | nil => exact absurd rfl hne
    | cons a as => simp [path]
  obtain ⟨i, x, hx⟩ : ∃ i x, path cs = i ++ [x] := ⟨_, _, (List.dropLast_concat_getLast hn).symm⟩
  rw [hx] at hl ⊢
  have hx' : x ≠ '/' := by simpa using hl
  rw [if_neg (by intro hh; exact hx' (hh x (by simp)))]
  simp [hx']

theorem dirname_one {c : Str} (h : '/' ∉ c) : dirname (path [c]) = ['/'] := by
  have : path [c] = [] ++ '/' :: c := by simp [path]
  rw [this, dirname, headPart_snoc _ _ h]
  simp

theorem path_head (c : Str) (cs : List Str) : path (c :: cs) = '/' :: (c ++ path cs) := by simp [path]

theorem noPrefix {p s : Str} (h : ¬ p <+: s) : stripPrefix? p s = none := by
  cases e : stripPrefix? p s with
  | none => rfl
  | some r => exact absurd ⟨r, ((Cheetah.stripPrefix?_some).mp e).symm⟩ h

theorem cutParent_common {as bs : List Str} (ha : ∀ c ∈ as, Comp c) (hne : as ≠ []) (rel dbn : Str) :
    (∀ c ∈ bs, Comp c) → (∀ b ≠ [], b <+: bs → ¬ path (as ++ b) <+: path as ++ '/' :: rel) →
    ∀ n, bs.length < n → cutParent (path as ++ '/' :: rel) n (path (as ++ bs)) dbn = some rel := by
  have hp : path as ≠ [] := by
    cases as with
    | nil => exact absurd rfl hne
    | cons a as => simp [path]
  induction bs using List.reverseRecOn with
  | nil =>
    intro _ _ n hn
    obtain ⟨n, rfl⟩ : ∃ m, n = m + 1 := ⟨n - 1, by simp at hn; omega⟩
    rw [List.append_nil, cutParent, if_neg hp, (Cheetah.stripPrefix?_some).mpr rfl]
    rfl
  | append_singleton bs b ih =>
    intro hb hno n hn
    obtain ⟨n, rfl⟩ : ∃ m, n = m + 1 := ⟨n - 1, by simp at hn; omega⟩
    have hn0 : path (as ++ (bs ++ [b])) ≠ [] := by
      rw [path_append]; exact fun e => hp (List.append_eq_nil_iff.mp e).1
    have hd : dirname (path (as ++ (bs ++ [b]))) = path (as ++ bs) := by
      rw [← List.append_assoc]
      refine dirname_path ?_ (hb b (by simp)).2 (by simp [hne])
      intro c hc
      rcases List.mem_append.mp hc with hc | hc
      · exact ha c hc
      · exact hb c (by simp [hc])
    have hns : path (as ++ bs) ≠ ['/'] := by
      cases as with
      | nil => exact absurd rfl hne
      | cons a as =>
        rw [List.cons_append, path_head]
        have := (ha a (by simp)).1
        simp [this]
    rw [cutParent, if_neg hn0, noPrefix (hno _ (by simp) (List.prefix_refl _))]
    simp only [hd, if_neg hns]
    refine ih (fun c hc => hb c (by simp [hc])) (fun b' h1 h2 => hno b' h1 (h2.trans (List.prefix_append _ _))) n ?_
    simp at hn; omega

theorem cutParent_apart {bs : List Str} {base dbn : Str} (hb : ∀ c ∈ bs, Comp c) (hne : bs ≠ [])
    (hno : ∀ b ≠ [], b <+: bs → ¬ path b <+: base) : ∀ n, bs.length < n → cutParent base n (path bs) dbn = some dbn := by
  induction bs using List.reverseRecOn with
  | nil => exact absurd rfl hne
  | append_singleton bs b ih =>
    intro n hn
    obtain ⟨n, rfl⟩ : ∃ m, n = m + 1 := ⟨n - 1, by simp at hn; omega⟩
    have hn0 : path (bs ++ [b]) ≠ [] := by rw [path_snoc]; simp
    rw [cutParent, if_neg hn0, noPrefix (hno _ (by simp) (List.prefix_refl _))]
    by_cases h : bs = []
    · subst h
      simp only [List.nil_append, dirname_one (hb b (by simp)).2, if_true]
    · have hb' : ∀ c ∈ bs, Comp c := fun c hc => hb c (by simp [hc])
      have hns : path bs ≠ ['/'] := by
        cases bs with
        | nil => exact absurd rfl h
        | cons a as =>
          rw [path_head]
          have := (hb' a (by simp)).1
          simp [this]
      simp only [dirname_path hb' (hb b (by simp)).2 h, if_neg hns]
      refine ih hb' h (fun b' h1 h2 => hno b' h1 (h2.trans (List.prefix_append _ _))) n ?_
      simp at hn; omega

theorem length_path {cs : List Str} : cs.length ≤ (path cs).length := by
  induction cs with
  | nil => simp
  | cons c cs ih => rw [path_head]; simp; omega

theorem absolute_base {odir ie oe base : Str} :
    baseOf ⟨false, [], '.' :: ie, odir, '.' :: oe⟩ (base ++ '.' :: ie) = base := by
  simp only [baseOf, ne_eq, not_true_eq_false, if_false]
  exact dropExt_append _ _ (by simp)

/-- C64: a template with an absolute name below one of the directories that lead to the output
directory (`as` are the components of the deepest such one, and they may be all of them) keeps
its place below that directory: `/as/rel.ext` is written to `odir/rel.oext`. -/
theorem C64_absolute_destination (as bs : List Str) (rel ie oe : Str) (ha : ∀ c ∈ as, Comp c) (hb : ∀ c ∈ bs, Comp c)
    (hne : as ≠ []) (hrel : rel ≠ []) (hrel' : rel.head? ≠ some '/')
    (hdeep : ∀ b ≠ [], b <+: bs → ¬ path (as ++ b) <+: path as ++ '/' :: rel) :
    ∃ d, bundleOf ⟨false, [], '.' :: ie, path (as ++ bs), '.' :: oe⟩ (path as ++ '/' :: rel ++ '.' :: ie) = some d ∧
      d.dst = path (as ++ bs) ++ '/' :: rel ++ '.' :: oe ∧ d.bak = d.dst ++ c!".bak" := by
  have hp : path (as ++ bs) ≠ [] := by
    cases as with
    | nil => exact absurd rfl hne
    | cons a as => simp [path]
  have hh : (path as ++ '/' :: rel).head? = some '/' := by
    cases as with
    | nil => exact absurd rfl hne
    | cons a as => simp [path_head]
  have hc : ∀ c ∈ as ++ bs, Comp c := by
    intro c hc
    rcases List.mem_append.mp hc with hc | hc
    · exact ha c hc
    · exact hb c hc
  have hr : (rel ++ '.' :: oe).head? ≠ some '/' := by
    cases rel with
    | nil => exact absurd rfl hrel
    | cons c r => simpa using hrel'
  have hlen : bs.length < (path (as ++ bs)).length + 1 := by
    have := length_path (cs := as ++ bs)
    simp at this; omega
  have hd : dstOf ⟨false, [], '.' :: ie, path (as ++ bs), '.' :: oe⟩ (path as ++ '/' :: rel) =
      some (path (as ++ bs) ++ '/' :: rel ++ '.' :: oe) := by
    simp only [dstOf, Bool.false_eq_true, if_false, hh, hp, ne_eq, not_false_eq_true, and_self, if_true]
    rw [cutParent_common ha hne rel _ hb hdeep _ hlen]
    simp only [Option.map_some, join, if_neg hr, hp, path_last hc, false_or, if_false, Option.some.injEq, List.append_assoc, List.cons_append]
  simp only [bundleOf, absolute_base, hd, Option.map_some]
  exact ⟨_, rfl, rfl, rfl⟩

/-- C64: a template with an absolute name outside all directories that lead to the
output directory is written right into the output directory, under its file name alone; so two
of them with one file name have one destination. -/
theorem C64_absolute_elsewhere (dirs bs : List Str) (name ie oe : Str) (hb : ∀ c ∈ bs, Comp c)
    (hne : bs ≠ []) (hname : Comp name)
    (hapart : ∀ b ≠ [], b <+: bs → ¬ path b <+: path dirs ++ '/' :: name) :
    ∃ d, bundleOf ⟨false, [], '.' :: ie, path bs, '.' :: oe⟩ (path dirs ++ '/' :: name ++ '.' :: ie) = some d ∧
      d.dst = path bs ++ '/' :: name ++ '.' :: oe := by
  have hp : path bs ≠ [] := by
    cases bs with
    | nil => exact absurd rfl hne
    | cons a as => simp [path]
  have hh : (path dirs ++ '/' :: name).head? = some '/' := by
    cases dirs with
    | nil => simp [path]
    | cons a as => simp [path_head]
  have hr : (name ++ '.' :: oe).head? ≠ some '/' := by
    obtain ⟨h1, h2⟩ := hname
    cases name with
    | nil => exact absurd rfl h1
    | cons c r => intro e; simp at e; exact h2 (by simp [e])
  have hlen : bs.length < (path bs).length + 1 := by
    have := length_path (cs := bs); omega
  have hds : dstOf ⟨false, [], '.' :: ie, path bs, '.' :: oe⟩ (path dirs ++ '/' :: name) =
      some (path bs ++ '/' :: name ++ '.' :: oe) := by
    simp only [dstOf, Bool.false_eq_true, if_false, hh, hp, ne_eq, not_false_eq_true, and_self, if_true]
    rw [basename_append _ _ hname.2, cutParent_apart hb hne hapart _ hlen]
    simp only [Option.map_some, join, if_neg hr, hp, path_last hb, false_or, if_false, Option.some.injEq, List.append_assoc, List.cons_append]
  simp only [bundleOf, absolute_base, hds, Option.map_some]
  exact ⟨_, rfl, rfl⟩

example : path [c!"srv", c!"www"] = c!"/srv/www" ∧
    (bundleOf ⟨false, [], c!".tmpl", c!"/srv/www/out", c!".py"⟩ c!"/srv/www/a/b.tmpl").map (·.dst) =
      some c!"/srv/www/out/a/b.py" ∧
    ¬ path [c!"srv", c!"www", c!"out"] <+: path [c!"srv", c!"www"] ++ '/' :: c!"a/b" ∧
    (bundleOf ⟨false, [], c!".tmpl", c!"/srv/www/out", c!".py"⟩ c!"/home/b.tmpl").map (·.dst) =
      some c!"/srv/www/out/b.py" ∧
    ¬ path [c!"srv"] <+: path [c!"home"] ++ '/' :: c!"b" := by decide

/-- C64: violated where a name merely begins like the output directory: the rest of the name
becomes the name below the output directory. -/
theorem C64_absolute_counterexample :
    (bundleOf ⟨false, [], c!".tmpl", c!"/srv/out", c!".py"⟩ c!"/srv/outer/b.tmpl").map (·.dst) =
      some c!"/srv/out/er/b.py" := by decide

/-! ### C64 -/

theorem join_inj {a x y : Str} (hx : x.head? ≠ some '/') (hy : y.head? ≠ some '/') (h : join a x = join a y) : x = y := by
  unfold join at h
  rw [if_neg hx, if_neg hy] at h
  split at h
  · exact List.append_cancel_left h
  · have := List.append_cancel_left h
    injection this

/-- C64, the part that holds: without --flat and without an input directory, different
relative source files that have the input extension get different destinations. Missing:
files without the extension, absolute paths, and an input directory that is also a prefix of
other sources; see the counterexamples. -/
theorem C64_distinct_partial (o : Opts) (hf : o.flat = false) (hi : o.idir = []) (he : o.iext ≠ [])
    (s t : Str) (hs : (s ++ o.oext).head? ≠ some '/') (ht : (t ++ o.oext).head? ≠ some '/')
    (hs' : s.head? ≠ some '/') (ht' : t.head? ≠ some '/') (a b : Bundle)
    (ha : bundleOf o (s ++ o.iext) = some a) (hb : bundleOf o (t ++ o.iext) = some b) (h : a.dst = b.dst) : s = t := by
  have base : ∀ s : Str, baseOf o (s ++ o.iext) = s := by
    intro s
    simp only [baseOf, hi, ne_eq, not_true_eq_false, if_false]
    exact dropExt_append _ _ he
  simp only [bundleOf, base, dstOf, hf, Bool.false_eq_true, if_false, hs', ht', and_false, Option.map_some,
    Option.some.injEq] at ha hb
  subst ha; subst hb
  have := join_inj hs ht h
  exact List.append_cancel_right this

example : (bundleOf ⟨false, [], c!".tmpl", c!"out", c!".py"⟩ c!"a/b.tmpl").map (·.dst) = some c!"out/a/b.py" := by decide

/-- C64, violated: `a.tmpl` and `a`, `in/a.tmpl` and `a.tmpl` with the input directory `in`,
and absolute paths with one file name and an output directory elsewhere; none of these
collisions is reported without --flat. -/
theorem C64_counterexample :
    (getBundles ⟨false, [], c!".tmpl", [], c!".py"⟩ [c!"a.tmpl", c!"a"]).map (·.map (·.dst)) = some [c!"a.py", c!"a.py"] ∧
    (getBundles ⟨false, c!"in", c!".tmpl", [], c!".py"⟩ [c!"in/a.tmpl", c!"a.tmpl"]).map (·.map (·.dst)) =
      some [c!"a.py", c!"a.py"] ∧
    (getBundles ⟨false, [], c!".tmpl", c!"out", c!".py"⟩ [c!"/x/a.tmpl", c!"/y/a.tmpl"]).map (·.map (·.dst)) =
      some [c!"out/a.py", c!"out/a.py"] := by decide

theorem dirname_slashes : dirname ['/', '/'] = ['/', '/'] := by decide

/-- C64: for the output directory `//x` and an absolute source path the loop that looks for
a common parent never ends, whatever number of rounds it is given. -/
theorem C64_hangs_counterexample (n : Nat) : cutParent c!"/a" n c!"//x" c!"a" = none := by
  have h : ∀ n, cutParent c!"/a" n ['/', '/'] c!"a" = none := by
    intro n
    induction n with
    | zero => rfl
    | succ n ih =>
      rw [cutParent, if_neg (by decide)]
      have e : stripPrefix? ['/', '/'] c!"/a" = none := by decide
      rw [e, dirname_slashes]
      dsimp only
      rw [if_neg (by decide), ih]
  cases n with
  | zero => rfl
  | succ n =>
    rw [cutParent, if_neg (by decide)]
    have e : stripPrefix? c!"//x" c!"/a" = none := by decide
    have e2 : dirname c!"//x" = ['/', '/'] := by decide
    rw [e, e2]
    dsimp only
    rw [if_neg (by decide), h]

end Cheetah.Wrapper
