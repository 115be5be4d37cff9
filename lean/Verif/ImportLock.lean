/-
Model of the import lock of Cheetah/ImportManager.py: `_acquire` (578-585) and `_release`
(587-591), as threads that take one step at a time in any order.
-/
namespace Cheetah.ImportLock

/-- Where a thread is: outside the two methods, or before the line named
(ImportManager.py 578-591). -/
inductive PC
  | idle       -- not in `_acquire` or `_release`
  | chk        -- before `if self.rlock.locked()` (579)
  | cmp        -- before `if self.locker == self._get_ident()` (580)
  | inc        -- before `self.lockcount = self.lockcount + 1` (581)
  | want       -- before `self.rlock.acquire()` (583)
  | setLocker  -- before `self.locker = self._get_ident()` (584)
  | setCount   -- before `self.lockcount = 0` (585)
  | rel        -- before `if self.lockcount` (588)
  | dec        -- before `self.lockcount = self.lockcount - 1` (589)
  | unlock     -- before `self.rlock.release()` (591)
  deriving DecidableEq, Repr

/-- A thread: where it is, and how many of its `_acquire` calls have returned that it has not
released yet: it is inside the critical section (ImportManager.py 483-485, 522) when that is
not zero. -/
structure Thread where
  pc : PC
  depth : Nat
  deriving DecidableEq, Repr

/-- The attributes `rlock` (held or not), `locker` and `lockcount` (ImportManager.py 427-428,
579-591), and the threads. -/
structure State where
  locked : Bool
  locker : Option Nat
  count : Nat
  th : Nat → Thread

/-- Change a thread (ImportManager.py 578-591: each line is run by one thread). -/
def State.put (s : State) (t : Nat) (x : Thread) : State :=
  { s with th := fun u => if u = t then x else s.th u }

/-- What happens: a thread takes a step, or an exception leaves the critical section
(ImportManager.py 483-487, 522-524: there is no `finally`). -/
inductive Label
  | run (t : Nat)
  | raised (t : Nat)
  deriving DecidableEq, Repr

/-- The steps of a thread (ImportManager.py 578-591, one line each). Simplification: a line
is one step, so that the read and the write of `lockcount` in 581 and 589 are not apart. -/
inductive Step : Label → State → State → Prop
  /-- `_acquire()` is called (482, 521). -/
  | call {s : State} {t d : Nat} : s.th t = ⟨.idle, d⟩ → Step (.run t) s (s.put t ⟨.chk, d⟩)
  /-- Line 579. -/
  | chk {s : State} {t d : Nat} : s.th t = ⟨.chk, d⟩ →
      Step (.run t) s (s.put t ⟨if s.locked then .cmp else .want, d⟩)
  /-- Line 580. -/
  | cmp {s : State} {t d : Nat} : s.th t = ⟨.cmp, d⟩ →
      Step (.run t) s (s.put t ⟨if s.locker = some t then .inc else .want, d⟩)
  /-- Lines 581-582. -/
  | inc {s : State} {t d : Nat} : s.th t = ⟨.inc, d⟩ →
      Step (.run t) s ({ s with count := s.count + 1 }.put t ⟨.idle, d + 1⟩)
  /-- Line 583, which waits for the lock. -/
  | want {s : State} {t d : Nat} : s.th t = ⟨.want, d⟩ → s.locked = false →
      Step (.run t) s ({ s with locked := true }.put t ⟨.setLocker, d⟩)
  /-- Line 584. -/
  | setLocker {s : State} {t d : Nat} : s.th t = ⟨.setLocker, d⟩ →
      Step (.run t) s ({ s with locker := some t }.put t ⟨.setCount, d⟩)
  /-- Line 585. -/
  | setCount {s : State} {t d : Nat} : s.th t = ⟨.setCount, d⟩ →
      Step (.run t) s ({ s with count := 0 }.put t ⟨.idle, d + 1⟩)
  /-- `_release()` is called (487, 524), by a thread that has acquired. -/
  | callRel {s : State} {t d : Nat} : s.th t = ⟨.idle, d + 1⟩ → Step (.run t) s (s.put t ⟨.rel, d + 1⟩)
  /-- Line 588. -/
  | rel {s : State} {t d : Nat} : s.th t = ⟨.rel, d⟩ →
      Step (.run t) s (s.put t ⟨if s.count ≠ 0 then .dec else .unlock, d⟩)
  /-- Line 589. -/
  | dec {s : State} {t d : Nat} : s.th t = ⟨.dec, d⟩ →
      Step (.run t) s ({ s with count := s.count - 1 }.put t ⟨.idle, d - 1⟩)
  /-- Line 591. -/
  | unlock {s : State} {t d : Nat} : s.th t = ⟨.unlock, d⟩ →
      Step (.run t) s ({ s with locked := false }.put t ⟨.idle, d - 1⟩)
  /-- An exception leaves the critical section (485, 522). -/
  | raised {s : State} {t d : Nat} : s.th t = ⟨.idle, d + 1⟩ → Step (.raised t) s (s.put t ⟨.idle, 0⟩)

/-- The start: nobody holds the lock (ImportManager.py 427-435). -/
def init : State := ⟨false, none, 0, fun _ => ⟨.idle, 0⟩⟩

/-- Any number of steps of any threads, with their labels (ImportManager.py 578-591). -/
inductive Exec : List Label → State → State → Prop
  | nil {s} : Exec [] s s
  | cons {l ls s s' s''} : Step l s s' → Exec ls s' s'' → Exec (l :: ls) s s''

end Cheetah.ImportLock
