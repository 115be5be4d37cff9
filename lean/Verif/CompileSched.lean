import Verif.Dict
/-
Model of concurrent calls of `Template.compile` (Cheetah/Template.py 765-869): threads that take
one step at a time in any order, the compile lock, `sys.modules` and the compilation cache.
-/
namespace Cheetah.CompileSched

/-- A compiled class: which call of `compile` made it, and for which key (Template.py 750,
848). -/
structure Cls where
  call : Nat
  key : Nat
  deriving DecidableEq, Repr

/-- Where a call of `compile` is (Template.py 765-869). Module names are numbers. -/
inductive PC
  | lookup            -- before 767
  | acquire           -- after 779, before `acquire()` (799)
  | naming            -- holds the lock, before `_genUniqueModuleName` (800)
  | executing (n : Nat)  -- has the name, runs the module (801-842)
  | releasing (ok : Bool)  -- before `release()` (846), after success or an exception
  | storing           -- before the test of the cache (850-851)
  | inserting         -- before the insertion into the cache (857)
  deriving DecidableEq, Repr

/-- A call of `compile`: its number, its key, the module name it asks for, whether it looks in
the cache and stores into it (Template.py 640-706, 750), and where it is. -/
structure Call where
  call : Nat
  key : Nat
  base : Nat
  useCache : Bool
  store : Bool
  pc : PC
  deriving DecidableEq, Repr

/-- The shared state: `sys.modules` with the call that registered each module
(`none`: not a compiled template), the thread that has the lock, the cache, the
calls of each thread (innermost first), the number of the next call, what calls returned
(key asked for, class), and the registrations so far, oldest first (Template.py 116-124,
767-768, 799, 844-857). The last three only record what happened. -/
structure State where
  modules : Dict Nat (Option Nat)
  lock : Option Nat
  cache : Dict Nat Cls
  calls : Nat → List Call
  next : Nat
  returned : List (Nat × Cls)
  registered : List (Nat × Nat)

/-- Change the calls of a thread (Template.py 765-869: each line is run by one thread). -/
def State.put (s : State) (t : Nat) (cs : List Call) : State :=
  { s with calls := fun u => if u = t then cs else s.calls u }

/-- A call of `compile` starts (Template.py 765). -/
def start (s : State) (t key base : Nat) (useCache store : Bool) : State :=
  { s with next := s.next + 1 }.put t (⟨s.next, key, base, useCache, store, .lookup⟩ :: s.calls t)

/-- A call returns a class (Template.py 796, 869). -/
def ret (s : State) (t : Nat) (key : Nat) (c : Cls) (rest : List Call) : State :=
  { s with returned := s.returned ++ [(key, c)] }.put t rest

/-- The steps (Template.py 765-869). Simplification: reading the source, the key and the
generated text are in the step `miss`; the lines of 801-842 are one region in which the
module runs, and may call `compile`. -/
inductive Step : State → State → Prop
  /-- A thread that is in no call calls `compile`. -/
  | call {s : State} {t : Nat} (key base : Nat) (u st : Bool) : s.calls t = [] → Step s (start s t key base u st)
  /-- The module being executed calls `compile` (828): through an `#import`, `#extends` or its own
  code. -/
  | nested {s : State} {t : Nat} {c : Call} {n : Nat} {rest : List Call} (key base : Nat) (u st : Bool) :
      s.calls t = c :: rest → c.pc = .executing n → Step s (start s t key base u st)
  /-- A hit (767-769, 794-796). -/
  | hit {s : State} {t : Nat} {c : Call} {rest : List Call} {k : Cls} : s.calls t = c :: rest → c.pc = .lookup →
      c.useCache = true → s.cache.get c.key = some k → Step s (ret s t c.key k rest)
  /-- A miss, and the compilation to text (770-781). -/
  | miss {s : State} {t : Nat} {c : Call} {rest : List Call} : s.calls t = c :: rest → c.pc = .lookup →
      (c.useCache = false ∨ s.cache.get c.key = none) → Step s (s.put t ({ c with pc := .acquire } :: rest))
  /-- A template with a syntax error: the compiler raises (771-780). -/
  | parseError {s : State} {t : Nat} {c : Call} {rest : List Call} : s.calls t = c :: rest → c.pc = .lookup →
      Step s (s.put t rest)
  /-- `acquire()`, which waits until the lock is free: it is a plain `threading.Lock` (51, 322, 799). -/
  | acquire {s : State} {t : Nat} {c : Call} {rest : List Call} : s.calls t = c :: rest → c.pc = .acquire →
      s.lock = none → Step s ({ s with lock := some t }.put t ({ c with pc := .naming } :: rest))
  /-- `_genUniqueModuleName` (116-124, 800): the name asked for if it is not in `sys.modules`, else
  some other that is not. -/
  | name {s : State} {t : Nat} {c : Call} {rest : List Call} (n : Nat) : s.calls t = c :: rest → c.pc = .naming →
      n ∉ s.modules.keys → (c.base ∉ s.modules.keys → n = c.base) →
      Step s (s.put t ({ c with pc := .executing n } :: rest))
  /-- An exception while the lock is held (806, 827-842). -/
  | raised {s : State} {t : Nat} {c : Call} {rest : List Call} {n : Nat} : s.calls t = c :: rest → c.pc = .executing n →
      Step s (s.put t ({ c with pc := .releasing false } :: rest))
  /-- `sys.modules[uniqueModuleName] = mod` (844). -/
  | register {s : State} {t : Nat} {c : Call} {rest : List Call} {n : Nat} : s.calls t = c :: rest →
      c.pc = .executing n →
      Step s ({ s with modules := s.modules.set n (some c.call), registered := s.registered ++ [(n, c.call)] }.put t
        ({ c with pc := .releasing true } :: rest))
  /-- `release()` in the `finally` (845-846), and then the exception goes on, if there was one. -/
  | release {s : State} {t : Nat} {c : Call} {rest : List Call} {ok : Bool} : s.calls t = c :: rest →
      c.pc = .releasing ok → s.lock = some t →
      Step s ({ s with lock := none }.put t
        (if ok then { c with pc := .storing } :: rest else rest))
  /-- The class has no such name: `getattr` raises (848). -/
  | noClass {s : State} {t : Nat} {c : Call} {rest : List Call} : s.calls t = c :: rest → c.pc = .storing →
      Step s (s.put t rest)
  /-- The test (850-851) fails: the class is not stored (858-859, 869). -/
  | noStore {s : State} {t : Nat} {c : Call} {rest : List Call} : s.calls t = c :: rest → c.pc = .storing →
      (c.store = false ∨ s.cache.get c.key ≠ none) → Step s (ret s t c.key ⟨c.call, c.key⟩ rest)
  /-- The test (850-851) succeeds. -/
  | mayStore {s : State} {t : Nat} {c : Call} {rest : List Call} : s.calls t = c :: rest → c.pc = .storing →
      c.store = true → s.cache.get c.key = none → Step s (s.put t ({ c with pc := .inserting } :: rest))
  /-- The insertion (857, 869), which is not under the lock. -/
  | insert {s : State} {t : Nat} {c : Call} {rest : List Call} : s.calls t = c :: rest → c.pc = .inserting →
      Step s (ret { s with cache := s.cache.set c.key ⟨c.call, c.key⟩ } t c.key ⟨c.call, c.key⟩ rest)

/-- Any number of steps (Template.py 765-869). -/
inductive Exec : State → State → Prop
  | nil {s} : Exec s s
  | snoc {s s' s''} : Exec s s' → Step s' s'' → Exec s s''

/-- The start: no calls, the lock free, the cache empty, and some modules imported
(Template.py 799, 316-322). -/
def init (mods : List Nat) : State :=
  ⟨mods.map (fun m => (m, none)), none, [], fun _ => [], 0, [], []⟩

end Cheetah.CompileSched
