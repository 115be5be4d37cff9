import Verif.Dict
/-
Model of Cheetah/CacheStore.py (MemoryCacheStore), Cheetah/CacheRegion.py, the
code generated for `#cache` (Compiler.py 764-857) and Template.refreshCache.
Times are integers (the code only compares and adds them).
-/
namespace Cheetah.Cache

/-! ### MemoryCacheStore (CacheStore.py 42-71) -/

/-- `self._data`: key ↦ (value, expiry time).
Models CacheStore.py 43-44. -/
abbrev Store (V : Type) := Dict Str (V × Int)

/-- Exceptions: `CacheStore.Error` and KeyError.
Models CacheStore.py 20-21, 51, 56, 66. -/
inductive Err where
  | alreadyThere | keyError
  deriving DecidableEq, Repr

/-- The methods, with the value of `time.time()` at the call.
Models CacheStore.py 46-71. -/
inductive Op (V : Type) where
  | set (k : Str) (v : V) (exp : Int)
  | add (k : Str) (v : V) (exp : Int)
  | replace (k : Str) (v : V) (exp : Int)
  | delete (k : Str)
  | get (k : Str)
  | clear
  deriving DecidableEq, Repr

/-- CacheStore.py 62-68 `get`. -/
def Store.get' {V : Type} (d : Store V) (now : Int) (k : Str) : Except Err V × Store V :=
  match Dict.get d k with
  | none => (.error .keyError, d)
  | some (v, exp) =>
    if exp ≠ 0 ∧ now > exp then (.error .keyError, Dict.del d k)
    else (.ok v, d)

/-- CacheStore.py 59-60 `delete`. -/
def Store.delete' {V : Type} (d : Store V) (k : Str) : Except Err Unit × Store V :=
  match Dict.get d k with
  | none => (.error .keyError, d)
  | some _ => (.ok (), Dict.del d k)

/-- One call: what it returns (`none` for Python's None) and the new store.
Models CacheStore.py 46-71. -/
def Store.step {V : Type} (d : Store V) (now : Int) : Op V → Except Err (Option V) × Store V
  | .set k v e => (.ok none, Dict.set d k (v, e))                      -- 46-47
  | .add k v e =>                                                      -- 49-52
    if (Dict.get d k).isSome then (.error .alreadyThere, d) else (.ok none, Dict.set d k (v, e))
  | .replace k v e =>                                                  -- 54-57 (same test as `add`)
    if (Dict.get d k).isSome then (.error .alreadyThere, d) else (.ok none, Dict.set d k (v, e))
  | .delete k => match Store.delete' d k with                         -- 59-60
    | (.ok (), d') => (.ok none, d')
    | (.error e, d') => (.error e, d')
  | .get k => match Store.get' d now k with                           -- 62-68
    | (.ok v, d') => (.ok (some v), d')
    | (.error e, d') => (.error e, d')
  | .clear => (.ok none, [])                                           -- 70-71

/-- A history of timed calls; the caller survives exceptions.
Any sequence of CacheStore.py 46-71. -/
def Store.run {V : Type} (d : Store V) : List (Int × Op V) → Store V
  | [] => d
  | (now, op) :: h => Store.run (Store.step d now op).2 h

/-! ### Cache regions (CacheRegion.py) -/

/-- CacheRegion.py 31-44 `CacheItem`: `_refreshTime` (None before the first
setData) and `_expiryTime`. -/
structure Item where
  refresh : Option Int
  expiry : Int
  deriving DecidableEq, Repr

/-- CacheRegion.py 103-112 `CacheRegion`: items are keyed by the MD5 digest of the
`varyBy` value; the digest function itself is not modelled. -/
structure Region where
  isNew : Bool
  items : Dict Str Item
  deriving DecidableEq, Repr

/-- CacheRegion.py 110-111, 81, 84, 87: the key of an item in the store. -/
def storeKey (templatePrefix regionID digest : Str) : Str :=
  (templatePrefix ++ c!":" ++ regionID ++ c!":") ++ digest

/-- A cache region being rendered: which item, and what its body wrote so far
(`_cacheCollector_ID`, Compiler.py 831-834). -/
structure Frame where
  rid : Str
  dig : Str
  buf : Str
  deriving DecidableEq, Repr

/-- A template instance with its regions (`_CHEETAH__cacheRegions`), the shared
store, the cache regions currently being rendered (innermost first) and the
text written to the outer transaction in this rendering.
Models Template.py 1582, 1388-1404; Compiler.py 831-834. -/
structure State where
  store : Store Str
  regions : Dict Str Region
  stack : List Frame
  out : Str
  deriving DecidableEq, Repr

/-- Models Template.py 1582. -/
def State.init : State := ⟨[], [], [], []⟩

/-- `write(txt)`: to the innermost collector, or to the outer transaction.
Models Compiler.py 833-834, 843-846. -/
def State.write (s : State) (txt : Str) : State :=
  match s.stack with
  | [] => { s with out := s.out ++ txt }
  | f :: fs => { s with stack := { f with buf := f.buf ++ txt } :: fs }

/-- CacheRegion.py 46-47 `hasExpired`. -/
def Item.hasExpired (i : Item) (now : Int) : Bool := i.expiry ≠ 0 && now > i.expiry

/-- Truth value of `getRefreshTime()`: None and 0.0 are false. -/
def Item.refreshed (i : Item) : Bool :=
  match i.refresh with
  | none => false
  | some t => t ≠ 0

/-- Template.py 1394-1399 `getCacheRegion` and 1388-1392 `_createCacheRegion`. -/
def getRegion (s : State) (rid : Str) : Region := (s.regions.get rid).getD ⟨true, []⟩

/-- CacheRegion.py 124-140 `getCacheItem`: the item and the updated region. -/
def getItem (r : Region) (dig : Str) : Item × Region :=
  match r.items.get dig with
  | some i => (i, r)
  | none => (⟨none, 0⟩, ⟨false, r.items.set dig ⟨none, 0⟩⟩)

/-- Times read while a region is entered: `hasExpired`, the store's `get`,
`currentTime()`.
Models CacheRegion.py 46-47, CacheStore.py 64, Compiler.py 839-841. -/
structure Times where
  expired : Int
  get : Int
  current : Int
  deriving DecidableEq, Repr

/-- Compiler.py 785-841, the code before the body of a `#cache` region:
`interval` (none or 0: not given), `test` the value of the test expression.
Returns whether the body is going to run. -/
def enter (pfx : Str) (s : State) (rid dig : Str) (interval : Option Int) (test : Bool)
    (t : Times) : Bool × State :=
  let r := getRegion s rid                                  -- 786-790
  let recache := r.isNew                                    -- 791-794
  let (it, r) := getItem r dig                              -- 796-798
  let s := { s with regions := s.regions.set rid r }
  let recache := recache || it.hasExpired t.expired         -- 800-803
  let recache := recache || test                            -- 805-809
  -- 811-829: show the stored text
  let (recache, s) :=
    if !recache && it.refreshed then
      match s.store.get' t.get (storeKey pfx rid dig) with
      | (.error _, d) => (true, { s with store := d })
      | (.ok v, d) => (recache, { s with store := d }.write v)
    else (recache, s)
  -- 831-841: or collect the body
  if recache || !it.refreshed then
    let it := match interval with
      | some d => if d ≠ 0 then { it with expiry := t.current + d } else it
      | none => it
    let r := { r with items := r.items.set dig it }
    (true, { s with regions := s.regions.set rid r, stack := ⟨rid, dig, []⟩ :: s.stack })
  else (false, s)

/-- Compiler.py 843-857, the code after the body; CacheRegion.py 55-57 `setData`
at time `now`. -/
def leave (pfx : Str) (s : State) (now : Int) : State :=
  match s.stack with
  | [] => s
  | f :: fs =>
    let r := getRegion s f.rid
    -- the item object captured on entry; a region cleared meanwhile no longer
    -- holds it (`clear` removes it from the region, not from the local variable)
    match r.items.get f.dig with
    | some it =>
      { s with
        stack := fs
        store := s.store.set (storeKey pfx f.rid f.dig) (f.buf, it.expiry)
        regions := s.regions.set f.rid { r with items := r.items.set f.dig { it with refresh := some now } }
      }.write f.buf
    | none => { s with stack := fs }.write f.buf

/-- CacheRegion.py 70-72 `CacheItem.clear`, on the store. -/
def clearItem (pfx : Str) (d : Store Str) (rid dig : Str) : Except Err Unit × Store Str :=
  d.delete' (storeKey pfx rid dig)

/-- CacheRegion.py 117-122 `CacheRegion.clear`: over the items present at the
start, in order; an exception leaves the remaining ones. -/
def clearItems (pfx rid : Str) : List Str → Store Str → Dict Str Item →
    Except Err Unit × Store Str × Dict Str Item
  | [], d, items => (.ok (), d, items)
  | dig :: digs, d, items =>
    match clearItem pfx d rid dig with
    | (.error e, d') => (.error e, d', items)
    | (.ok (), d') => clearItems pfx rid digs d' (items.del dig)

/-- Models CacheRegion.py 117-122, on the region with that id. -/
def clearRegion (pfx : Str) (s : State) (rid : Str) : Except Err Unit × State :=
  match s.regions.get rid with
  | none => (.ok (), s)
  | some r =>
    let (res, d, items) := clearItems pfx rid r.items.keys s.store r.items
    (res, { s with store := d, regions := s.regions.set rid { r with items := items } })

/-- Template.py 1414-1416: all regions, stopping at the first exception. -/
def clearRegions (pfx : Str) : List Str → State → Except Err Unit × State
  | [], s => (.ok (), s)
  | rid :: rids, s =>
    match clearRegion pfx s rid with
    | (.error e, s') => (.error e, s')
    | (.ok (), s') => clearRegions pfx rids s'

/-- Template.py 1410-1427 `refreshCache(cacheRegionId, cacheItemId)`; `none` stands
for None or an empty id. The item id is given by its digest. -/
def refreshCache (pfx : Str) (s : State) (rid : Option Str) (dig : Option Str) :
    Except Err Unit × State :=
  match rid with
  | none => clearRegions pfx s.regions.keys s
  | some rid =>
    match s.regions.get rid with
    | none => (.ok (), s)
    | some r =>
      match dig with
      | none => clearRegion pfx s rid
      | some dig =>
        let (it, r) := getItem r dig
        let s := { s with regions := s.regions.set rid r }
        match clearItem pfx s.store rid dig with
        | (.error e, d) => (.error e, { s with store := d })
        | (.ok (), d) =>
          (.ok (), { s with
            store := d
            regions := s.regions.set rid { r with items := r.items.set dig { it with refresh := none } } })

/-- What can happen to a template with cache regions.
Models Compiler.py 764-857, Template.py 1410-1427. -/
inductive Ev where
  | enter (rid dig : Str) (interval : Option Int) (test : Bool) (t : Times)
  | write (txt : Str)
  | leave (now : Int)
  /-- an exception leaves the method: all collectors (local variables) are lost -/
  | abort
  /-- `refreshCache`, only while nothing is being rendered -/
  | refresh (rid dig : Option Str)
  /-- the store loses an entry (memcached eviction, another process) -/
  | evict (key : Str)
  /-- another template writes to the shared store -/
  | foreign (key : Str) (v : Str) (exp : Int)
  deriving DecidableEq, Repr

/-- Models Compiler.py 764-857, Template.py 1410-1427. -/
def stepEv (pfx : Str) (s : State) : Ev → State
  | .enter rid dig i t ts => (enter pfx s rid dig i t ts).2
  | .write txt => s.write txt
  | .leave now => leave pfx s now
  | .abort => { s with stack := [], out := [] }
  | .refresh rid dig => if s.stack.isEmpty then (refreshCache pfx s rid dig).2 else s
  | .evict k => { s with store := s.store.del k }
  | .foreign k v e => { s with store := s.store.set k (v, e) }

/-- A history of such events (Compiler.py 764-857, Template.py 1410-1427). -/
def runEv (pfx : Str) (s : State) : List Ev → State
  | [] => s
  | e :: es => runEv pfx (stepEv pfx s e) es

end Cheetah.Cache
