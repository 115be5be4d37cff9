import Verif.Dict
/-
Model of mergeNestedDictionaries and the settings methods of
Cheetah/SettingsManager.py (25-43, 235-272).  First the values (what `==` sees),
then a heap of dictionaries (who shares what with whom).
-/
namespace Cheetah.Settings

/-! ### Values -/

mutual
/-- A setting: an atom (any non-dictionary object) or a dictionary.
Models SettingsManager.py 25-43. -/
inductive Val where
  | leaf (x : Str)
  | dict (d : Ents)
/-- The entries of a dictionary, in insertion order.
Models SettingsManager.py 25-43. -/
inductive Ents where
  | nil
  | cons (k : Str) (v : Val) (d : Ents)
end

/-- `d.get(k)`.
Models SettingsManager.py 37-42. -/
def Ents.get : Ents → Str → Option Val
  | .nil, _ => none
  | .cons k' v d, k => if k = k' then some v else d.get k

/-- `d[k] = v`.
Models SettingsManager.py 37-42. -/
def Ents.set : Ents → Str → Val → Ents
  | .nil, k, v => .cons k v .nil
  | .cons k' v' d, k, v => if k = k' then .cons k' v d else .cons k' v' (d.set k v)

mutual
/-- SettingsManager.py 37-43, the loop over `dict2.items()`, without copying. -/
def merge (d1 : Ents) : Ents → Ents
  | .nil => d1
  | .cons k v d2 => merge (d1.set k (mergeVal (d1.get k) v)) d2
/-- SettingsManager.py 38-42: the new value of one key; `old` is `dict1.get(key)`. -/
def mergeVal (old : Option Val) : Val → Val
  | .leaf x => .leaf x
  | .dict e2 =>
    match old with
    | some (.dict e1) => .dict (merge e1 e2)
    | _ => .dict e2
end

/-- `setting(name)` / `setting(name, default)` (SettingsManager.py 235-243). -/
def setting (s : Ents) (name : Str) (default : Option Val) : Except Str Val :=
  match s.get name with
  | some v => .ok v
  | none => match default with
    | some d => .ok d
    | none => .error name

/-- `self._settings.update(newSettings)`.
Models SettingsManager.py 264-273. -/
def update (d1 : Ents) : Ents → Ents
  | .nil => d1
  | .cons k v d2 => update (d1.set k v) d2

/-- SettingsManager.py 264-272 `updateSettings`. -/
def updateSettings (s new : Ents) (doMerge : Bool) : Ents :=
  if doMerge then merge s new else update s new

/-! ### Heap -/

/-- What a dictionary slot holds: an atom, or a reference to a dictionary.
Models SettingsManager.py 25-43. -/
inductive Cell where
  | leaf (x : Str)
  | ref (a : Nat)
  deriving DecidableEq, Repr

/-- Dictionary objects by address; addresses from `next` on are unused.
Models SettingsManager.py 25-43. -/
structure Heap where
  at_ : Nat → Dict Str Cell
  next : Nat

/-- `dict1[key] = val` on the dictionary at `a`. -/
def Heap.put (h : Heap) (a : Nat) (k : Str) (c : Cell) : Heap :=
  { h with at_ := fun x => if x = a then (h.at_ a).set k c else h.at_ x }

/-- `dict(entries)`: a new dictionary object.
Models SettingsManager.py 32-33. -/
def Heap.alloc (h : Heap) (d : Dict Str Cell) : Heap × Nat :=
  (⟨fun x => if x = h.next then d else h.at_ x, h.next + 1⟩, h.next)

/-- SettingsManager.py 37-43 on the heap; `sub` is the recursive call of line 40. -/
def mergeItems (sub : Heap → Nat → Nat → Option Heap) : Heap → Nat → Dict Str Cell → Option Heap
  | h, _, [] => some h
  | h, a, (k, v) :: items =>
    match (h.at_ a).get k, v with
    | some (.ref r1), .ref r2 =>
      match sub h r1 r2 with
      | none => none
      | some h' => mergeItems sub (h'.put a k (.ref r1)) a items
    | _, v => mergeItems sub (h.put a k v) a items

/-- The loop with its recursion, bounded by `fuel` (`none`: Python's recursion limit,
which cyclic settings reach).
Models SettingsManager.py 37-42. -/
def mergeLoop : Nat → Heap → Nat → Dict Str Cell → Option Heap
  | 0 => mergeItems (fun _ _ _ => none)
  | fuel + 1 => mergeItems (fun h r1 r2 => mergeLoop fuel h r1 (h.at_ r2))

/-- `copy.deepcopy`'s memo: the copy made of each object so far.
Models SettingsManager.py 34-35. -/
abbrev Memo := Nat → Option Nat

/-- The loop of `copy._deepcopy_dict` (Python standard library), filling the new
dictionary at `y`; `sub` is the recursive call.
Called from SettingsManager.py 34-35. -/
def deepcopyItems (sub : Heap → Memo → Nat → Option (Heap × Memo × Nat)) (y : Nat) :
    Heap → Memo → Dict Str Cell → Option (Heap × Memo)
  | h, m, [] => some (h, m)
  | h, m, (k, .leaf x) :: d => deepcopyItems sub y (h.put y k (.leaf x)) m d
  | h, m, (k, .ref r) :: d =>
    match sub h m r with
    | none => none
    | some (h', m', r') => deepcopyItems sub y (h'.put y k (.ref r')) m' d

/-- `copy.deepcopy` of the dictionary at `a` (Python standard library): look in the memo,
otherwise make a new dictionary, note it in the memo and fill it. Bounded by `fuel`.
Called from SettingsManager.py 34-35. -/
def deepcopy : Nat → Heap → Memo → Nat → Option (Heap × Memo × Nat)
  | 0, _, _, _ => none
  | fuel + 1, h, m, a =>
    match m a with
    | some r => some (h, m, r)
    | none =>
      match deepcopyItems (deepcopy fuel) h.next (h.alloc []).1
          (fun x => if x = a then some h.next else m x) (h.at_ a) with
      | none => none
      | some (h', m') => some (h', m', h.next)

/-- SettingsManager.py 25-43 `mergeNestedDictionaries(dict1, dict2, copy, deepcopy)`:
the new heap and the address of the returned dictionary. -/
def mergeNested (fuel : Nat) (h : Heap) (a b : Nat) (copy deep : Bool) : Option (Heap × Nat) :=
  if copy then
    let (h', a') := h.alloc (h.at_ a)
    (mergeLoop fuel h' a' (h'.at_ b)).map (·, a')
  else if deep then
    match deepcopy fuel h (fun _ => none) a with
    | none => none
    | some (h', _, a') => (mergeLoop fuel h' a' (h'.at_ b)).map (·, a')
  else (mergeLoop fuel h a (h.at_ b)).map (·, a)

end Cheetah.Settings
