import Verif.PyStr
/-
Model of the key of the compilation cache (Cheetah/Template.py 90-110, 727-764), of the main
class's name (682) and of the module text returned when no class is wanted (765-792).
-/
namespace Cheetah.CompileCache

/-- The values of settings and module globals (Template.py 90-110). Simplification: `None`,
integers, strings, lists and dictionaries with string keys only; no floats, tuples, classes
or functions. -/
inductive PyVal
  | none
  | int (n : Int)
  | str (s : Str)
  | list (vs : List PyVal)
  | dict (kvs : List (Str × PyVal))

/-- CPython's `hash` where it depends on the process or the version: of `None`, of strings, and
of tuples as a function of the hashes of the elements. Python built-in; models no code in /repo
(used by `hashList` and `hashDict`, Template.py 90-110). -/
structure Hasher where
  none : Int
  str : Str → Int
  tuple : List Int → Int

/-- `hash(n)` of an integer on a 64-bit machine: modulo the Mersenne prime 2^61 - 1, with the
sign, and -2 instead of -1. Python built-in; models no code in /repo (used by `hashList` and
`hashDict`, Template.py 90-110). -/
def intHash (n : Int) : Int :=
  let h := n.tmod 2305843009213693951
  if h = -1 then -2 else h

/-- The order of strings, by code points. Python built-in; models no code in /repo (used by
`sorted`, Template.py 102). -/
def strLe : Str → Str → Bool
  | [], _ => true
  | _ :: _, [] => false
  | a :: as, b :: bs => if a = b then strLe as bs else a.toNat < b.toNat

/-- Insertion into a list sorted by key. Python built-in; models no code in /repo (used by
`sorted`, Template.py 102). -/
def insertKey {α : Type} (x : Str × α) : List (Str × α) → List (Str × α)
  | [] => [x]
  | y :: ys => if strLe x.1 y.1 then x :: y :: ys else y :: insertKey x ys

/-- `sorted(d.items())` (Template.py 102): by key, and since the keys of a dictionary are
different the values are never compared. -/
def sortItems {α : Type} : List (Str × α) → List (Str × α)
  | [] => []
  | x :: xs => insertKey x (sortItems xs)

mutual
/-- The hash of a value as an element of the tuples of `hashList` and `hashDict`
(Template.py 90-110): lists and dictionaries are replaced by their own hash, an integer, which
is hashed again as an element of the tuple. -/
def hashVal (H : Hasher) : PyVal → Int
  | .none => H.none
  | .int n => intHash n
  | .str s => H.str s
  | .list vs => intHash (H.tuple (hashVals H vs))
  | .dict kvs => intHash (H.tuple ((sortItems (hashItems H kvs)).map (·.2)))
/-- The elements of `hashedList` in `hashList` (Template.py 91-97). -/
def hashVals (H : Hasher) : List PyVal → List Int
  | [] => []
  | v :: vs => hashVal H v :: hashVals H vs
/-- The pairs of `hashedList` in `hashDict` (Template.py 103-109), each as the hash of the
pair, with its key. Simplification: sorted after hashing instead of before, the same as the
keys are different. -/
def hashItems (H : Hasher) : List (Str × PyVal) → List (Str × Int)
  | [] => []
  | (k, v) :: kvs => (k, H.tuple [H.str k, hashVal H v]) :: hashItems H kvs
end

/-- `hashDict` (Template.py 101-110). -/
def hashDict (H : Hasher) (d : List (Str × PyVal)) : Int :=
  H.tuple ((sortItems (hashItems H d)).map (·.2))

/-- `str(n)` of an integer. Python built-in; models no code in /repo (used at Template.py
740, 750). -/
def strInt (n : Int) : Str :=
  match n with
  | .ofNat k => decimal k
  | .negSucc k => '-' :: decimal (k + 1)

/-- `str(x)` of `None` or something (Template.py 750). -/
def strOpt (f : α → Str) : Option α → Str
  | Option.none => c!"None"
  | some x => f x

/-- What a compilation is asked for, after the defaults are filled in (Template.py 618-706).
The compiler class and the base class are given by their hashes, the time of the file's last
change as printed. -/
structure Request where
  source : Option Str
  file : Option Str
  mtime : Str
  className : Str
  moduleName : Str
  mainMethodName : Option Str
  compilerClass : Int
  baseclass : Int
  settings : List (Str × PyVal)
  globals : List (Str × PyVal)
  cacheDir : Option Str

/-- `hash(x)` of a string or `None`. Python built-in; models no code in /repo (used at
Template.py 740, 751, 760). -/
def hashOpt (H : Hasher) : Option Str → Int
  | Option.none => H.none
  | some s => H.str s

/-- `fileHash` (Template.py 738-742); an empty name is no file. -/
def fileHash (H : Hasher) (checkMtime : Bool) (file : Option Str) (mtime : Str) : Option Str :=
  match file with
  | Option.none => Option.none
  | some [] => Option.none
  | some f => some (strInt (H.str f) ++ if checkMtime then mtime else [])

/-- `compilerSettingsHash` and `moduleGlobalsHash` (Template.py 730-736): an empty dictionary
has none. -/
def dictHash (H : Hasher) (d : List (Str × PyVal)) : Option Int :=
  if d.isEmpty then Option.none else some (hashDict H d)

/-- `cacheHash` (Template.py 727-761). Simplification: all parts can be hashed, and the source
or the file name is there. -/
def key (H : Hasher) (checkMtime : Bool) (r : Request) : Str :=
  strInt (hashOpt H r.source) ++ (strOpt id (fileHash H checkMtime r.file r.mtime) ++ (r.className ++ (r.moduleName ++
    (strOpt id r.mainMethodName ++ (strInt r.compilerClass ++ (strInt r.baseclass ++
    (strOpt strInt (dictHash H r.settings) ++ (strOpt strInt (dictHash H r.globals) ++
    strInt (hashOpt H r.cacheDir)))))))))

/-- `re.sub(r'^_+([^0-9])', r'\1', name)` (Template.py 682): the run of underscores at the
start goes, if a character that is no digit follows; otherwise the expression gives back one
underscore, which is no digit, and all the others but this one go. A single underscore, or one
before a digit, stays. -/
def className (name : Str) : Str :=
  let us := name.takeWhile (· == '_')
  let rest := name.dropWhile (· == '_')
  match us, rest with
  | [], r => r
  | _ :: us', [] => if us'.isEmpty then name else ['_']
  | _ :: us', c :: r => if c.isDigit = false then c :: r else if us'.isEmpty then name else '_' :: c :: r

/-- `code.encode(encoding)`: the bytes, or nothing for `UnicodeEncodeError`; `other` stands for
the encodings that are not ASCII. Python built-in; models no code in /repo (used at
Template.py 792). -/
def encode (other : Str → Str → Option (List Nat)) (enc code : Str) : Option (List Nat) :=
  if enc = c!"ascii" then
    if code.all (fun c => decide (c.toNat < 128)) then some (code.map Char.toNat) else Option.none
  else other enc code

/-- The text `# -*- coding: ENC -*-` put in as the second line (Template.py 787-791). -/
def withCoding (enc code : Str) : Str :=
  joinStr c!"\n" ((splitCh '\n' code).take 1 ++ (c!"# -*- coding: " ++ enc ++ c!" -*-") :: (splitCh '\n' code).drop 1)

/-- What `compile(..., returnAClass=False)` returns, given the module's text, and its encoding
if it was compiled now: a text from the cache comes without one (Template.py 765-769, 781,
783-792). -/
def moduleText (other : Str → Str → Option (List Nat)) (compiledNow : Option Str) (code : Str) : Option (List Nat) :=
  let enc := compiledNow.getD c!"ascii"
  if enc = c!"ascii" then encode other enc code else encode other enc (withCoding enc code)

end Cheetah.CompileCache
