import Verif.Str
/-
Model of `mkdirsWithPyInitFiles` (Utils/Misc.py 53-66), step by step, so that a run can stop at any point or take turns with another.
Paths are the lists of their names, the last name first: `/w/a` is `[a, w]`. Simplification: paths are normal (no `.`, `..`, empty names or links),
and nothing but these runs changes the directories.
-/
namespace Cheetah.MakeDirs

/-- What is at a path: a file, or a directory with or without a file `__init__.py` (Utils/Misc.py 62-66). -/
inductive Kind where
  | file
  | dir (init : Bool)
  deriving DecidableEq

/-- A path, the last name first (Utils/Misc.py 59). -/
abbrev Path := List Str

/-- The file system (Utils/Misc.py 60-66). -/
abbrev FS := Path → Option Kind

/-- What is left to do in a run: enter the function, test the path, make the directory, make its `__init__.py`
(Utils/Misc.py 59-61, 62, 63, 64-66). -/
inductive Task where
  | enter (p : Path)
  | test (p : Path)
  | mkdir (p : Path)
  | init (p : Path)
  deriving DecidableEq

/-- A change at one path (Utils/Misc.py 63-66). -/
def put (fs : FS) (p : Path) (k : Kind) : FS := fun q => if q = p then some k else fs q

/-- `os.mkdir` (used at Utils/Misc.py 63): raises where something is there, or where the parent is no directory. -/
def canMake (fs : FS) (p : Path) : Bool :=
  (fs p).isNone && (match p with
    | [] => false
    | [_] => true
    | _ :: up => match fs up with | some (.dir _) => true | _ => false)

/-- One step; nothing where an exception is raised (Utils/Misc.py 53-66). -/
def step (fs : FS) : Task → Option (FS × List Task)
  | .enter p =>
    match p with
    | [] => some (fs, [])
    | c :: up => if up ≠ [] ∧ fs up = none then some (fs, [.enter up, .test (c :: up)]) else some (fs, [.test (c :: up)])
  | .test p => if fs p = none then some (fs, [.mkdir p, .init p]) else some (fs, [])
  | .mkdir p => if canMake fs p then some (put fs p (.dir false), []) else none
  | .init p => some (put fs p (.dir true), [])

/-- A run: what is left to do, or an exception (Utils/Misc.py 53-66). -/
inductive Run where
  | left (ts : List Task)
  | failed
  deriving DecidableEq

/-- The next step of a run (Utils/Misc.py 53-66). -/
def next (fs : FS) : Run → FS × Run
  | .left (t :: ts) =>
    match step fs t with
    | some (fs, new) => (fs, .left (new ++ ts))
    | none => (fs, .failed)
  | r => (fs, r)

/-- So many steps of a run (Utils/Misc.py 53-66). -/
def steps : Nat → FS → Run → FS × Run
  | 0, fs, r => (fs, r)
  | n + 1, fs, r => steps n (next fs r).1 (next fs r).2

/-- Two runs taking turns as the list says (CheetahWrapper.py with `--parallel`, 378-410; Utils/Misc.py 53-66). -/
def turns : List Bool → FS → Run → Run → FS × Run × Run
  | [], fs, a, b => (fs, a, b)
  | true :: ss, fs, a, b => turns ss (next fs a).1 (next fs a).2 b
  | false :: ss, fs, a, b => turns ss (next fs b).1 a (next fs b).2

/-- The run for a path (CheetahWrapper.py 637-640). -/
def start (p : Path) : Run := .left [.enter p]

end Cheetah.MakeDirs
