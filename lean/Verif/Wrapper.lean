import Verif.Str
import Verif.Dict
/-
Model of the command-line tool's file handling (Cheetah/CheetahWrapper.py 342-520, 602-660).
-/
namespace Cheetah.Wrapper

/-! ### POSIX path functions -/

/-- `os.path.join(a, b)` (called in CheetahWrapper.py 361, 364, 457, 499, 514, 516). -/
def join (a b : Str) : Str :=
  if b.head? = some '/' then b
  else if a = [] ∨ a.getLast? = some '/' then a ++ b
  else a ++ '/' :: b

/-- `os.path.basename(p)` (called in CheetahWrapper.py 497): what follows the last slash. -/
def basename : Str → Str
  | [] => []
  | c :: s => if '/' ∈ s then basename s else if c = '/' then s else c :: s

/-- What precedes the last slash, with the slash (of `os.path.dirname`, called in
CheetahWrapper.py 511, 609). -/
def headPart (p : Str) : Str := p.take (p.length - (basename p).length)

/-- `os.path.dirname(p)` (called in CheetahWrapper.py 511, 609): trailing slashes go, unless
there is nothing else. -/
def dirname (p : Str) : Str :=
  if ∀ c ∈ headPart p, c = '/' then headPart p
  else ((headPart p).reverse.dropWhile (· = '/')).reverse

/-! ### Bundles -/

/-- The options that matter for the file names (CheetahWrapper.py 483-487). `oext` and `iext`
start with a dot after `_fixExts` (342-348). -/
structure Opts where
  flat : Bool
  idir : Str
  iext : Str
  odir : Str
  oext : Str
  deriving DecidableEq, Repr

/-- `_fixExts` (CheetahWrapper.py 342-348), after the assertion that `oext` is not empty. -/
def fixExt (e : Str) : Str := if e ≠ [] ∧ e.head? ≠ some '.' then '.' :: e else e

/-- `Bundle` (CheetahWrapper.py 43-51, 518). -/
structure Bundle where
  src : Str
  dst : Str
  bak : Str
  base : Str
  basename : Str
  deriving DecidableEq, Repr

/-- `BACKUP_SUFFIX` (CheetahWrapper.py 103). -/
def backupSuffix : Str := c!".bak"

/-- `s.endswith(e)` and then `s[:-len(e)]` (CheetahWrapper.py 495-496). -/
def dropExt (e s : Str) : Str := if e ≠ [] ∧ e.isSuffixOf s then s.take (s.length - e.length) else s

/-- `base` (CheetahWrapper.py 488, 492-496). -/
def baseOf (o : Opts) (src : Str) : Str :=
  dropExt o.iext (if o.idir ≠ [] then
    match stripPrefix? (o.idir ++ ['/']) src with
    | some r => r
    | none => src
  else src)

/-- The loop at CheetahWrapper.py 504-513: cut the longest parent of `odir` off the front of
`base`. `none` when `dbn[0]` raises IndexError (508) or the rounds run out (the loop does not
end for some `odir`). -/
def cutParent (base : Str) : Nat → Str → Str → Option Str
  | 0, _, _ => none
  | n + 1, odd, dbn =>
    if odd = [] then some dbn
    else match stripPrefix? odd base with
      | some (c :: r) => some (if c = '/' then r else c :: r)
      | some [] => none
      | none => if dirname odd = ['/'] then some dbn else cutParent base n (dirname odd) dbn

/-- `dst` (CheetahWrapper.py 497-516), from `base`. -/
def dstOf (o : Opts) (base : Str) : Option Str :=
  if o.flat then some (join o.odir (basename base ++ o.oext))
  else if o.odir ≠ [] ∧ base.head? = some '/' then
    (cutParent base (o.odir.length + 1) o.odir (basename base)).map fun dbn => join o.odir (dbn ++ o.oext)
  else some (join o.odir (base ++ o.oext))

/-- One round of `_getBundles` (CheetahWrapper.py 490-519). -/
def bundleOf (o : Opts) (src : Str) : Option Bundle :=
  (dstOf o (baseOf o src)).map fun dst =>
    ⟨src, dst, dst ++ backupSuffix, baseOf o src, basename (baseOf o src)⟩

/-- `_getBundles` (CheetahWrapper.py 482-520). -/
def getBundles (o : Opts) : List Str → Option (List Bundle)
  | [] => some []
  | s :: ss =>
    match bundleOf o s, getBundles o ss with
    | some b, some bs => some (b :: bs)
    | _, _ => none

/-! ### Collisions -/

/-- One round of the first loop of `_checkForCollisions` (CheetahWrapper.py 428-432). -/
def addSource (d : Dict Str (List Str)) (b : Bundle) : Dict Str (List Str) :=
  match d.get b.dst with
  | some l => d.set b.dst (l ++ [b.src])
  | none => d.set b.dst [b.src]

/-- `_checkForCollisions` (CheetahWrapper.py 421-444): the collisions it reports, a
destination with its sources each; the program exits when there are any. Simplification: the
sorting of the reports and of their sources is left out. -/
def collisions (bs : List Bundle) : List (Str × List Str) :=
  (bs.foldl addSource []).filter fun e => decide (1 < e.2.length)

/-- What `_compileOrFill` comes to (CheetahWrapper.py 373-376, 417-419) without `--parallel`:
either it aborts with collisions, or it treats the bundles in order. `none` when
`_getBundles` fails. -/
inductive Outcome
  | aborted (reports : List (Str × List Str))
  | treated (bundles : List Bundle)
  deriving DecidableEq, Repr

/-- `_compileOrFill` for given source files (CheetahWrapper.py 373-376, 417-419). -/
def compileOrFill (o : Opts) (sources : List Str) : Option Outcome :=
  (getBundles o sources).map fun bs =>
    if o.flat ∧ collisions bs ≠ [] then .aborted (collisions bs) else .treated bs

/-! ### The pool of children -/

/-- How a child ended, as `os.wait` tells it (CheetahWrapper.py 390): by exiting with a code
or by a signal. -/
inductive Ended
  | exited (code : Nat)
  | killed (signal : Nat)
  deriving DecidableEq, Repr

/-- `os.WEXITSTATUS(status)` (CheetahWrapper.py 392). -/
def wexitstatus : Ended → Nat
  | .exited c => c
  | .killed _ => 0

/-- The parent's variables `pid_pool` and `bad_child_exit` (CheetahWrapper.py 386-387), and,
for the statements, the children forked and waited for and the largest pool there was. A
child is named by the bundle it was forked for. -/
structure Pool (β : Type) where
  pool : List β
  bad : Nat
  forked : List β
  waited : List β
  peak : Nat
  deriving DecidableEq, Repr

variable {β : Type}

/-- `child_wait()` (CheetahWrapper.py 389-392). `pick` says which child of the pool ends at
the k-th wait: any of them may. Returns the exit status. -/
def childWait (ended : β → Ended) (pick : Nat → Nat) (p : Pool β) : Nat × Pool β :=
  let i := pick p.waited.length % p.pool.length
  match p.pool[i]? with
  | some b => (wexitstatus (ended b), { p with pool := p.pool.eraseIdx i, waited := p.waited ++ [b] })
  | none => (0, p)

/-- `os.fork()` and `pid_pool.add(pid)` in the parent (CheetahWrapper.py 396-398). -/
def fork (b : β) (p : Pool β) : Pool β :=
  { p with pool := p.pool ++ [b], forked := p.forked ++ [b], peak := max p.peak (p.pool.length + 1) }

/-- The first loop (CheetahWrapper.py 394-406); the bundles come in the order `pop` gives
them, last first. -/
def spawnLoop (ended : β → Ended) (pick : Nat → Nat) (parallel : Nat) : List β → Pool β → Pool β
  | [], p => p
  | b :: bs, p =>
    if (fork b p).pool.length = parallel then
      let r := childWait ended pick (fork b p)
      if r.1 ≠ 0 then { r.2 with bad := r.1 }
      else spawnLoop ended pick parallel bs { r.2 with bad := r.1 }
    else spawnLoop ended pick parallel bs (fork b p)

/-- The second loop (CheetahWrapper.py 408-411); the first argument bounds the rounds. -/
def drainLoop (ended : β → Ended) (pick : Nat → Nat) : Nat → Pool β → Pool β
  | 0, p => p
  | n + 1, p =>
    if p.pool = [] then p
    else
      let r := childWait ended pick p
      drainLoop ended pick n { r.2 with bad := if p.bad = 0 then r.1 else p.bad }

/-- Lines 385-415 of CheetahWrapper.py: the parent's final state; it exits with a failure if
`bad` is not zero. -/
def runPool (ended : β → Ended) (pick : Nat → Nat) (parallel : Nat) (bundles : List β) : Pool β :=
  let p := spawnLoop ended pick parallel bundles.reverse ⟨[], 0, [], [], 0⟩
  drainLoop ended pick p.pool.length p

/-! ### Writing one file -/

/-- A file system: the contents of each path (CheetahWrapper.py 612, 637, 658-660). -/
abbrev FS := Str → Option Str

/-- What the operating system does at once: open a file for writing, which empties it, or
append a piece to it (CheetahWrapper.py 637, 654, 658, 659). -/
inductive Op
  | truncate (p : Str)
  | append (p s : Str)
  deriving DecidableEq, Repr

/-- The effect of an operation (CheetahWrapper.py 637, 654-659). -/
def Op.apply (fs : FS) : Op → FS
  | .truncate p => fun q => if q = p then some [] else fs q
  | .append p s => fun q => if q = p then some ((fs p).getD [] ++ s) else fs q

/-- Write the pieces to a file, from the start (CheetahWrapper.py 637, 654-660). -/
def writeOps (p : Str) (pieces : List Str) : List Op := .truncate p :: pieces.map (.append p)

/-- The options of `_compileOrFillBundle` (CheetahWrapper.py 612, 643). -/
structure WriteOpts where
  nobackup : Bool
  stdout : Bool
  deriving DecidableEq, Repr

/-- `_compileOrFillBundle` (CheetahWrapper.py 602-660) once the output is there: the
operations on files. `shutil.copyfile` copies in pieces of its choice, `copyPieces`, and the
output reaches the file in pieces `outPieces`. Making directories (638-642) is left out. -/
def bundleOps (o : WriteOpts) (fs : FS) (dst bak : Str) (copyPieces : Str → List Str) (outPieces : List Str) :
    List Op :=
  (match fs dst with
    | some old => if o.nobackup then [] else writeOps bak (copyPieces old)
    | none => []) ++
  (if o.stdout then [] else writeOps dst outPieces)

/-- The file system after a list of operations (CheetahWrapper.py 636-660). -/
def applyOps (fs : FS) (ops : List Op) : FS := ops.foldl Op.apply fs

end Cheetah.Wrapper
