import Verif.Str
import Verif.PyStr
import Verif.Dict
import Verif.Indenter
/-
Model of Cheetah/FileUtils.py: `FileFinder` (57-116) and `SourceFileStats` (306-365).
-/
namespace Cheetah.FileTools

/-! ### `FileFinder` -/

/-- A directory, as `os.listdir` and `os.path.isdir` show it (FileUtils.py 97, 99): its
entries in order, a file or a directory each. Simplification: a finite tree, so no links
back up; unchanged during the walk. -/
inductive Dir
  | nil
  | file (name : Str) (rest : Dir)
  | sub (name : Str) (d : Dir) (rest : Dir)
  deriving DecidableEq, Repr

/-- A path below the root, by components (FileUtils.py 98, 113: `os.path.join`). -/
abbrev Path := List Str

/-- What `os.listdir(dir)` gives (FileUtils.py 97, and `glob`, 113). -/
def Dir.names : Dir → List Str
  | .nil => []
  | .file n r => n :: r.names
  | .sub n _ r => n :: r.names

/-- A finder: its patterns, how a pattern matches an entry's name, and what it ignores
(FileUtils.py 62-72). Simplification: `glob` is given by `glob1`, the match of one name,
and treats no character of the directory's own path as a wildcard. -/
structure Finder (π : Type) where
  patterns : List π
  glob1 : π → Str → Bool
  ignoreBasenames : List Str
  ignoreDirs : List Path

variable {π : Type} (f : Finder π)

/-- `filterDir(baseName, fullPath)` (FileUtils.py 103-108). -/
def filterDir (baseName : Str) (fullPath : Path) : Bool :=
  !(decide (baseName ∈ f.ignoreBasenames) || decide (fullPath ∈ f.ignoreDirs))

/-- `processDir(dir)` (FileUtils.py 110-113): the matches of each pattern in turn. -/
def processDir (p : Path) (d : Dir) : List Path :=
  f.patterns.flatMap fun pat => (d.names.filter (f.glob1 pat)).map fun n => p ++ [n]

/-- The directories the inner loop appends (FileUtils.py 97-101), in order. -/
def subDirs (p : Path) : Dir → List (Path × Dir)
  | .nil => []
  | .file _ r => subDirs p r
  | .sub n d r => if filterDir f n (p ++ [n]) then (p ++ [n], d) :: subDirs p r else subDirs p r

/-- The loop of `walkDirTree` (FileUtils.py 91-101). `pendingDirs` is kept with its end
first, as `pop` takes the last. The first argument bounds the rounds. -/
def walk : Nat → List (Path × Dir) → List Path → List Path
  | 0, _, files => files
  | _ + 1, [], files => files
  | n + 1, (p, d) :: pending, files =>
    walk n ((subDirs f p d).reverse ++ pending) (files ++ processDir f p d)

/-- The number of directories in a tree, a bound for the rounds of `walk`
(FileUtils.py 91). -/
def Dir.count : Dir → Nat
  | .nil => 1
  | .file _ r => r.count
  | .sub _ d r => d.count + r.count

/-- `FileFinder(root, ...).files()` (FileUtils.py 62-74, 115-116). -/
def findFiles (root : Dir) : List Path := walk f (root.count + 1) [([], root)] []

/-! ### `SourceFileStats` -/

/-- The counters of one file, or of all (FileUtils.py 332-336, 359-363). -/
structure Stats where
  codeLines : Nat
  blankLines : Nat
  commentLines : Nat
  totalLines : Nat
  deriving DecidableEq, Repr

/-- `re.compile(r'\s#.*$').match(line)` (FileUtils.py 346, 352), on a line without a line
end. -/
def isComment : Str → Bool
  | c :: d :: _ => isSpace c && decide (d = '#')
  | _ => false

/-- `re.compile(r'\s$').match(line)` (FileUtils.py 347, 354), on a line without a line end. -/
def isBlank : Str → Bool
  | [c] => isSpace c
  | _ => false

/-- One round of the loop (FileUtils.py 351-357). -/
def countLine (s : Stats) (line : Str) : Stats :=
  if isComment line then { s with commentLines := s.commentLines + 1 }
  else if isBlank line then { s with blankLines := s.blankLines + 1 }
  else { s with codeLines := s.codeLines + 1 }

/-- `getFileStats` (FileUtils.py 342-365), from the text of the file. -/
def getFileStats (text : Str) : Stats :=
  let lines := Indent.splitlines text
  lines.foldl countLine ⟨0, 0, 0, lines.length⟩

/-- `__init__` (FileUtils.py 313-316), with `read` for the text of a file. -/
def fileStats (read : Str → Str) (files : List Str) : Dict Str Stats :=
  files.foldl (fun d f => Dict.set d f (getFileStats (read f))) []

/-- `summary()` (FileUtils.py 321-337). -/
def summary (d : Dict Str Stats) : Stats :=
  d.foldl (fun s e => ⟨s.codeLines + e.2.codeLines, s.blankLines + e.2.blankLines,
    s.commentLines + e.2.commentLines, s.totalLines + e.2.totalLines⟩) ⟨0, 0, 0, 0⟩

end Cheetah.FileTools
