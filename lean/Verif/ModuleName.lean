import Verif.Str
/-
Model of Cheetah/convertTmplPathToModuleName.py and of the name helpers of
Cheetah/ImportManager.py (77-134).
-/
namespace Cheetah.ModuleName

/-- `string.digits + string.ascii_letters` (convertTmplPathToModuleName.py 7, 12). -/
def wordChars : Str := c!"0123456789abcdefghijklmnopqrstuvwxyzABCDEFGHIJKLMNOPQRSTUVWXYZ"

/-- The table `_pathNameTransChars` (convertTmplPathToModuleName.py 11-14): 256 underscores,
then each digit and letter put at its own place. -/
def table : Str := wordChars.foldl (fun t c => t.set c.toNat c) (List.replicate 256 '_')

/-- `str.translate` with a string as table (convertTmplPathToModuleName.py 23-26): a
character beyond the table's end stays. -/
def translate (table s : Str) : Str := s.map fun c => table.getD c.toNat c

/-- `os.path.splitdrive(p)[1]` (convertTmplPathToModuleName.py 23). Simplification: POSIX,
where no path has a drive. -/
def withoutDrive (p : Str) : Str := p

/-- `convertTmplPathToModuleName(tmplPath)` (convertTmplPathToModuleName.py 18-27). On
Python 3 `translate` raises neither UnicodeError nor TypeError here. -/
def convertTmplPathToModuleName (p : Str) : Str := translate table (withoutDrive p)

/-! ### ImportManager.py -/

/-- The largest index below `n` with a dot: the loops at ImportManager.py 110-114 and
131-134, which count down. -/
def lastDot (s : Str) : Nat → Option Nat
  | 0 => none
  | i + 1 => if s[i]? = some '.' then some i else lastDot s i

/-- `packageName(s)` (ImportManager.py 109-115). -/
def packageName (s : Str) : Str :=
  match lastDot s s.length with
  | some i => s.take i
  | none => []

/-- `getPathExt(fnm)` (ImportManager.py 130-134). -/
def getPathExt (s : Str) : Str :=
  match lastDot s s.length with
  | some i => s.drop i
  | none => []

/-- The loop of `nameSplit` (ImportManager.py 121-124) from index `j`, with the start `i` of
the current piece; returns the pieces and the final `i`. -/
def splitLoop (s : Str) : Nat → Nat → Nat → List Str → List Str × Nat
  | 0, _, i, acc => (acc, i)
  | n + 1, j, i, acc =>
    if s[j]? = some '.' then splitLoop s n (j + 1) (j + 1) (acc ++ [(s.drop i).take (j - i)])
    else splitLoop s n (j + 1) i acc

/-- `nameSplit(s)` (ImportManager.py 118-127). -/
def nameSplit (s : Str) : List Str :=
  let (acc, i) := splitLoop s s.length 0 0 []
  if i < s.length then acc ++ [s.drop i] else acc

end Cheetah.ModuleName
