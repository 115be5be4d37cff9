import Verif.Str
/-
Model of `Servlet.serverSidePath` (Servlet.py 36-46), which `Template` uses for the argument `file` and for `#include`
(Template.py 1634, 1675, 1705), with `os.path.normpath` and `os.path.abspath` of POSIX systems.
-/
namespace Cheetah.ServerPath

/-- One part of the path in the loop of `posixpath.normpath` (called in Servlet.py 42, 44); `rooted`: the path begins with a
slash; `done` are the parts so far, the last one first. -/
def part (rooted : Bool) (done : List Str) (c : Str) : List Str :=
  if c = [] ∨ c = c!"." then done
  else if c ≠ c!".." ∨ (rooted = false ∧ done = []) ∨ done.head? = some c!".." then c :: done
  else done.tail

/-- The slashes that `posixpath.normpath` keeps at the start (Servlet.py 42, 44): one or, where there are exactly two, two. -/
def slashes (p : Str) : Str :=
  if startsWith p c!"//" ∧ ¬ startsWith p c!"///" then c!"//" else if startsWith p c!"/" then c!"/" else []

/-- `posixpath.normpath` (called in Servlet.py 42, 44). -/
def normpath (p : Str) : Str :=
  if p = [] then c!"." else
  let s := slashes p ++ joinStr c!"/" ((splitCh '/' p).foldl (part (slashes p ≠ [])) []).reverse
  if s = [] then c!"." else s

/-- `posixpath.abspath` (called in Servlet.py 42, 44); `cwd` is the working directory. -/
def abspath (cwd p : Str) : Str :=
  if startsWith p c!"/" then normpath p
  else normpath (if cwd = [] ∨ cwd.getLast? = some '/' then cwd ++ p else cwd ++ '/' :: p)

/-- `serverSidePath` (Servlet.py 36-46); `filePath` is the attribute `_filePath`, if there is one. -/
def serverSidePath (cwd : Str) (filePath : Option Str) (path : Str) : Option Str :=
  if path ≠ [] then some (normpath (abspath cwd (replaceCh '\\' c!"/" path)))
  else
    match filePath with
    | some f => if f = [] then none else some (normpath (abspath cwd f))
    | none => none

end Cheetah.ServerPath
