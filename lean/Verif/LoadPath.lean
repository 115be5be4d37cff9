import Verif.Wrapper
import Verif.ImportHooks
/-
Model of `loadTemplateModule` (LoadTemplate.py 7-41): where a template is looked for, and what becomes of
`sys.modules`. The search in the directory is in `Imports`. POSIX: no drives, `os.sep` is a slash. The directory
is taken to exist (ImportManager.py 181-182 raises otherwise).
-/
namespace Cheetah.LoadPath

/-- The list of LoadTemplate.py 26-27: empty parts go, except for the first one. -/
def keep : List Str → List Str
  | [] => []
  | d :: ds => d :: ds.filter (· ≠ [])

/-- LoadTemplate.py 23-28: the directory without repeated slashes. -/
def clean (dir : Str) : Str := if dir = [] then [] else joinStr c!"/" (keep (splitCh '/' dir))

/-- The directory in which the template is looked for (LoadTemplate.py 21, 23-29; ImportManager.py 179-180: an empty path is the working
directory). -/
def searched (cwd path : Str) : Str :=
  let d := clean (Wrapper.dirname path)
  if d = [] then cwd else d

/-- The name of the module (LoadTemplate.py 21-22). -/
def moduleName (path : Str) : Str := Imports.stem (Wrapper.basename path)

/-- The suffix, if one is given (LoadTemplate.py 22, 30-31). -/
def suffix (path : Str) : Option Str :=
  let e := (Wrapper.basename path).drop (moduleName path).length
  if e = [] then none else some e

/-- What is raised in LoadTemplate.py 33-40. -/
inductive Err where
  | notFound
  | fromTemplate
  deriving DecidableEq, Repr

/-- `loadTemplateModule` (LoadTemplate.py 20-41). `find` stands for `getmod` in a directory, for a suffix and a name (33), `runs` says
whether the module's code runs to its end (40). The modules are those of `sys.modules`. -/
def load {M : Type} (find : Str → Option Str → Str → Option M) (runs : M → Bool) (cwd : Str) (modules : Str → Option M) (path : Str) :
    Except Err M × (Str → Option M) :=
  match find (searched cwd path) (suffix path) (moduleName path) with
  | none => (.error .notFound, modules)
  | some m =>
    let modules' := fun n => if n = moduleName path then some m else modules n
    if runs m then (.ok m, modules') else (.error .fromTemplate, modules')

end Cheetah.LoadPath
