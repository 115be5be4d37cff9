import Verif.Str
import Verif.Dict
import Verif.Wrapper
import Verif.ModuleName
/-
Model of importing templates by name: Cheetah/ImportHooks.py and the finders and the hook of Cheetah/ImportManager.py.
-/
namespace Cheetah.Imports
open Cheetah.Wrapper (join basename headPart)

/-! ### Files -/

/-- What `stat` and reading tell of a file (ImportManager.py 200-210, 221, 239); the time in seconds, as `st[8]`. -/
structure File where
  mtime : Nat
  data : Str
  deriving DecidableEq, Repr

/-- The files and directories an import can see (ImportManager.py 137-143, 200-203). Simplification: a path is a name, two spellings of one path are two paths. -/
structure FS where
  files : Dict Str File
  dirs : List Str
  cwd : Str
  deriving Repr

/-- `pathIsDir(p)` (ImportManager.py 137-143). -/
def FS.isDir (fs : FS) (p : Str) : Bool := decide (p ∈ fs.dirs)

/-- `os.path.exists(p)` (ImportHooks.py 63). -/
def FS.exists_ (fs : FS) (p : Str) : Bool := (fs.files.get p).isSome || fs.isDir p

/-- Writing a file now (ImportHooks.py 92-93; `py_compile.compile`, ImportManager.py 229 and ImportHooks.py 101). -/
def FS.write (fs : FS) (now : Nat) (p data : Str) : FS := { fs with files := fs.files.set p ⟨now, data⟩ }

/-- A module object (ImportManager.py 259-265, ImportHooks.py 106-111): its identity, `__file__`, its code (`none` for
extension and built-in modules), the directory in `__path__` of a package, and `__orig_file__`. -/
structure Mod where
  uid : Nat
  file : Str
  code : Option Str
  pkg : Option Str
  orig : Option Str
  deriving DecidableEq, Repr

/-- What a finder finds: a module without its identity (ImportManager.py 259-266, ImportHooks.py 106-112). -/
structure Loaded where
  file : Str
  code : Option Str
  pkg : Option Str := none
  orig : Option Str := none
  deriving DecidableEq, Repr

/-- Exceptions (ImportManager.py 221, 234-237, 501-502, 526-527; ImportHooks.py 66-73). -/
inductive Err where
  | syntax_ (file : Str)        -- `SyntaxError` from `compile`
  | notFound (name : Str)       -- `ModuleNotFoundError`
  | compile (name : Str)        -- `ModuleNotFoundError`, "Error while compiling Cheetah module"
  | type_                       -- `py[0]` where `py` is `None`
  | key (name : Str)            -- `KeyError`
  | index                       -- `nmparts[0]` of nothing
  | run                         -- what running the module raised
  deriving DecidableEq, Repr

/-- The state an import changes (ImportManager.py 360-375, 455, 542, 558-567): files, the owners remembered by the
director of `sys.path`, `sys.modules`, the attributes modules have, and the next identity. -/
structure St where
  fs : FS
  shadow : Dict Str (Option Str)
  mods : Dict Str (Option Mod)
  attrs : List (Nat × Str)
  next : Nat
  deriving Repr

/-- What stays outside (ImportManager.py 195, 227, 252, 281, 298-303, 563; ImportHooks.py 36, 51, 84): Python's compiler and marshalling, Cheetah's
compiler, what may be written, running a module, the lists of names and suffixes, `sys.path`, the time. -/
structure Env where
  now : Nat
  path : List Str
  builtin : Str → Bool                    -- built-in and frozen modules
  exts : List Str                         -- suffixes of extension modules
  tag : Str                               -- of byte-code files
  pyOk : Str → Bool
  dumps : Str → Str
  loads : Str → Option Str
  writable : Str → Bool
  tmplExts : List Str
  template : Str → Str → Option Str       -- name, text ↦ generated module
  cacheDirs : List Str                    -- what `setCacheDir` was called with
  exec : Str → Mod → St → St × Bool       -- `true`: it raised

/-- `cache_from_source(p)` (ImportManager.py 197, compat.py 77) for a path that ends with `.py`. -/
def Env.pyc (E : Env) (p : Str) : Str :=
  headPart p ++ c!"__pycache__/" ++ (basename p).take ((basename p).length - 3) ++ c!"." ++ E.tag ++ c!".pyc"

/-- What there is at a place (ImportManager.py 193-214). -/
inductive Found where
  | ext (file : Str)
  | python (py pyc : Option File)
  deriving DecidableEq, Repr

/-- The loop over the suffixes for one place (ImportManager.py 195-212). -/
def Env.probe (E : Env) (fs : FS) (pth : Str) : Found :=
  match E.exts.find? fun x => fs.exists_ (pth ++ x) with
  | some x => .ext (pth ++ x)
  | none => .python (fs.files.get (pth ++ c!".py")) (fs.files.get (E.pyc (pth ++ c!".py")))

/-- Compiling a source file (ImportManager.py 219-237). -/
def Env.source (E : Env) (fs : FS) (pth : Str) (py : File) (pkg : Option Str) : FS × Except Err (Option Loaded) :=
  let p := pth ++ c!".py"
  if E.pyOk py.data then
    (if E.writable (E.pyc p) then fs.write E.now (E.pyc p) (E.dumps py.data) else fs,
      .ok (some { file := p, code := some py.data, pkg := pkg }))
  else (fs, .error (.syntax_ p))

/-- The loop that chooses between source and byte code (ImportManager.py 215-266). -/
def Env.load (E : Env) (fs : FS) (pth : Str) (py pyc : Option File) (pkg : Option Str) : FS × Except Err (Option Loaded) :=
  match py, pyc with
  | none, none => (fs, .ok none)
  | some f, none => E.source fs pth f pkg
  | none, some c =>
    match E.loads c.data with
    | some code => (fs, .ok (some { file := E.pyc (pth ++ c!".py"), code := some code, pkg := pkg }))
    | none => (fs, .error .type_)
  | some f, some c =>
    if c.mtime < f.mtime then E.source fs pth f pkg
    else match E.loads c.data with
      | some code => (fs, .ok (some { file := E.pyc (pth ++ c!".py"), code := some code, pkg := pkg }))
      | none => E.source fs pth f pkg

/-- `possibles` (ImportManager.py 188-192). -/
def places (fs : FS) (dir nm : Str) : List (Str × Option Str) :=
  let pth := join dir nm
  (if fs.isDir pth then [(join pth c!"__init__", some pth)] else []) ++ [(pth, none)]

/-- The loop over `possibles` (ImportManager.py 193-216). -/
def Env.tryPlaces (E : Env) (fs : FS) : List (Str × Option Str) → FS × Except Err (Option Loaded)
  | [] => (fs, .ok none)
  | (pth, pkg) :: rest =>
    match E.probe fs pth with
    | .ext f => (fs, .ok (some { file := f, code := none }))
    | .python none none => E.tryPlaces fs rest
    | .python py pyc => E.load fs pth py pyc pkg

/-- `DirOwner.getmod` (ImportManager.py 185-266). -/
def Env.pyGetmod (E : Env) (fs : FS) (dir nm : Str) : FS × Except Err (Option Loaded) :=
  E.tryPlaces fs (places fs dir nm)

/-- `os.path.splitext(p)[0]` (ImportHooks.py 90): dots at the beginning of a name do not begin a suffix. -/
def stem (p : Str) : Str :=
  match ModuleName.lastDot (basename p) (basename p).length with
  | some i => if ((basename p).take i).all (· == '.') then p else headPart p ++ (basename p).take i
  | none => p

/-- The file the generated module goes to (ImportHooks.py 39-40, 86-90). -/
def Env.target (E : Env) (tmplPath : Str) : Str :=
  match E.cacheDirs.head? with
  | some d => join d (ModuleName.convertTmplPathToModuleName tmplPath) ++ c!".py"
  | none => stem tmplPath ++ c!".py"

/-- `CheetahDirOwner._compile` (ImportHooks.py 79-112) within the `try` of `getmod` (64-73). -/
def Env.compile (E : Env) (fs : FS) (nm tmplPath : Str) : FS × Except Err (Option Loaded) :=
  match (fs.files.get tmplPath).bind fun f => E.template nm f.data with
  | none => (fs, .error (.compile nm))
  | some code =>
    let p := E.target tmplPath
    let w := E.writable p
    let fs := if w then fs.write E.now p code else fs
    let fs := if w && E.pyOk code && E.writable (E.pyc p) then fs.write E.now (E.pyc p) (E.dumps code) else fs
    if E.pyOk code then
      (fs, .ok (some { file := if w then p else tmplPath, code := some code, orig := E.cacheDirs.head?.map fun _ => tmplPath }))
    else (fs, .error (.compile nm))

/-- The loop over the suffixes of templates (ImportHooks.py 61-74). -/
def Env.tryTemplates (E : Env) (fs : FS) (dir nm : Str) : List Str → FS × Except Err (Option Loaded)
  | [] => (fs, .ok none)
  | x :: rest =>
    if fs.exists_ (join dir (nm ++ x)) then E.compile fs nm (join dir (nm ++ x)) else E.tryTemplates fs dir nm rest

/-- `CheetahDirOwner.getmod` (ImportHooks.py 54-77). -/
def Env.getmod (E : Env) (fs : FS) (dir nm : Str) : FS × Except Err (Option Loaded) :=
  match E.pyGetmod fs dir nm with
  | (fs, .ok none) => E.tryTemplates fs dir nm E.tmplExts
  | r => r

/-! ### Directors -/

/-- `_makeOwner` with the owner types of an installed hook (ImportManager.py 392-407, 178-183): a directory, or an owner that never finds anything. -/
def FS.owner (fs : FS) (thing : Str) : Option Str :=
  let p := if thing = [] then fs.cwd else thing
  if fs.isDir p then some p else none

/-- The owner of an entry of `sys.path`, remembered for ever (ImportManager.py 380-385). -/
def St.owner (s : St) (thing : Str) : St × Option Str :=
  match s.shadow.get thing with
  | some o => (s, o)
  | none => ({ s with shadow := s.shadow.set thing (s.fs.owner thing) }, s.fs.owner thing)

/-- `PathImportDirector.getmod` (ImportManager.py 377-390) for `sys.path`. -/
def Env.pathGetmod (E : Env) (nm : Str) : List Str → St → St × Except Err (Option Loaded)
  | [], s => (s, .ok none)
  | t :: ts, s =>
    match s.owner t with
    | (s, none) => E.pathGetmod nm ts s
    | (s, some d) =>
      match E.getmod s.fs d nm with
      | (fs, .ok none) => E.pathGetmod nm ts { s with fs := fs }
      | (fs, r) => ({ s with fs := fs }, r)

/-- The first half of `doimport` (ImportManager.py 533-556): asking the package, or the directors one after the other.
Simplification: the owner of the directory of a package is made anew each time. -/
def Env.find (E : Env) (nm : Str) (parent : Option (Mod × Str)) (s : St) : St × Except Err (Option Loaded) :=
  match parent with
  | some (m, d) =>
    match s.fs.owner d with
    | none => (s, .ok none)
    | some d =>
      match E.getmod s.fs d nm with
      | (fs, .ok (some l)) => ({ s with fs := fs, attrs := (m.uid, nm) :: s.attrs }, .ok (some l))
      | (fs, r) => ({ s with fs := fs }, r)
  | none => if E.builtin nm then (s, .ok (some { file := [], code := none })) else E.pathGetmod nm E.path s

/-- The second half of `doimport` (ImportManager.py 557-568): the module is entered, then run. -/
def Env.enter (E : Env) (fq : Str) (l : Loaded) (s : St) : St × Except Err (Option Mod) :=
  let m : Mod := ⟨s.next, l.file, l.code, l.pkg, l.orig⟩
  let s := { s with mods := s.mods.set fq (some m), next := s.next + 1 }
  match m.code with
  | none => (s, .ok (some m))
  | some _ =>
    match E.exec fq m s with
    | (s, true) => (s, .error .run)
    | (s, false) => (s, .ok (some m))

/-- `doimport` (ImportManager.py 530-568). -/
def Env.doimport (E : Env) (nm : Str) (parent : Option Str) (fq : Str) (s : St) : St × Except Err (Option Mod) :=
  let finish (r : St × Except Err (Option Loaded)) : St × Except Err (Option Mod) :=
    match r with
    | (s, .error e) => (s, .error e)
    | (s, .ok none) => ({ s with mods := s.mods.set fq none }, .ok none)
    | (s, .ok (some l)) => E.enter fq l s
  match parent with
  | none => finish (E.find nm none s)
  | some p =>
    match s.mods.get p with
    | some (some m) =>
      match m.pkg with
      | some d => finish (E.find nm (some (m, d)) s)
      | none => (s, .ok none)
    | some none => (s, .ok none)
    | none => (s, .error (.key p))

/-! ### The hook -/

/-- `ctx + '.' + nm` (ImportManager.py 477-480). -/
def qual (ctx : Option Str) (nm : Str) : Str :=
  match ctx with
  | some c => c ++ '.' :: nm
  | none => nm

/-- Where the loop over the parts of a name got to (ImportManager.py 473-494): how many parts were found, the last one's full
name, and, unless all were found, the full name of the first one missing. -/
structure Walk where
  i : Nat
  ctx : Option Str
  missing : Option Str
  deriving DecidableEq, Repr

/-- The loop over the parts of a name (ImportManager.py 473-494). -/
def Env.walk (E : Env) : Option Str → List Str → Nat → St → St × Except Err Walk
  | ctx, [], i, s => (s, .ok ⟨i, ctx, none⟩)
  | ctx, nm :: rest, i, s =>
    match s.mods.get (qual ctx nm) with
    | some (some _) => E.walk (some (qual ctx nm)) rest (i + 1) s
    | some none => (s, .ok ⟨i, ctx, some (qual ctx nm)⟩)
    | none =>
      match E.doimport nm ctx (qual ctx nm) s with
      | (s, .error e) => (s, .error e)
      | (s, .ok none) => (s, .ok ⟨i, ctx, some (qual ctx nm)⟩)
      | (s, .ok (some _)) => E.walk (some (qual ctx nm)) rest (i + 1) s

/-- The loop over the contexts (ImportManager.py 472-496). -/
def Env.contexts (E : Env) (parts : List Str) : List (Option Str) → St → St × Except Err (Option Str × Walk)
  | [], s => (s, .error .index)
  | [c], s =>
    match E.walk c parts 0 s with
    | (s, .error e) => (s, .error e)
    | (s, .ok w) => (s, .ok (c, w))
  | c :: cs, s =>
    match E.walk c parts 0 s with
    | (s, .error e) => (s, .error e)
    | (s, .ok w) => if w.i > 0 ∨ w.missing = none then (s, .ok (c, w)) else E.contexts parts cs s

/-- `sys.modules[k]` (ImportManager.py 500, 505-507). -/
def St.module (s : St) (k : Str) : Except Err (Option Mod) :=
  match s.mods.get k with
  | some m => .ok m
  | none => .error (.key k)

/-- `hasattr(sys.modules[ctx], nm)` (ImportManager.py 499, 519); `None` has none of these attributes. -/
def St.hasattr (s : St) (ctx nm : Str) : Bool :=
  match s.mods.get ctx with
  | some (some m) => decide ((m.uid, nm) ∈ s.attrs)
  | _ => false

/-- The loop over `fromlist` (ImportManager.py 508-527). Simplification: no `*` in it. -/
def Env.fromLoop (E : Env) (ctx : Str) : List Str → St → St × Except Err Unit
  | [], s => (s, .ok ())
  | nm :: rest, s =>
    if s.hasattr ctx nm then E.fromLoop ctx rest s
    else match E.doimport nm (some ctx) (qual (some ctx) nm) s with
      | (s, .error e) => (s, .error e)
      | (s, .ok none) => (s, .error (.notFound nm))
      | (s, .ok (some _)) => E.fromLoop ctx rest s

/-- `contexts` (ImportManager.py 456-465), on Python 3: `importer` is `globals['__name__']`, if there are globals. -/
def contextsOf (s : St) (name : Str) (level : Int) (importer : Option Str) : List (Option Str) :=
  match importer with
  | some g =>
    if (name = [] ∨ level > 0) ∧ g ≠ [] then
      match s.mods.get g with
      | some (some ⟨_, _, _, some _, _⟩) => [some g, none]
      | _ => if ModuleName.packageName g ≠ [] then [some (ModuleName.packageName g), none] else [none]
    else [none]
  | none => [none]

/-- `importHook` (ImportManager.py 446-528). -/
def Env.importHook (E : Env) (name : Str) (importer : Option Str) (fromlist : Option (List Str)) (level : Int) (s : St) :
    St × Except Err (Option Mod) :=
  let parts := ModuleName.nameSplit name
  match E.contexts parts (contextsOf s name level importer) s with
  | (s, .error e) => (s, .error e)
  | (s, .ok (context, w)) =>
    match w.missing with
    | some fq =>
      if w.ctx.any fun c => s.hasattr c (parts.getD w.i []) then (s, s.module (parts.headD []))
      else match s.mods.get fq with
        | some _ => ({ s with mods := s.mods.del fq }, .error (.notFound fq))
        | none => (s, .error (.key fq))
    | none =>
      match fromlist with
      | none =>
        match parts with
        | [] => (s, .error .index)
        | p :: _ => (s, s.module (qual context p))
      | some names =>
        match w.ctx with
        | none => (s, .error (.key []))
        | some c =>
          match s.module c with
          | .error e => (s, .error e)
          | .ok m =>
            match m.bind Mod.pkg with
            | none => (s, .ok m)
            | some _ =>
              match E.fromLoop c names s with
              | (s, .error e) => (s, .error e)
              | (s, .ok ()) => (s, .ok m)

/-- `reloadHook` (ImportManager.py 570-575), as far as `sys.modules` goes; the dictionary of the old module gets what the new one has. -/
def Env.reload (E : Env) (fq : Str) (s : St) : St × Except Err (Option Mod) :=
  let pkg := ModuleName.packageName fq
  E.doimport ((ModuleName.nameSplit fq).getLastD []) (if pkg = [] then none else some pkg) fq s

end Cheetah.Imports
