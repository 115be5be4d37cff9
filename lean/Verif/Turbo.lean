import Verif.Str
/-
Model of the template loader for TurboGears, `TurboCheetah.load_template` and `load_template_module`
(Tools/turbocheetah/cheetahsupport.py 11-24, 38-100), with the files and the modules of Python as state.
-/
namespace Cheetah.Turbo

/-- A template file (cheetahsupport.py 12, 79, 88): the time of its last change and its text. -/
structure File where
  mtime : Nat
  source : Str
  deriving DecidableEq, Repr

/-- What is raised in cheetahsupport.py 12-20, 48-53, 71, 79-92, 97, 100. -/
inductive Err where
  | typeError
  | valueError
  | osError
  | keyError
  | importError
  | badTemplate
  | notImplemented
  deriving DecidableEq, Repr

/-- The state: the template files, `compiledTemplates` (cheetahsupport.py 35) and those modules of `sys.modules` (23, 82) that are
called like templates. `C` are the classes. -/
structure St (C : Type) where
  files : Str → Option File
  times : Str → Option Nat
  modules : Str → Option C

/-- What does not change: `compile` stands for the compilation and execution of a text in cheetahsupport.py 12-20, `none` for an
exception there; `disk` are the Python modules that an import finds outside `sys.modules` (86, 92); `precompiled` is the option
`cheetah.precompiled` (73). -/
structure Env (C : Type) where
  compile : Str → Option C
  disk : Str → Option C
  precompiled : Bool

/-- A function with one place changed. Python built-in (assignment to a key, cheetahsupport.py 23, 81, 82, 88). -/
def put {B : Type} (f : Str → B) (k : Str) (b : B) : Str → B := fun x => if x = k then b else f x

/-- `_recompile_template` (cheetahsupport.py 11-24). -/
def recompile {C : Type} (e : Env C) (s : St C) (name : Str) (f : File) : Except Err C × St C :=
  match e.compile f.source with
  | none => (.error .badTemplate, s)
  | some c => (.ok c, { s with modules := put s.modules name (some c) })

/-- `__import__` (cheetahsupport.py 86, 92). -/
def import_ {C : Type} (e : Env C) (s : St C) (name : Str) : Except Err C × St C :=
  match s.modules name with
  | some c => (.ok c, s)
  | none =>
    match e.disk name with
    | some c => (.ok c, { s with modules := put s.modules name (some c) })
    | none => (.error .importError, s)

/-- `load_template_module` (cheetahsupport.py 62-94). Simplification: the file does not change between `os.stat` (79, 88) and its reading (12). -/
def loadModule {C : Type} (e : Env C) (s : St C) (name : Str) : Except Err C × St C :=
  if '.' ∉ name then (.error .valueError, s)
  else if e.precompiled then import_ e s name
  else
    match s.times name with
    | some t =>
      match s.files name with
      | none => (.error .osError, s)
      | some f =>
        if t ≠ f.mtime then
          let s1 := { s with times := put s.times name (some f.mtime) }
          match s.modules name with
          | none => (.error .keyError, s1)
          | some _ => recompile e { s1 with modules := put s.modules name none } name f
        else import_ e s name
    | none =>
      match s.files name with
      | none => (.error .osError, s)
      | some f => recompile e { s with times := put s.times name (some f.mtime) } name f

/-- `load_template` (cheetahsupport.py 38-60, 96-100): the arguments are the name of a template, its text and its file; empty texts are
like missing ones. -/
def load {C : Type} (e : Env C) (s : St C) (template text file : Str) : Except Err C × St C :=
  if ([template, text, file].filter (· ≠ [])).length ≠ 1 then (.error .typeError, s)
  else if template ≠ [] then loadModule e s template
  else (.error .notImplemented, s)

end Cheetah.Turbo
