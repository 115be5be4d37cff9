import Verif.Str
/-
Model of TemplateCmdLineIface.py: a compiled template run as a script.
-/
namespace Cheetah.CmdLine

/-- What the script can read: the environment, files and standard input, as pickle (`false`) or as JSON (`true`); nothing where
reading raises an exception (TemplateCmdLineIface.py 53-79). `M` are the mappings, `σ` what is left of standard input. -/
structure World (M σ : Type) where
  environ : M
  file : Bool → Str → Option M
  stdin : Bool → σ → Option (M × σ)

/-- How a run ends: the usage is printed and the script ends with a status, an exception gets out, or the template is printed
with a search list (TemplateCmdLineIface.py 33-34, 42-51). -/
inductive Out (M : Type) where
  | usage (status : Nat)
  | raises
  | renders (searchList : List M)
  deriving DecidableEq

/-- The long options (TemplateCmdLineIface.py 39). -/
def longOpts : List Str := [c!"help", c!"env", c!"pickle=", c!"json="]

/-- `getopt.long_has_args` with these options: does the option take an argument, and its full name. Python library; used at
TemplateCmdLineIface.py 38. -/
def longHasArgs (opt : Str) : Option (Bool × Str) :=
  let possible := longOpts.filter fun o => opt.isPrefixOf o
  if opt ∈ possible then some (false, opt)
  else if opt ++ c!"=" ∈ possible then some (true, opt)
  else match possible with
    | [o] => if o.getLast? = some '=' then some (true, o.dropLast) else some (false, o)
    | _ => none

/-- `getopt.do_shorts` with the one short option `h` (TemplateCmdLineIface.py 39). -/
def shorts : Str → Option (List (Str × Str))
  | [] => some []
  | c :: cs => if c = 'h' then (shorts cs).map fun os => (c!"-h", []) :: os else none

/-- `getopt.getopt(args, 'h', [...])` (TemplateCmdLineIface.py 38-40); nothing for `GetoptError`, whose message is left out. -/
def getopt : List Str → Option (List (Str × Str) × List Str)
  | [] => some ([], [])
  | a :: rest =>
    if a.head? ≠ some '-' ∨ a = c!"-" then some ([], a :: rest)
    else if a = c!"--" then some ([], rest)
    else if (c!"--").isPrefixOf a then
      let opt := (a.drop 2).takeWhile (· != '=')
      let arg := ((a.drop 2).dropWhile (· != '=')).tail?
      match longHasArgs opt with
      | none => none
      | some (false, n) => if arg.isSome then none else (getopt rest).map fun r => ((c!"--" ++ n, []) :: r.1, r.2)
      | some (true, n) =>
        match arg, rest with
        | some v, rest => (getopt rest).map fun r => ((c!"--" ++ n, v) :: r.1, r.2)
        | none, [] => none
        | none, v :: rest => (getopt rest).map fun r => ((c!"--" ++ n, v) :: r.1, r.2)
    else
      match shorts (a.drop 1) with
      | none => none
      | some os => (getopt rest).map fun r => (os ++ r.1, r.2)

variable {M σ : Type}

/-- Reading a mapping (TemplateCmdLineIface.py 54-66, 67-79). -/
def load (w : World M σ) (json : Bool) (a : Str) (s : σ) : Option (M × σ) :=
  if a = c!"-" then w.stdin json s else (w.file json a).map fun m => (m, s)

/-- The loop over the options and the printing (TemplateCmdLineIface.py 30-34, 48-79); `sl` is the search list. -/
def act (w : World M σ) : List (Str × Str) → List M → σ → Out M × σ
  | [], sl, s => (.renders sl, s)
  | (o, a) :: os, sl, s =>
    if o = c!"-h" ∨ o = c!"--help" then (.usage 0, s)
    else if o = c!"--env" then act w os (w.environ :: sl) s
    else if o = c!"--pickle" then
      match load w false a s with
      | none => (.raises, s)
      | some (m, s) => act w os (m :: sl) s
    else if o = c!"--json" then
      match load w true a s with
      | none => (.raises, s)
      | some (m, s) => act w os (m :: sl) s
    else act w os sl s

/-- `run` (TemplateCmdLineIface.py 30-46). -/
def run (w : World M σ) (args : List Str) (sl : List M) (s : σ) : Out M × σ :=
  match getopt args with
  | none => (.usage 2, s)
  | some (os, _) => act w os sl s

end Cheetah.CmdLine
