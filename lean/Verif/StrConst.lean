import Verif.PyLit
/-
Model of how literal template text becomes a Python string literal:
Cheetah/Compiler.py 476-505 (MethodCompiler.commitStrConst) and
Cheetah/Parser.py 169 (escapedNewlineRE).
-/
namespace Cheetah.StrConst

/-- Match `((\\\\)*)\\(n|012)` (Parser.py 169) at the start: the first group, and the text
after the match. -/
def matchEsc : Str → Option (Str × Str)
  | '\\' :: '\\' :: s => (matchEsc s).map fun (g, r) => ('\\' :: '\\' :: g, r)
  | '\\' :: 'n' :: s => some ([], s)
  | '\\' :: '0' :: '1' :: '2' :: s => some ([], s)
  | _ => none

/-- `escapedNewlineRE.sub('\\1\n', s)` (Compiler.py 495). `prev` says whether the character
before the current position is a backslash (the lookbehind `(?<!\\)`). -/
def subNewlines : Nat → Bool → Str → Str
  | 0, _, _ => []
  | _ + 1, _, [] => []
  | n + 1, true, c :: s => c :: subNewlines n (c == '\\') s
  | n + 1, false, c :: s =>
    match matchEsc (c :: s) with
    | some (g, r) => g ++ '\n' :: subNewlines n false r
    | none => c :: subNewlines n (c == '\\') s

/-- Compiler.py 489-504: the expression written for the text `s`. Simplification:
Python 3, where `repr` of a string never starts with `u` (lines 491-493 do nothing). -/
def literal (p : Char → Bool) (s : Str) : Str :=
  let r := pyRepr p s
  let inner := (r.drop 1).dropLast
  let body := subNewlines (inner.length + 1) false inner
  if r.head? = some '\'' then c!"'''" ++ body ++ c!"'''"
  else c!"\"\"\"" ++ body ++ c!"\"\"\""

end Cheetah.StrConst
