import Verif.Str
/-
Model of `escapeRegexChars` (Cheetah/Parser.py 37-42, and its copy in FileUtils.py 10-12),
and the part of CPython's `re` syntax that decides which characters of a pattern stand for
themselves (Lib/re/_parser.py, `Tokenizer` and `_parse`; trusted base).
-/
namespace Cheetah.RegexEsc

/-- The characters in the group of `escapeRE` (Parser.py 38). -/
def escaped : List Char := ['$', '^', '*', '+', '.', '?', '{', '}', '[', ']', '(', ')', '|', '\\']

/-- `escapeRE.sub(r'\\\1', txt)` (Parser.py 42): a backslash in front of each of them. -/
def escapeRegexChars (txt : Str) : Str :=
  txt.flatMap fun c => if c ∈ escaped then ['\\', c] else [c]

/-- A token of a pattern: a character that stands for itself, one with a special meaning,
or an escape with a special meaning. Python's own syntax; models no code in /repo (used by
the patterns of Parser.py 449-554). -/
inductive Tok where
  | lit (c : Char) | special (c : Char) | cls (c : Char)
  deriving DecidableEq, Repr

/-- `SPECIAL_CHARS` of CPython's pattern parser. Models no code in /repo (used by the
patterns of Parser.py 449-554). -/
def specialChars : List Char := ['.', '\\', '[', '{', '(', ')', '*', '+', '?', '^', '$', '|']

/-- ASCII letters and digits: a backslash before them is not a quotation. Models no code in
/repo (used by the patterns of Parser.py 449-554). -/
def isAlnum (c : Char) : Bool :=
  let n := c.toNat
  (48 ≤ n && n ≤ 57) || (65 ≤ n && n ≤ 90) || (97 ≤ n && n ≤ 122)

/-- The tokens of a pattern outside character classes, without the VERBOSE flag (which
/repo never uses); `none` if it ends in a backslash. Models no code in /repo (used by the
patterns of Parser.py 449-554). -/
def tokens : Str → Option (List Tok)
  | [] => some []
  | '\\' :: [] => none
  | '\\' :: c :: s => (tokens s).map ((if isAlnum c then .cls c else .lit c) :: ·)
  | c :: s => (tokens s).map ((if c ∈ specialChars then .special c else .lit c) :: ·)

end Cheetah.RegexEsc
