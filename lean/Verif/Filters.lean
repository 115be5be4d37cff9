import Verif.PyStr
/-
Model of Cheetah/Filters.py and Cheetah/Utils/htmlEncode.py, htmlDecode.py.
Markdown and CodeHighlighter (third-party libraries) are not modelled.
-/
namespace Cheetah.Filters

/-- A value handed to a filter, on Python 3: None, a `str`, or another object with
the outcome of `str(obj)` (an exception it raises is passed on). -/
inductive Val where
  | none
  | text (s : Str)
  | obj (str : Except Str Str)
  deriving DecidableEq, Repr

/-- Filters.py 31-47 `Filter.filter` (Python 3: `unicode` is `str`). On
UnicodeDecodeError the code calls `str(val)` again, which on Python 3 is the same
call, so the outcome is that of the first one. -/
def filter : Val → Except Str Str
  | .none => .ok []
  | .text s => .ok s
  | .obj r => r

/-- Filters.py 126-133 `MaxLen.filter`; `maxlen` is the keyword argument if given. -/
def maxLen (maxlen : Option Int) (v : Val) : Except Str Str :=
  match filter v with
  | .error e => .error e
  | .ok output =>
    match maxlen with
    | some n => if (output.length : Int) > n then .ok (sliceTo output n) else .ok output
    | none => .ok output

/-- Filters.py 13 `webSafeEntities`, and 152-155. -/
def entity (k : Char) : Str :=
  if k = ' ' then c!"&nbsp;"
  else if k = '"' then c!"&quot;"
  else c!"&#" ++ decimal k.toNat ++ c!";"

/-- Filters.py 141-144: the substitutions always made. -/
def escapeBasic (s : Str) : Str :=
  replaceCh '>' c!"&gt;" (replaceCh '<' c!"&lt;" (replaceCh '&' c!"&amp;" s))

/-- Filters.py 146-157: `for k in also`. -/
def escapeAlso (also : List Char) (s : Str) : Str :=
  also.foldl (fun s k => replaceCh k (entity k) s) s

/-- Filters.py 139-157 `WebSafe.filter`, `also` being empty when not given. -/
def webSafe (also : List Char) (v : Val) : Except Str Str :=
  match filter v with
  | .error e => .error e
  | .ok s => .ok (escapeAlso also (escapeBasic s))

/-- Filters.py 184: `s.find('\n', start)`: what is before the first newline, and
what is after it. -/
def findNewline : Str → Option (Str × Str)
  | [] => none
  | c :: cs =>
    if c = '\n' then some ([], cs)
    else match findNewline cs with
      | none => none
      | some (a, b) => some (c :: a, b)

theorem findNewline_some {s a b : Str} (h : findNewline s = some (a, b)) :
    s = a ++ '\n' :: b ∧ '\n' ∉ a := by
  induction s generalizing a b with
  | nil => simp [findNewline] at h
  | cons c cs ih =>
    simp only [findNewline] at h
    by_cases hc : c = '\n'
    · rw [if_pos hc] at h; cases h; simp [hc]
    · rw [if_neg hc] at h
      cases hf : findNewline cs with
      | none => simp [hf] at h
      | some x =>
        obtain ⟨a', b'⟩ := x
        simp [hf] at h
        obtain ⟨rfl, rfl⟩ := h
        obtain ⟨h1, h2⟩ := ih hf
        simp [← h1, h2, Ne.symm hc]

/-- Filters.py 179-195, the loop of `Strip.filter`: `s` is `s[start:]`. The
termination argument is the model's, the loop has none. -/
def stripLoop (s : Str) : Str :=
  match h : findNewline s with
  | none => strip s
  | some (line, rest) => strip line ++ '\n' :: stripLoop rest
termination_by s.length
decreasing_by
  have := (findNewline_some h).1
  rw [this]; simp; omega

/-- Filters.py 178-195 `Strip.filter`. -/
def stripFilter (v : Val) : Except Str Str :=
  match filter v with
  | .error e => .error e
  | .ok s => .ok (stripLoop s)

/-- Filters.py 204-207 `StripSqueeze.filter`. -/
def stripSqueeze (v : Val) : Except Str Str :=
  match filter v with
  | .error e => .error e
  | .ok s => .ok (joinStr [' '] (pyWords s))

/-! ### htmlEncode / htmlDecode -/

/-- htmlEncode.py 7-12 `htmlCodes`. -/
def htmlCodes : List (Char × Str) :=
  [('&', c!"&amp;"), ('<', c!"&lt;"), ('>', c!"&gt;"), ('"', c!"&quot;")]

/-- htmlEncode.py 17-22. -/
def htmlEncode (s : Str) : Str :=
  htmlCodes.foldl (fun s code => replaceCh code.1 code.2 s) s

/-- htmlDecode.py 10-15, with htmlEncode.py 13-14 `htmlCodesReversed`. -/
def htmlDecode (s : Str) : Str :=
  htmlCodes.reverse.foldl (fun s code => replaceStr code.2 [code.1] s) s

end Cheetah.Filters
