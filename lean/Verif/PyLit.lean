import Verif.PyStr
/-
Python's `repr` of a string and the reading of triple-quoted string literals.
These transcribe CPython (unicode_repr in Objects/unicodeobject.c; the Language
Reference, "String and Bytes literals"); they are part of the trusted base.
Simplification: a `Char` is a Unicode scalar value, so lone surrogates (which a Python
`str` may hold) are outside the model.
-/
namespace Cheetah

/-! ### Hexadecimal escapes -/

/-- Python's own `repr` and literals; models no code in /repo (used by Compiler.py 476-505, 1478-1502). -/
def hexDigit (n : Nat) : Char := if n < 10 then Char.ofNat (48 + n) else Char.ofNat (87 + n)

/-- `n` as `w` lower-case hexadecimal digits.
Python's own `repr` and literals; models no code in /repo (used by Compiler.py 476-505, 1478-1502). -/
def hex : Nat → Nat → Str
  | 0, _ => []
  | w + 1, n => hex w (n / 16) ++ [hexDigit (n % 16)]

/-- Python's own `repr` and literals; models no code in /repo (used by Compiler.py 476-505, 1478-1502). -/
def hexVal (c : Char) : Option Nat :=
  if 48 ≤ c.toNat ∧ c.toNat ≤ 57 then some (c.toNat - 48)
  else if 97 ≤ c.toNat ∧ c.toNat ≤ 102 then some (c.toNat - 87)
  else if 65 ≤ c.toNat ∧ c.toNat ≤ 70 then some (c.toNat - 55)
  else none

/-- Read exactly `w` hexadecimal digits.
Python's own `repr` and literals; models no code in /repo (used by Compiler.py 476-505, 1478-1502). -/
def readHex : Nat → Nat → Str → Option (Nat × Str)
  | 0, acc, s => some (acc, s)
  | _ + 1, _, [] => none
  | w + 1, acc, c :: s =>
    match hexVal c with
    | none => none
    | some v => readHex w (acc * 16 + v) s

/-! ### repr -/

/-- `str.isprintable` of one character: CPython takes it from the Unicode database. All
that the model assumes is what the database says about ASCII.
Python's own `repr` and literals; models no code in /repo (used by Compiler.py 476-505, 1478-1502). -/
structure Printable (p : Char → Bool) : Prop where
  ascii : ∀ c : Char, 32 ≤ c.toNat → c.toNat < 127 → p c = true
  control : ∀ c : Char, c.toNat < 32 ∨ c.toNat = 127 → p c = false

/-- The quote `repr` uses: `'`, unless the text holds a `'` and no `"`.
Python's own `repr` and literals; models no code in /repo (used by Compiler.py 476-505, 1478-1502). -/
def reprQuote (s : Str) : Char := if '\'' ∈ s ∧ '"' ∉ s then '"' else '\''

/-- One character of a `repr` with quote `q`.
Python's own `repr` and literals; models no code in /repo (used by Compiler.py 476-505, 1478-1502). -/
def reprChar (p : Char → Bool) (q c : Char) : Str :=
  if c = q ∨ c = '\\' then ['\\', c]
  else if c = '\t' then c!"\\t"
  else if c = '\n' then c!"\\n"
  else if c = '\r' then c!"\\r"
  else if p c then [c]
  else if c.toNat < 256 then c!"\\x" ++ hex 2 c.toNat
  else if c.toNat < 65536 then c!"\\u" ++ hex 4 c.toNat
  else c!"\\U" ++ hex 8 c.toNat

/-- `repr(s)`.
Python's own `repr` and literals; models no code in /repo (used by Compiler.py 476-505, 1478-1502). -/
def pyRepr (p : Char → Bool) (s : Str) : Str :=
  let q := reprQuote s
  [q] ++ s.flatMap (reprChar p q) ++ [q]

/-! ### Reading a triple-quoted literal -/

/-- What the tokenizer does next inside a literal.
Python's own `repr` and literals; models no code in /repo (used by Compiler.py 476-505, 1478-1502). -/
inductive Lex where
  | stop (rest : Str)
  | char (out : Str) (rest : Str)
  | bad
  deriving DecidableEq, Repr

/-- Python's own `repr` and literals; models no code in /repo (used by Compiler.py 476-505, 1478-1502). -/
def isOct (c : Char) : Bool := 48 ≤ c.toNat && c.toNat ≤ 55

/-- The code point `n` as one character; out of range is a syntax error.
Python's own `repr` and literals; models no code in /repo (used by Compiler.py 476-505, 1478-1502). -/
def codePoint (n : Nat) (rest : Str) : Lex :=
  if n < 0xD800 ∨ (0xDFFF < n ∧ n < 0x110000) then .char [Char.ofNat n] rest else .bad

/-- One to three octal digits after a backslash.
Python's own `repr` and literals; models no code in /repo (used by Compiler.py 476-505, 1478-1502). -/
def octal : Str → Lex
  | a :: b :: c :: s =>
    if isOct b then
      if isOct c then codePoint ((a.toNat - 48) * 64 + (b.toNat - 48) * 8 + (c.toNat - 48)) s
      else codePoint ((a.toNat - 48) * 8 + (b.toNat - 48)) (c :: s)
    else codePoint (a.toNat - 48) (b :: c :: s)
  | [a, b] =>
    if isOct b then codePoint ((a.toNat - 48) * 8 + (b.toNat - 48)) []
    else codePoint (a.toNat - 48) [b]
  | [a] => codePoint (a.toNat - 48) []
  | [] => .bad

/-- Python's own `repr` and literals; models no code in /repo (used by Compiler.py 476-505, 1478-1502). -/
def hexEsc (w : Nat) (s : Str) : Lex :=
  match readHex w 0 s with
  | some (n, rest) => codePoint n rest
  | none => .bad

/-- The newline after a carriage return belongs to it.
Python's own `repr` and literals; models no code in /repo (used by Compiler.py 476-505, 1478-1502). -/
def skipLF : Str → Str
  | '\n' :: s => s
  | s => s

/-- An escape sequence; the backslash has been read. `\N{...}` is not modelled.
Python's own `repr` and literals; models no code in /repo (used by Compiler.py 476-505, 1478-1502). -/
def escape : Str → Lex
  | [] => .bad
  | c :: s =>
    if c = '\n' then .char [] s
    else if c = '\r' then .char [] (skipLF s)
    else if c = '\\' ∨ c = '\'' ∨ c = '"' then .char [c] s
    else if c = 'a' then .char [Char.ofNat 7] s
    else if c = 'b' then .char [Char.ofNat 8] s
    else if c = 'f' then .char [Char.ofNat 12] s
    else if c = 'n' then .char ['\n'] s
    else if c = 'r' then .char ['\r'] s
    else if c = 't' then .char ['\t'] s
    else if c = 'v' then .char [Char.ofNat 11] s
    else if c = 'x' then hexEsc 2 s
    else if c = 'u' then hexEsc 4 s
    else if c = 'U' then hexEsc 8 s
    else if c = 'N' then .bad
    else if isOct c then octal (c :: s)
    else .char ['\\', c] s

/-- One step inside a literal quoted by three `q`. A carriage return in the source text is
read as a newline (universal newlines); a null character is refused.
Python's own `repr` and literals; models no code in /repo (used by Compiler.py 476-505, 1478-1502). -/
def lexStep (q : Char) : Str → Lex
  | [] => .bad
  | c :: s =>
    if c = q ∧ startsWith s [q, q] then .stop (s.drop 2)
    else if c = '\\' then escape s
    else if c = '\r' then .char ['\n'] (skipLF s)
    else if c.toNat = 0 then .bad
    else .char [c] s

/-- The rest of a literal: its value and the source text after it. Every step consumes
at least one character; `fuel` is the length of the source.
Python's own `repr` and literals; models no code in /repo (used by Compiler.py 476-505, 1478-1502). -/
def lexBody (q : Char) : Nat → Str → Option (Str × Str)
  | 0, _ => none
  | fuel + 1, s =>
    match lexStep q s with
    | .bad => none
    | .stop rest => some ([], rest)
    | .char out rest => (lexBody q fuel rest).map fun (v, r) => (out ++ v, r)

/-- Read a triple-quoted literal at the start of a source text: its value and what
follows it.
Python's own `repr` and literals; models no code in /repo (used by Compiler.py 476-505, 1478-1502). -/
def lexTriple : Str → Option (Str × Str)
  | a :: b :: c :: s =>
    if (a = '\'' ∨ a = '"') ∧ b = a ∧ c = a then lexBody a (s.length + 1) s else none
  | _ => none

end Cheetah
