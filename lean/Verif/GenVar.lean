import Verif.NameMapper
/-
Model of the code generated for a placeholder: the splitting into chunks in
Cheetah/Parser.py 911-968 (getCheetahVarNameChunks) and Cheetah/Compiler.py 187-321
(genCheetahVar, genPlainVar, genNameMapperVar).  The call arguments and subscripts are
opaque text here; reading them is modelled in Verif.Parser.
-/
namespace Cheetah.GenVar
open NameMapper

/-- One element of `nameChunks`: (namemapperPart, autoCall, restOfName).
Models Parser.py 912-925. -/
structure Chunk where
  name : Str
  ac : Bool
  rest : Str
  deriving DecidableEq, Repr

/-- `s.rfind(c)`; `none` is -1. -/
def rfind (c : Char) : Str → Option Nat
  | [] => none
  | d :: s =>
    match rfind c s with
    | some n => some (n + 1)
    | none => if d = c then some 0 else none

/-- Parser.py 950-966, one round of the loop: `dotted` is the dotted name that was read, `rest`
the call arguments or subscript after it (empty if neither `(` nor `[` follows). -/
def splitChunk (dotted rest : Str) : List Chunk :=
  if rest = [] then [⟨dotted, true, []⟩]
  else
    let ac := !(rest.head? == some '(')
    let period := (rfind '.' dotted).getD 0
    if period = 0 then [⟨dotted, ac, rest⟩]
    else [⟨dotted.take period, true, []⟩, ⟨dotted.drop (period + 1), ac, rest⟩]

/-- Parser.py 911-968: the chunks for a placeholder that reads as these dotted names, each
with what follows it. -/
def nameChunks (segs : List (Str × Str)) : List Chunk :=
  segs.flatMap fun (d, r) => splitChunk d r

/-- Compiler settings used here (Compiler.py 45-50). -/
structure Settings where
  useNameMapper : Bool
  useAutocalling : Bool
  useSearchList : Bool
  useStackFrames : Bool

/-- `repr` of a bool.
Models Compiler.py 299-313. -/
def reprBool (b : Bool) : Str := if b then c!"True" else c!"False"

/-- `s.find(c)`; `none` is -1. -/
def find (c : Char) : Str → Option Nat
  | [] => none
  | d :: s => if d = c then some 0 else (find c s).map (· + 1)

/-- Compiler.py 284-313: the code for the first chunk. -/
def genFirst (st : Settings) (c : Chunk) : Str :=
  if !st.useSearchList then
    match find '.' c.name with
    | some i =>
      c!"VFN(" ++ c.name.take i ++ c!",\"" ++ c.name.drop (i + 1) ++ c!"\"," ++
        reprBool (st.useAutocalling && c.ac) ++ c!")" ++ c.rest
    | none => c.name ++ c.rest
  else if st.useStackFrames then
    c!"VFFSL(SL,\"" ++ c.name ++ c!"\"," ++ reprBool (st.useAutocalling && c.ac) ++ c!")" ++ c.rest
  else
    c!"VFSL([locals()]+SL+[globals(), builtin],\"" ++ c.name ++ c!"\"," ++
      reprBool (st.useAutocalling && c.ac) ++ c!")" ++ c.rest

/-- Compiler.py 315-320: the loop over the other chunks. -/
def genMore (st : Settings) (code : Str) (c : Chunk) : Str :=
  c!"VFN(" ++ code ++ c!",\"" ++ c.name ++ c!"\"," ++ reprBool (st.useAutocalling && c.ac) ++ c!")" ++ c.rest

/-- Compiler.py 222-321 `genNameMapperVar`; `none` is the IndexError for an empty list. -/
def genNameMapperVar (st : Settings) : List Chunk → Option Str
  | [] => none
  | c :: cs => some (cs.foldl (genMore st) (genFirst st c))

/-- Compiler.py 210-220 `genPlainVar`. -/
def genPlainVar : List Chunk → Option Str
  | [] => none
  | c :: cs => some (cs.foldl (fun code c => code ++ c!"." ++ c.name ++ c.rest) (c.name ++ c.rest))

/-- Compiler.py 187-193 `genCheetahVar`, without the extra statements for gettext tokens. -/
def genCheetahVar (st : Settings) (plain : Bool) (cs : List Chunk) : Option Str :=
  if st.useNameMapper && !plain then genNameMapperVar st cs else genPlainVar cs

end Cheetah.GenVar
