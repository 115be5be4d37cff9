import Verif.Str
import Verif.PyStr
import Verif.Dict
/-
Model of the preprocessor arguments of `Template.compile` (Template.py 888-1010).
-/
namespace Cheetah.Preprocess

/-- The exceptions the modelled code raises. -/
inductive Err
  | preprocessError | typeError | valueError
  deriving DecidableEq, Repr

/-- A value of a setting: a string, or anything else (Template.py 991, 995). -/
inductive Val
  | str (s : Str)
  | other (n : Nat)
  deriving DecidableEq, Repr

/-- The `tokens` argument (Template.py 921-925, 941-947): a string, a list or tuple of
strings, or something else. -/
inductive Tokens
  | str (s : Str)
  | list (l : List Str)
  | other
  deriving DecidableEq, Repr

/-- The settings object of a preprocessor (Template.py 917-925). `none` stands for a missing
attribute. Simplifications: only the attributes read at lines 949-957 and 979-986, and
`compilerSettings` is a dictionary when given. -/
structure Settings where
  tokens : Option Tokens
  placeholderToken : Option Str
  directiveToken : Option Str
  compilerSettings : Option (Dict Str Val)
  deriving DecidableEq, Repr

/-- `if key not in d: d[key] = value` (Template.py 993-1010). -/
def setDefault (key value : Str) (d : Dict Str Val) : Dict Str Val :=
  if (d.get key).isNone then d.set key (.str value) else d

/-- Python's truth of a token (Template.py 993, 996). -/
def truthy : Option Str → Bool
  | none => false
  | some s => !s.isEmpty

/-- The part for the placeholder token (Template.py 993-995). -/
def updatePlaceholder (placeholderToken : Option Str) (d : Dict Str Val) : Dict Str Val :=
  match placeholderToken with
  | none => d
  | some p => if p.isEmpty then d else setDefault c!"cheetahVarStartToken" p d

/-- The part for the directive token (Template.py 996-1010). -/
def updateDirective (directiveToken : Option Str) (d : Dict Str Val) : Dict Str Val :=
  match directiveToken with
  | none => d
  | some t =>
    if t.isEmpty then d
    else
      setDefault c!"EOLSlurpToken" t <|
      setDefault c!"multiLineCommentEndToken" ('*' :: t) <|
      setDefault c!"multiLineCommentStartToken" (t ++ ['*']) <|
      setDefault c!"commentStartToken" (t ++ t) <|
      setDefault c!"directiveEndToken" t <|
      setDefault c!"directiveStartToken" t d

/-- `_updateSettingsWithPreprocessTokens` (Template.py 990-1010). -/
def updateSettings (d : Dict Str Val) (placeholderToken directiveToken : Option Str) : Dict Str Val :=
  updateDirective directiveToken (updatePlaceholder placeholderToken d)

/-- `normalizeTokens` and the unpacking into two names (Template.py 941-951). -/
def normalizeTokens : Tokens → Except Err (Str × Str)
  | .str s =>
    match pyWords s with
    | [p, d] => .ok (p, d)
    | _ => .error .valueError
  | .list [p, d] => .ok (p, d)
  | .list _ => .error .valueError
  | .other => .error .preprocessError

/-- Lines 949-951 of `_normalizePreprocessorSettings` (Template.py). -/
def withTokens (s : Settings) : Except Err Settings :=
  match s.tokens with
  | none => .ok s
  | some t =>
    match normalizeTokens t with
    | .error e => .error e
    | .ok (p, d) => .ok { s with placeholderToken := some p, directiveToken := some d }

/-- Lines 953-957 and 979-986 of `_normalizePreprocessorSettings` (Template.py). -/
def finish (s : Settings) : Except Err (Dict Str Val) :=
  if (s.compilerSettings.getD []).isEmpty && !truthy s.placeholderToken then .error .typeError
  else .ok (updateSettings (s.compilerSettings.getD []) s.placeholderToken s.directiveToken)

/-- `_normalizePreprocessorSettings` (Template.py 933-987): the compiler settings it leaves. -/
def normalizeSettings (s : Settings) : Except Err (Dict Str Val) :=
  match withTokens s with
  | .error e => .error e
  | .ok s => finish s

/-- `_preprocessSource` (Template.py 888-900): each preprocessor, as a function from source
and file to source and file that may raise, gets what the one before it returned. -/
def preprocessSource {σ ε : Type} : List (σ → Except ε σ) → σ → Except ε σ
  | [], s => .ok s
  | p :: ps, s =>
    match p s with
    | .error e => .error e
    | .ok s' => preprocessSource ps s'

end Cheetah.Preprocess
