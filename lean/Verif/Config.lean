import Verif.PyStr
import Verif.Dict
import Verif.Settings
/-
Model of settings read from configuration text (SettingsManager.py 16-19, 46-71, 122-205,
282-303) and of `#compiler-settings` (Compiler.py 1740-1741, 1930-1947). Python's
`ConfigParser` is not modelled: the model begins with the sections, options and values it gives.
-/
namespace Cheetah.Config

/-! ### Regular expressions with Python's order of preference -/

/-- The regular expressions used by SettingsManager.py 17-19: sets of characters, sequence, `|`, `?` and `*`. -/
inductive Re where
  | set (p : Char → Bool)
  | seq (a b : Re)
  | alt (a b : Re)
  | opt (a : Re)
  | star (a : Re)

/-- `(…)*` (SettingsManager.py 17-19): what may be left, the most eager choice first. -/
def starM (f : Str → List Str) : Nat → Str → List Str
  | 0, s => [s]
  | n + 1, s => (((f s).filter fun r => decide (r.length < s.length)).flatMap (starM f n)) ++ [s]

/-- Matching at the start of a text (SettingsManager.py 56-58): what may be left of it, in the order in which Python tries. -/
def Re.m : Re → Str → List Str
  | .set _, [] => []
  | .set p, c :: s => if p c then [s] else []
  | .seq a b, s => (a.m s).flatMap b.m
  | .alt a b, s => a.m s ++ b.m s
  | .opt a, s => a.m s ++ [s]
  | .star a, s => starM a.m s.length s

/-- One character (SettingsManager.py 17-19). -/
def one (c : Char) : Re := .set (· == c)

/-- One of some characters (SettingsManager.py 17-19). -/
def oneOf (cs : Str) : Re := .set fun c => cs.contains c

/-- `[0-9]` (SettingsManager.py 17, from `tokenize.Number`). -/
def d : Re := .set isDigit

/-- `[0-9](?:_?[0-9])*` (SettingsManager.py 17, from `tokenize.Number`). -/
def digitsRe : Re := .seq d (.star (.seq (.opt (one '_')) d))

/-- `0[xX](?:_?[0-9a-fA-F])+` (SettingsManager.py 17, from `tokenize.Number`). -/
def hexnumber : Re :=
  let h := Re.seq (.opt (one '_')) (oneOf c!"0123456789abcdefABCDEF")
  .seq (one '0') (.seq (oneOf c!"xX") (.seq h (.star h)))

/-- `0[bB](?:_?[01])+` (SettingsManager.py 17, from `tokenize.Number`). -/
def binnumber : Re :=
  let h := Re.seq (.opt (one '_')) (oneOf c!"01")
  .seq (one '0') (.seq (oneOf c!"bB") (.seq h (.star h)))

/-- `0[oO](?:_?[0-7])+` (SettingsManager.py 17, from `tokenize.Number`). -/
def octnumber : Re :=
  let h := Re.seq (.opt (one '_')) (oneOf c!"01234567")
  .seq (one '0') (.seq (oneOf c!"oO") (.seq h (.star h)))

/-- `(?:0(?:_?0)*|[1-9](?:_?[0-9])*)` (SettingsManager.py 17, from `tokenize.Number`). -/
def decnumber : Re :=
  .alt (.seq (one '0') (.star (.seq (.opt (one '_')) (one '0'))))
    (.seq (oneOf c!"123456789") (.star (.seq (.opt (one '_')) d)))

/-- `Intnumber` (SettingsManager.py 17, from `tokenize.Number`). -/
def intnumber : Re := .alt hexnumber (.alt binnumber (.alt octnumber decnumber))

/-- `[eE][-+]?[0-9](?:_?[0-9])*` (SettingsManager.py 17, from `tokenize.Number`). -/
def exponent : Re := .seq (oneOf c!"eE") (.seq (.opt (oneOf c!"-+")) digitsRe)

/-- `Pointfloat` (SettingsManager.py 17, from `tokenize.Number`). -/
def pointfloat : Re :=
  .seq (.alt (.seq digitsRe (.seq (one '.') (.opt digitsRe))) (.seq (one '.') digitsRe)) (.opt exponent)

/-- `Floatnumber` (SettingsManager.py 17, from `tokenize.Number`). -/
def floatnumber : Re := .alt pointfloat (.seq digitsRe exponent)

/-- `Imagnumber` (SettingsManager.py 17, from `tokenize.Number`). -/
def imagnumber : Re := .alt (.seq digitsRe (oneOf c!"jJ")) (.seq floatnumber (oneOf c!"jJ"))

/-- `numberRE` (SettingsManager.py 17): `tokenize.Number` of Python 3.6 and later. -/
def number : Re := .alt imagnumber (.alt floatnumber intnumber)

/-- `complexNumberRE` (SettingsManager.py 18-19). -/
def complexNumber : Re :=
  .seq (.star (one '(')) (.seq number (.seq (.star (oneOf c!" \t")) (.seq (one '+')
    (.seq (.star (oneOf c!" \t")) (.seq number (.star (one ')')))))))

/-! ### Values -/

/-- What reading settings can raise (SettingsManager.py 51, 70, 170, 189-194). -/
inductive Err where
  | index                  -- `S[0]` of an empty text
  | eval (code : Str)      -- whatever evaluating this raises
  | attribute              -- `readSettingsFromPySrcFile` does not exist
  | update                 -- `newSettings.update(…)` of something else than a section
  deriving DecidableEq, Repr

/-- SettingsManager.py 51-52: a sign is taken off. -/
def unsign (s : Str) : Str :=
  match s with
  | c :: c' :: r => if c = '-' ∨ c = '+' then strip (c' :: r) else s
  | _ => s

/-- SettingsManager.py 54-61, for a text without its sign. -/
def isNumeral (s : Str) : Bool :=
  match (complexNumber.m s).head? with
  | some r => r.isEmpty
  | none => match (number.m s).head? with
    | some r => r.isEmpty
    | none => false

/-- `stringIsNumber` (SettingsManager.py 45-61). -/
def stringIsNumber (s : Str) : Except Err Bool :=
  match strip s with
  | [] => .error .index
  | t => .ok (isNumeral (unsign t))

/-- The value of a setting (SettingsManager.py 168-178). `result code` is what Python's `eval` gives for `code`. -/
inductive Value where
  | text (s : Str)
  | none_
  | bool (b : Bool)
  | result (code : Str)
  deriving DecidableEq, Repr

/-- ASCII lower case (SettingsManager.py 169-175, 187, 201). No other character has one of the letters compared with there as its lower case. -/
def lower (s : Str) : Str := s.map Char.toLower

/-- `eval(code, {}, {})` (SettingsManager.py 70, 170); `ok` says which expressions Python evaluates without an exception. -/
def evaluate (ok : Str → Bool) (code : Str) : Except Err Value :=
  if ok code then .ok (.result code) else .error (.eval code)

/-- SettingsManager.py 169-176: the value before numbers are looked for. -/
def word (ok : Str → Bool) (val : Str) : Except Err Value :=
  if startsWith (lower val) c!"python:" then evaluate ok (val.drop 7)
  else if lower val = c!"none" then .ok .none_
  else if lower val = c!"true" then .ok (.bool true)
  else if lower val = c!"false" then .ok (.bool false)
  else .ok (.text val)

/-- SettingsManager.py 168-178. -/
def convert (ok : Str → Bool) (val : Str) : Except Err Value := do
  let v ← word ok val
  let num ← stringIsNumber val
  if num then evaluate ok val else pure v

/-- A setting (SettingsManager.py 158-163): a value or a section. -/
inductive Setting where
  | value (v : Value)
  | section_ (opts : Dict Str Value)
  deriving DecidableEq, Repr

/-- The loop over the options of a section (SettingsManager.py 166-198). The options of a section have different names. -/
def readOptions (ok : Str → Bool) (conv : Bool) : List (Str × Str) → Except Err (Dict Str Value)
  | [] => .ok []
  | (key, val) :: rest => do
    let v ← if conv then convert ok val else pure (.text val)
    if lower key = c!"importsettings" then .error .attribute
    else do
      let vs ← readOptions ok conv rest
      pure ((key, v) :: vs)

/-- `newSettings.update(newSettings[sect])` (SettingsManager.py 202). -/
def addAll (settings : Dict Str Setting) : Dict Str Value → Dict Str Setting
  | [] => settings
  | (k, v) :: vs => addAll (settings.set k (.value v)) vs

/-- The end of the loop for a section (SettingsManager.py 201-203) with the converted options `vs`, which are in
`settings` already unless an option of a globals section has taken their place. Simplification: updating with anything but
a section counts as an error. -/
def storeSection (settings : Dict Str Setting) (sect : Str) (vs : Dict Str Value) : Except Err (Dict Str Setting) :=
  match settings.get sect with
  | some (.section_ _) =>
    .ok (if lower sect = c!"globals" then (addAll (settings.set sect (.section_ vs)) vs).del sect
      else settings.set sect (.section_ vs))
  | _ => if lower sect = c!"globals" then .error .update else .ok settings

/-- The loop over the sections (SettingsManager.py 165-203). Simplification: in `settings` the options
of a section are empty until its turn comes; nothing looks at them before. -/
def readSections (ok : Str → Bool) (conv : Bool) (settings : Dict Str Setting) :
    List (Str × List (Str × Str)) → Except Err (Dict Str Setting)
  | [] => .ok settings
  | (sect, opts) :: rest => do
    let vs ← readOptions ok conv opts
    let settings ← storeSection settings sect vs
    readSections ok conv settings rest

/-- `readSettingsFromConfigFileObj` (SettingsManager.py 122-205), after `ConfigParser`. -/
def readConfig (ok : Str → Bool) (conv : Bool) (sects : List (Str × List (Str × Str))) : Except Err (Dict Str Setting) :=
  readSections ok conv (sects.map fun s => (s.1, .section_ [])) sects

/-! ### Updating -/

/-- A value as an atom of the settings (SettingsManager.py 39-42: nothing there tells values apart that are no dictionaries). -/
def Value.atom : Value → Str
  | .text s => 't' :: s
  | .none_ => ['n']
  | .bool b => [if b then '1' else '0']
  | .result code => 'r' :: code

/-- A section as a dictionary of settings (SettingsManager.py 158-163). -/
def ofOptions : Dict Str Value → Settings.Ents
  | [] => .nil
  | (k, v) :: d => .cons k (.leaf v.atom) (ofOptions d)

/-- The settings read, as a dictionary (SettingsManager.py 205). -/
def ofConfig : Dict Str Setting → Settings.Ents
  | [] => .nil
  | (k, .value v) :: d => .cons k (.leaf v.atom) (ofConfig d)
  | (k, .section_ o) :: d => .cons k (.dict (ofOptions o)) (ofConfig d)

/-- `bool(…)` (SettingsManager.py 269); `truth` tells it of what `eval` gave. -/
def Setting.truth (truth : Str → Bool) : Setting → Bool
  | .value (.text s) => !s.isEmpty
  | .value .none_ => false
  | .value (.bool b) => b
  | .value (.result code) => truth code
  | .section_ o => !o.isEmpty

/-- `updateSettingsFromConfigFileObj` (SettingsManager.py 282-292): the settings afterwards, and the exception, if any. -/
def updateFromConfig (ok truth : Str → Bool) (conv doMerge : Bool) (sects : List (Str × List (Str × Str))) (s : Settings.Ents) :
    Settings.Ents × Option Err :=
  match readConfig ok conv sects with
  | .error e => (s, some e)
  | .ok new =>
    let m := match new.get c!"mergeSettings" with
      | some x => x.truth truth
      | none => doMerge
    (Settings.updateSettings s (ofConfig new) m, none)

/-- `updateSettingsFromConfigStr` (SettingsManager.py 294-303) for a text that `ConfigParser` reads as the options `opts`, followed by further sections. -/
def updateFromStr (ok truth : Str → Bool) (opts : List (Str × Str)) (more : List (Str × List (Str × Str))) (s : Settings.Ents) :
    Settings.Ents × Option Err :=
  updateFromConfig ok truth true true ((c!"globals", opts) :: more) s

/-- `_initializeSettings` (Compiler.py 1740-1741), as used by `#compiler reset` and `#compiler-settings reset` (Parser.py 1914-1920, 1966-1972). -/
def reset (defaults s : Settings.Ents) : Settings.Ents := Settings.updateSettings s defaults true

end Cheetah.Config
