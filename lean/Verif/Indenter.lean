import Verif.PyInt
/-
Model of Cheetah/Utils/Indenter.py: the run-time `Indenter` objects (89-139), one per
template instance, whose `LevelStack` is a *class* attribute and therefore one list for
all of them, and the source preprocessor `IndentProcessor` (20-86).
-/
namespace Cheetah.Indent

/-- The attributes of one `Indenter` object (Indenter.py 94-96).
The class attributes `On`, `Level`, `Chars` are defaults that the methods shadow with
instance attributes, so each object has its own. -/
structure Obj where
  on : Bool := true
  level : Int := 0
  chars : Str := c!"    "
  deriving DecidableEq, Repr

/-- All indenters of the process (Indenter.py 94-97): object number ↦ attributes, and the
list `LevelStack`, which is never shadowed (`append` and `pop` change it in place). Its
last element is kept first here. -/
structure World where
  objs : Nat → Obj
  stack : List Int

/-- A process in which no indenter has been used (Indenter.py 94-97). -/
def World.init : World := ⟨fun _ => {}, []⟩

/-- The mutating methods (Indenter.py 99-134). -/
inductive Op where
  | on | off | inc | dec | push | pop
  | setLevel (n : Int)
  | setChar (s : Str)
  deriving DecidableEq, Repr

/-- Assignment to attributes of object `i` (used by Indenter.py 99-134). -/
def World.put (w : World) (i : Nat) (o : Obj) : World :=
  { w with objs := fun j => if j = i then o else w.objs j }

/-- One method call on object `i` (Indenter.py 99-134). -/
def World.step (w : World) (i : Nat) : Op → World
  | .on => w.put i { w.objs i with on := true }                          -- 99-100
  | .off => w.put i { w.objs i with on := false }                        -- 102-103
  | .inc => w.put i { w.objs i with level := (w.objs i).level + 1 }      -- 105-106
  | .dec =>                                                              -- 108-112
    if (w.objs i).level > 0 then w.put i { w.objs i with level := (w.objs i).level - 1 } else w
  | .push => { w with stack := (w.objs i).level :: w.stack }             -- 114-115
  | .pop =>                                                              -- 117-123
    match w.stack with
    | l :: rest => { w.put i { w.objs i with level := l } with stack := rest }
    | [] => w.put i { w.objs i with level := 0 }
  | .setLevel n =>                                                       -- 125-131
    if n < 0 then w.put i { w.objs i with level := 0 } else w.put i { w.objs i with level := n }
  | .setChar s => w.put i { w.objs i with chars := s }                   -- 133-134

/-- A history of method calls on any of the objects (Indenter.py 99-134). -/
def World.run (w : World) : List (Nat × Op) → World
  | [] => w
  | (i, op) :: h => (w.step i op).run h

/-- Python's `s * n` for an integer `n` (used in Indenter.py 138-139): empty when `n ≤ 0`. -/
def times (s : Str) (n : Int) : Str := (List.replicate n.toNat s).flatten

/-- `indent(_default)` (Indenter.py 136-139). -/
def Obj.indent (o : Obj) (default : Int) : Str :=
  if o.on then times o.chars o.level else times [' '] default

/-! ### The preprocessor (Indenter.py 20-86) -/

/-- The line boundaries of `str.splitlines` (called in Indenter.py 44), apart from the
pair `\r\n`. -/
def isLineSep (c : Char) : Bool :=
  let n := c.toNat
  (10 ≤ n && n ≤ 13) || (28 ≤ n && n ≤ 30) || n == 0x85 || n == 0x2028 || n == 0x2029

/-- Put a character in front of the first line (helper of `splitlines`, Indenter.py 44). -/
def consLine (c : Char) : List Str → List Str
  | [] => [[c]]
  | l :: ls => (c :: l) :: ls

/-- `s.splitlines()` (called in Indenter.py 44): no empty line after a final boundary. -/
def splitlines : Str → List Str
  | [] => []
  | [c] => if isLineSep c then [[]] else [[c]]
  | c :: d :: s =>
    if c = '\r' ∧ d = '\n' then [] :: splitlines s
    else if isLineSep c then [] :: splitlines (d :: s)
    else consLine c (splitlines (d :: s))

/-- `[ \t]` (Indenter.py 24-27). -/
def isBlank (c : Char) : Bool := c == ' ' || c == '\t'

/-- `INDENT_DIR.match(line)` and the group `args`, stripped (Indenter.py 24, 45-48). A line
holds no newline, so `.*` takes the rest of it. -/
def indentArgs (line : Str) : Option Str :=
  (stripPrefix? c!"#indent" (line.dropWhile isBlank)).map fun r => strip (r.dropWhile isBlank)

/-- `DIRECTIVE.match(line)` (Indenter.py 25, 72). -/
def isDirective (line : Str) : Bool := (line.dropWhile isBlank).head? == some '#'

/-- The column reached from column `n` after the characters (part of
`str.expandtabs(4)`, called in Indenter.py 77). -/
def column (n : Nat) : Str → Nat
  | [] => n
  | c :: cs => if c = '\t' then column (n + (4 - n % 4)) cs else column (n + 1) cs

/-- `'%d' % n` (Indenter.py 61, 80). -/
def pctD (n : Int) : Str := if n < 0 then '-' :: decimal (-n).toNat else decimal n.toNat

/-- What may go wrong in `process`: `int` (line 58), `args.split('=')[1]`, `eval` (63), and
the variable `level`, which only line 58 assigns, read at line 66. -/
inductive Err where
  | valueError | indexError | evalError | unboundLocal
  deriving DecidableEq, Repr

/-- The text before the argument of the generated directives (Indenter.py 50-70). -/
def call (m : Str) : Str := c!"#silent $self._CHEETAH__indenter." ++ m

/-- `args.split('=')[1]` (Indenter.py 63). -/
def afterEq (args : Str) : Option Str := (splitCh '=' args)[1]?

/-- The body of the loop for one line; the second component is the local variable `level`
(Indenter.py 44-84). `eval` of the characters' expression (63) is a parameter. -/
def processLine (evalOk : Str → Bool) (level : Option Int) (line : Str) : Except Err (Str × Option Int) :=
  match indentArgs line with
  | some args =>
    if args = c!"on" then .ok (call c!"on()", level)                                 -- 49-50
    else if args = c!"off" then .ok (call c!"off()", level)
    else if args = c!"++" then .ok (call c!"inc()", level)
    else if args = c!"--" then .ok (call c!"dec()", level)
    else if startsWith args c!"=" then                                               -- 57-61
      match pyInt (args.drop 1) with
      | none => .error .valueError
      | some n => .ok (call (c!"setLevel(" ++ pctD n ++ c!")"), some n)
    else if startsWith args c!"chars" then                                           -- 62-66
      match afterEq args with
      | none => .error .indexError
      | some e =>
        if evalOk e then
          match level with
          | none => .error .unboundLocal
          | some n => .ok (call (c!"setChars(" ++ pctD n ++ c!")"), level)
        else .error .evalError
    else if startsWith args c!"push" then .ok (call c!"push()", level)               -- 67-68
    else if startsWith args c!"pop" then .ok (call c!"pop()", level)                 -- 69-70
    else .ok (line, level)
  | none =>
    if isDirective line then .ok (line, level)
    else                                                                             -- 75-81
      .ok (c!"${self._CHEETAH__indenter.indent(" ++ decimal (column 0 (line.takeWhile isBlank)) ++ c!")}"
        ++ lstrip line, level)

/-- The loop over the lines (Indenter.py 44-84). -/
def processLines (evalOk : Str → Bool) : Option Int → List Str → Except Err (List Str)
  | _, [] => .ok []
  | level, l :: ls =>
    match processLine evalOk level l with
    | .error e => .error e
    | .ok (l', level') => (processLines evalOk level' ls).map (l' :: ·)

/-- `indentize(source)` (Indenter.py 16-17, 41-86). -/
def indentize (evalOk : Str → Bool) (src : Str) : Except Err Str :=
  (processLines evalOk none (splitlines src)).map (joinStr ['\n'])

end Cheetah.Indent
