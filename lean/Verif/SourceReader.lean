import Verif.Str
/-
Model of Cheetah/SourceReader.py: the cursor the parser reads the template with.
-/
namespace Cheetah.Reader

/-- Exceptions: `SourceReader.Error`, and those of the underlying str operations.
Models SourceReader.py 11-12, 104-110. -/
inductive Err where
  | posError          -- SourceReader.Error, "pos is invalid"
  | bpError           -- SourceReader.Error, "New breakpoint is invalid"
  | bookmarkError     -- SourceReader.Error, "Invalid bookmark"
  | atBeginning       -- SourceReader.Error, "Already at beginning of stream"
  | indexError        -- IndexError from `self._src[i]`
  | typeError         -- TypeError from assigning to a str item / indexing with None
  deriving DecidableEq, Repr

/-- The reader's attributes (SourceReader.py 16-26). Positions are Python ints.
`bookmarks` lists the newest first. -/
structure Reader where
  src : Str
  bp : Int
  pos : Int
  bookmarks : List (Str × Int)
  deriving DecidableEq, Repr

/-- SourceReader.py 16-26 without an explicit breakPoint (how the parser makes it). -/
def init (src : Str) : Reader := ⟨src, src.length, 0, []⟩

/-- Python index normalisation for slices: negative counts from the end, clamped.
Used in SourceReader.py 57-60, 177-196. -/
def normIdx (n : Nat) (i : Int) : Nat :=
  if i < 0 then (i + n).toNat else min i.toNat n

/-- `s[i:j]` for arbitrary ints.
Used in SourceReader.py 57-60, 177-196. -/
def slice (s : Str) (i j : Int) : Str :=
  (s.take (normIdx s.length j)).drop (normIdx s.length i)

/-- `s[i]`.
Used in SourceReader.py 50-55, 150-159. -/
def index (s : Str) (i : Int) : Except Err Char :=
  if i < 0 then
    (if i + s.length < 0 then .error .indexError
     else match s[(i + s.length).toNat]? with | some c => .ok c | none => .error .indexError)
  else match s[i.toNat]? with | some c => .ok c | none => .error .indexError

/-- SourceReader.py 101-102. -/
def validPos (r : Reader) (p : Int) : Bool := p ≤ r.bp && 0 ≤ p

/-- SourceReader.py 104-110: `none` when the position is fine. -/
def checkPos (r : Reader) (p : Int) : Option Err :=
  if ¬ p ≤ r.bp then some .posError else if ¬ 0 ≤ p then some .posError else none

/-- SourceReader.py 144-145. -/
def atEnd (r : Reader) : Bool := r.bp ≤ r.pos

/-! #### Line ends: EOLZre = `\r\n|\r|\n|\Z` (line 7) -/

/-- Number of characters before the first line end, and the length of that
terminator (0 at the end of the text). -/
def eolScan : Str → Nat × Nat
  | [] => (0, 0)
  | '\r' :: '\n' :: _ => (0, 2)
  | c :: cs =>
    if c = '\r' ∨ c = '\n' then (0, 1)
    else ((eolScan cs).1 + 1, (eolScan cs).2)

/-- `EOLZre.search(src, pos)` as (start, end). `re` clamps `pos` to the text.
Models SourceReader.py 7, 220-228. -/
def eolSearch (src : Str) (pos : Nat) : Nat × Nat :=
  let p := min pos src.length
  let m := eolScan (src.drop p)
  (p + m.1, p + m.1 + m.2)

/-- `src.rfind(c, 0, pos) + 1`: one after the last `c` in `src[:pos]`, or 0. -/
def rfindNext (c : Char) (s : Str) : Nat :=
  match s with
  | [] => 0
  | d :: ds => match rfindNext c ds with
    | 0 => if d = c then 1 else 0
    | n + 1 => n + 2

/-- SourceReader.py 214-218 `findBOL`, for a position in the text. -/
def findBOL (src : Str) (pos : Nat) : Nat :=
  max (rfindNext '\n' (src.take pos)) (rfindNext '\r' (src.take pos))

theorem eolScan_pos {s : Str} (h : s ≠ []) : 0 < (eolScan s).1 + (eolScan s).2 := by
  fun_cases eolScan s <;> simp_all <;> omega

/-- SourceReader.py 29-34: the table of line ends. -/
def eolTable (src : Str) (pos : Nat) : List Nat :=
  if h : pos < src.length then
    have : src.length - (eolSearch src pos).2 < src.length - pos := by
      have h1 : src.drop pos ≠ [] := by
        intro hh; simp at hh; omega
      have := eolScan_pos h1
      simp only [eolSearch, Nat.min_eq_left (Nat.le_of_lt h)]
      omega
    (eolSearch src pos).1 :: eolTable src (eolSearch src pos).2
  else []
  termination_by src.length - pos

/-- SourceReader.py 29-39: `zip(self._BOLs, self._EOLs)`. -/
def lineTable (src : Str) : List (Nat × Nat) :=
  (eolTable src 0).map fun e => (findBOL src e, e)

/-- SourceReader.py 67-73 `lineNum`: index of the first line containing `pos`;
`none` is Python's implicit `None`. -/
def lineNum (src : Str) (pos : Nat) : Option Nat :=
  (lineTable src).findIdx? fun l => l.1 ≤ pos && pos ≤ l.2

/-- SourceReader.py 75-80 `getRowCol`: indexing `_BOLs` with None is a TypeError. -/
def getRowCol (src : Str) (pos : Nat) : Except Err (Nat × Int) :=
  match lineNum src pos with
  | none => .error .typeError
  | some n => match (lineTable src)[n]? with
    | none => .error .indexError
    | some l => .ok (n + 1, (pos : Int) - l.1 + 1)

/-! #### Operations -/

/-- SourceReader.py 150-153. -/
def peek (r : Reader) (off : Int) : Except Err Char :=
  match checkPos r (r.pos + off) with
  | some e => .error e
  | none => index r.src (r.pos + off)

/-- SourceReader.py 169-171. -/
def advance (r : Reader) (off : Int) : Except Err Unit × Reader :=
  match checkPos r (r.pos + off) with
  | some e => (.error e, r)
  | none => (.ok (), { r with pos := r.pos + off })

/-- SourceReader.py 155-159. -/
def getc (r : Reader) : Except Err Str × Reader :=
  let r' := if validPos r (r.pos + 1) then { r with pos := r.pos + 1 } else r
  ((index r.src r.pos).map fun c => [c], r')

/-- SourceReader.py 161-167 (the test is inverted in the source: it raises when
*not* at the start). -/
def ungetc (r : Reader) (c : Option Char) : Except Err Str × Reader :=
  if ¬ r.pos = 0 then (.error .atBeginning, r)
  else
    let r' := { r with pos := r.pos - 1 }
    match c with
    | none => (.ok [], r')
    | some _ => (.error .typeError, r')

/-- SourceReader.py 177-181. -/
def read (r : Reader) (off : Int) : Except Err Str × Reader :=
  match checkPos r (r.pos + off) with
  | some e => (.error e, r)
  | none => (.ok (slice r.src r.pos (r.pos + off)), { r with pos := r.pos + off })

/-- SourceReader.py 183-188. -/
def readTo (r : Reader) (to : Int) (start : Option Int) : Except Err Str × Reader :=
  match checkPos r to with
  | some e => (.error e, r)
  | none => (.ok (slice r.src (start.getD r.pos) to), { r with pos := to })

/-- SourceReader.py 190-196. -/
def readToEOL (r : Reader) (start : Option Int) (gobble : Bool) : Except Err Str × Reader :=
  let m := eolSearch r.src r.pos.toNat
  readTo r (if gobble then m.2 else m.1) start

/-- SourceReader.py 244-245 `matchWhiteSpace`. -/
def matchWS (r : Reader) (ws : Str) : Except Err Bool :=
  if atEnd r then .ok false else (peek r 0).map fun c => ws.contains c

/-- SourceReader.py 260-261 `matchNonWhiteSpace`. -/
def matchNonWS (r : Reader) (ws : Str) : Except Err Bool :=
  if atEnd r then .ok true else (peek r 0).map fun c => !ws.contains c

/-- The loops of lines 254-257 and 267-270: advance while the test holds. -/
def scanLoop (test : Reader → Except Err Bool) (limit : Int) (r : Reader) :
    Except Err Unit × Reader :=
  if h : r.pos < limit then
    match ha : advance r 1 with
    | (.error e, r') => (.error e, r')
    | (.ok (), r') =>
      match test r' with
      | .error e => (.error e, r')
      | .ok false => (.ok (), r')
      | .ok true =>
        have : (limit - r'.pos).toNat < (limit - r.pos).toNat := by
          unfold advance at ha
          split at ha
          · cases ha
          · cases ha; simp; omega
        scanLoop test limit r'
  else (.ok (), r)
  termination_by (limit - r.pos).toNat

/-- SourceReader.py 247-258 `getWhiteSpace`. -/
def getWS (r : Reader) (max : Option Int) (ws : Str) : Except Err Str × Reader :=
  match matchWS r ws with
  | .error e => (.error e, r)
  | .ok false => (.ok [], r)
  | .ok true =>
    let limit := match max with
      | none => r.bp
      | some m => min r.bp (r.pos + m)
    match scanLoop (matchWS · ws) limit r with
    | (.error e, r') => (.error e, r')
    | (.ok (), r') => (.ok (slice r.src r.pos r'.pos), r')

/-- SourceReader.py 263-271 `getNonWhiteSpace`. -/
def getNonWS (r : Reader) (ws : Str) : Except Err Str × Reader :=
  match matchNonWS r ws with
  | .error e => (.error e, r)
  | .ok false => (.ok [], r)
  | .ok true =>
    match scanLoop (matchNonWS · ws) r.bp r with
    | (.error e, r') => (.error e, r')
    | (.ok (), r') => (.ok (slice r.src r.pos r'.pos), r')

/-- The public cursor operations.
Models SourceReader.py 97-228. -/
inductive Op where
  | setPos (p : Int)
  | setBreakPoint (p : Int)
  | setBookmark (name : Str)
  | gotoBookmark (name : Str)
  | peek (off : Int)
  | getc
  | ungetc (c : Option Char)
  | advance (off : Int)
  | rev (off : Int)
  | read (off : Int)
  | readTo (to : Int) (start : Option Int)
  | readToEOL (start : Option Int) (gobble : Bool)
  | getWhiteSpace (max : Option Int) (ws : Str)
  | getNonWhiteSpace (ws : Str)
  deriving DecidableEq, Repr

/-- One operation: the text returned (empty when the method returns None), or the
exception; and the new state.
Models SourceReader.py 97-228. -/
def step (r : Reader) : Op → Except Err Str × Reader
  | .setPos p => match checkPos r p with                       -- 97-99
    | some e => (.error e, r)
    | none => (.ok [], { r with pos := p })
  | .setBreakPoint p =>                                        -- 115-125
    if p > r.src.length then (.error .bpError, r)
    else if ¬ 0 ≤ p then (.error .bpError, r)
    else (.ok [], { r with bp := p })
  | .setBookmark n => (.ok [], { r with bookmarks := (n, r.pos) :: r.bookmarks })  -- 127-129
  | .gotoBookmark n => match r.bookmarks.lookup n with         -- 134-142
    | none => (.error .bookmarkError, r)
    | some p => if validPos r p then (.ok [], { r with pos := p }) else (.error .bookmarkError, r)
  | .peek off => ((Reader.peek r off).map fun c => [c], r)
  | .getc => Reader.getc r
  | .ungetc c => Reader.ungetc r c
  | .advance off => match Reader.advance r off with
    | (.ok (), r') => (.ok [], r')
    | (.error e, r') => (.error e, r')
  | .rev off => match Reader.advance r (-off) with             -- 173-175
    | (.ok (), r') => (.ok [], r')
    | (.error e, r') => (.error e, r')
  | .read off => Reader.read r off
  | .readTo to start => Reader.readTo r to start
  | .readToEOL start g => Reader.readToEOL r start g
  | .getWhiteSpace m ws => getWS r m ws
  | .getNonWhiteSpace ws => getNonWS r ws

/-- A sequence of operations; the caller goes on after an exception.
Any sequence of SourceReader.py 97-228. -/
def run (r : Reader) : List Op → Reader
  | [] => r
  | op :: ops => run (step r op).2 ops

end Cheetah.Reader
