import Verif.Transaction
/-
C43: the output of a response is the concatenation of what was written.
-/
namespace Cheetah.Transaction

/-- The text an operation adds. -/
def added : Op → List Piece
  | .write p => [p]
  | .writeln p => [p, .str c!"\n"]
  | .flush => []
  | .getvalue => []
  | .writelines ps => ps.flatMap fun p => [p, .str c!"\n"]

theorem join_append (a b : List Piece) : join (a ++ b) = (join a).bind fun x => (join b).map (x ++ ·) := by
  induction a with
  | nil => simp [join]
  | cons p a ih =>
    cases p with
    | other => rfl
    | str s =>
      simp only [List.cons_append, join, ih]
      cases join a <;> cases join b <;> simp

theorem join_strs (texts : List Str) : join (texts.map .str) = some texts.flatten := by
  induction texts with
  | nil => rfl
  | cons t texts ih => simp [join, ih]

theorem step_chunks (r : Response) (op : Op) :
    (step r op).chunks = r.chunks ++ added op ∧ (step r op).filter = r.filter := by
  cases op with
  | write p => exact ⟨rfl, rfl⟩
  | writeln p => simp [step, added, Response.writeln, Response.write]
  | flush => simp [step, added]
  | getvalue => simp [step, added]
  | writelines ps =>
    simp only [step, added]
    induction ps generalizing r with
    | nil => simp
    | cons p ps ih =>
      rw [List.foldl_cons]
      obtain ⟨h1, h2⟩ := ih (r.writeln p)
      rw [h1, h2]
      simp [Response.writeln, Response.write]

theorem run_chunks (ops : List Op) : ∀ r : Response,
    (ops.foldl step r).chunks = r.chunks ++ ops.flatMap added ∧ (ops.foldl step r).filter = r.filter := by
  induction ops with
  | nil => intro r; simp
  | cons op ops ih =>
    intro r
    obtain ⟨h1, h2⟩ := ih (step r op)
    obtain ⟨h3, h4⟩ := step_chunks r op
    simp [h1, h2, h3, h4]

/-- **C43.** After any history of writes (of strings), newline writes, flushes and reads on a new
response, `getvalue()` is the concatenation of everything written, in order; reading or
flushing in between makes no difference. A non-string that was written makes it raise. -/
theorem C43_concatenation (ops : List Op) :
    (∀ texts : List Str, ops.flatMap added = texts.map .str →
      (ops.foldl step ⟨[], none⟩).getvalue none = some texts.flatten) ∧
    (Piece.other ∈ ops.flatMap added → (ops.foldl step ⟨[], none⟩).getvalue none = none) := by
  obtain ⟨h1, h2⟩ := run_chunks ops ⟨[], none⟩
  have hn : ∀ ps : List Piece, Piece.other ∈ ps → join ps = none := by
    intro ps h
    induction ps with
    | nil => simp at h
    | cons p ps ih =>
      cases p with
      | other => rfl
      | str s => simp at h; simp [join, ih h]
  constructor
  · intro texts ht
    simp [Response.getvalue, h1, h2, ht, join_strs]
  · intro ho
    simp [Response.getvalue, h1, hn _ ho]

/-- **C43, explicit chunks**: `getvalue(outputChunks)` joins those instead, and an empty list
counts as not given. -/
theorem C43_given_chunks (r : Response) (hf : r.filter = none) (texts : List Str) :
    r.getvalue (some (texts.map .str)) = if texts = [] then r.getvalue none else some texts.flatten := by
  cases texts with
  | nil => rfl
  | cons t texts =>
    have := join_strs (t :: texts)
    simp only [List.map_cons] at this
    simp [Response.getvalue, hf, this]

/-- **C43, transformers**: the filter of a transforming response is applied once, to the
concatenation of everything written. -/
theorem C43_transformer_once (ops : List Op) (f : Str → Str) (texts : List Str)
    (h : ops.flatMap added = texts.map .str) :
    (ops.foldl step ⟨[], some f⟩).getvalue none = some (f texts.flatten) := by
  obtain ⟨h1, h2⟩ := run_chunks ops ⟨[], some f⟩
  simp [Response.getvalue, h1, h2, h, join_strs]

theorem writes_orig (texts : List Str) : ∀ r : Response,
    (texts.map Act.write).foldl act ⟨r, none⟩ = ⟨⟨r.chunks ++ texts.map .str, r.filter⟩, none⟩ := by
  induction texts with
  | nil => intro r; simp
  | cons t texts ih => intro r; simp [ih, act, Response.write]

theorem writes_rebound (texts : List Str) : ∀ o r : Response,
    (texts.map Act.write).foldl act ⟨o, some r⟩ = ⟨o, some ⟨r.chunks ++ texts.map .str, r.filter⟩⟩ := by
  induction texts with
  | nil => intro o r; simp
  | cons t texts ih => intro o r; simp [ih, act, Response.write]

/-- **C43, methods**: without a transaction the method returns the concatenation of everything it
writes; with one it returns the empty string and the text is appended to the
caller's response. -/
theorem C43_method_output (texts : List Str) (r : Response) :
    callMethod none (texts.map .write) = (some texts.flatten, none) ∧
    callMethod (some r) (texts.map .write) = (some [], some ⟨r.chunks ++ texts.map .str, r.filter⟩) := by
  simp [callMethod, writes_orig, Response.getvalue, join_strs]

/-- **C43, `#transform`** - the full claim would be that it applies to the whole output of the
method, wherever it is written and however the method is called. Proved: that is so when it
precedes all output and the method is called without a transaction. -/
theorem C43_transform_partial (f : Str → Str) (texts : List Str) :
    callMethod none (.transform f :: texts.map .write) = (some (f texts.flatten), none) := by
  simp [callMethod, act, writes_orig, writes_rebound, Response.getvalue, join_strs]

/-- Whatever was written before a `#transform` is lost. -/
theorem C43_text_before_transform_counterexample (f : Str → Str) (before after : List Str) :
    (callMethod none (before.map .write ++ .transform f :: after.map .write)).1 = some (f after.flatten) := by
  simp [callMethod, act, writes_orig, writes_rebound, Response.getvalue, join_strs, List.foldl_append]

/-- Called with a transaction, a method with `#transform` produces nothing of what follows it:
not in the returned text and not in the caller's response. -/
theorem C43_transform_in_transaction_counterexample (f : Str → Str) (r : Response) (before after : List Str) :
    callMethod (some r) (before.map .write ++ .transform f :: after.map .write) =
      (some [], some ⟨r.chunks ++ before.map .str, r.filter⟩) := by
  simp [callMethod, List.foldl_append, writes_orig, act, writes_rebound]

example : ([.write (.str c!"a"), .getvalue, .writeln (.str c!"b"), .flush] : List Op).flatMap added =
    [c!"a", c!"b", c!"\n"].map .str := rfl
example : (callMethod none [.write c!"lost", .transform (fun s => s ++ c!"!"), .write c!"x"]).1 = some c!"x!" := by decide

end Cheetah.Transaction
