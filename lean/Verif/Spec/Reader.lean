import Verif.Model.ParseBuf

/-!
# Readers that deliver given data

The same data can arrive in any chunks: reads can be short, some can be empty, and the end of the
file can come with the last bytes or on its own.
-/

namespace ParseBuf
open Go

/-- The script delivers exactly `R`, then the end of the file. -/
def Delivers : List Ev → Bytes → Prop
  | [], R => R = []
  | e :: es, R =>
    match e.status with
    | .nil => ∃ R', R = e.bytes ++ R' ∧ Delivers es R'
    | .eof => R = e.bytes
    | .err _ => False

/-- At most `n` empty reads, then never more than two in a row (`readMore` gives up at three). -/
def StallFree : Nat → List Ev → Prop
  | _, [] => True
  | 0, e :: es => ¬ (e.status = .nil ∧ e.bytes = []) ∧ StallFree 2 es
  | n + 1, e :: es =>
    (e.status = .nil ∧ e.bytes = [] ∧ StallFree n es) ∨
    (¬ (e.status = .nil ∧ e.bytes = []) ∧ StallFree 2 es)

/-- A reader for the data `D`. -/
structure Reader.Serves (r : Reader) (D : Bytes) : Prop where
  /-- reads return no more than asked for -/
  fits : ∀ e ∈ r.evs, e.bytes.length ≤ 1024
  fin : r.fin = .eof
  delivers : Delivers r.evs D
  stallFree : StallFree 2 r.evs

/-- A reader that never reports the end of the file: it ends with an error (a checksum that does not match, a
compressed file that is cut), or gives empty reads forever. -/
structure Reader.Broken (r : Reader) : Prop where
  fin : r.fin ≠ .eof
  evs : ∀ e ∈ r.evs, e.status ≠ .eof

/-- Parsers that only read (no look at `font.Data`). Handlers of failed reads may go on. -/
def Prog.ReadsOnly {α : Type} : Prog α → Prop
  | ret _ => True
  | fail _ => True
  | panic _ => True
  | take _ h k => (∀ m, (h m).ReadsOnly) ∧ ∀ b, (k b).ReadsOnly
  | index k => ∀ i, (k i).ReadsOnly
  | sync k => (k ()).ReadsOnly
  | query _ _ => False

/-- The same value and position, or the same error, or the same panic. -/
def SameOutcome {α : Type} : Res (α × PBuf) → Res (α × PBuf) → Prop
  | .ok (a, s), .ok (b, t) => a = b ∧ s.index = t.index
  | .err m, .err n => m = n
  | .panic m, .panic n => m = n
  | _, _ => False

/-- Value and next position of a parser step, or `none` for an error. -/
def Outcome {α : Type} (x : Res (α × PBuf)) : Option (α × Nat) → Prop
  | some (a, j) => ∃ s, x = .ok (a, s) ∧ s.index = j
  | none => ∃ m, x = .err m

end ParseBuf
