import Verif.Model.Font

/-!
# Model of `internal/parsing_buffer.go`

The decompressed stream (`gzipReader`) is an arbitrary `io.Reader`: a finite script of results of
`Read` calls followed by a final status that is repeated forever. Every run of the parser makes
finitely many reads, so scripts cover all readers.

Code that parses is written against the interface of the buffer: a `Prog` is a program whose
primitive actions are `readUpTo`, assigning `font.Data = parser.Bytes`, and evaluating a function on
`font.Data`. `exec` runs a program on the buffer model.
-/

namespace ParseBuf
open Go

/-- The error returned by a `Read`. -/
inductive Status where
  | nil
  | eof
  | err (msg : String)
deriving DecidableEq, Repr

/-- Result of one `Read`: the bytes written to the buffer and the error. -/
structure Ev where
  bytes : Bytes
  status : Status
deriving DecidableEq, Repr

/-- An `io.Reader`: results of the next reads, then nothing but `fin`. -/
structure Reader where
  evs : List Ev
  fin : Status
deriving DecidableEq, Repr

/-- One call of `Read`. -/
def Reader.read (r : Reader) : Ev × Reader :=
  match r.evs with
  | [] => (⟨[], r.fin⟩, r)
  | e :: es => (e, { r with evs := es })

/-- `internal/parsing_buffer.go:13-21`, together with `font.Data` (the slice header assigned last;
later growth of `Bytes` does not change it). -/
structure PBuf where
  bytes : Bytes
  index : Nat
  eof : Bool
  reader : Reader
  data : Bytes
deriving DecidableEq, Repr

/-- `internal/parsing_buffer.go:27-32`, `InitBuffers`, and `InitGzipReader`. -/
def PBuf.init (r : Reader) : PBuf := ⟨[], 0, false, r, []⟩

/-- `internal/parsing_buffer.go:53-80`, `readMore`; `n` retries are left. `junk` is the content of
memory that `GrowSliceByN` exposes and that is not overwritten when the size limit is hit.
`none` is the nil error. -/
def readMoreLoop (junk : Nat → UInt8) : (n : Nat) → PBuf → Res (Option String × PBuf)
  | 0, s => .ok (some "repeated empty reads", s)
  | n + 1, s =>
    let (e, r) := s.reader.read
    if e.bytes.length > 1024 then .panic "slice bounds out of range" else
    if e.bytes.length > 0 ∧ s.bytes.length + e.bytes.length > FontModel.maxFontDataSize then
      .ok (some "font data size exceeds limit",
        { s with bytes := s.bytes ++ (List.range e.bytes.length).map junk, reader := r })
    else
      let s := { s with bytes := s.bytes ++ e.bytes, reader := r }
      match e.status with
      | .eof => .ok (none, { s with eof := true })
      | .err m => .ok (some m, s)
      | .nil => if e.bytes.length ≠ 0 then .ok (none, s) else readMoreLoop junk n s

/-- `readMore` with its 3 tries. -/
def readMore (junk : Nat → UInt8) (s : PBuf) : Res (Option String × PBuf) := readMoreLoop junk 3 s

/-- The loop of `internal/parsing_buffer.go:84-90`. -/
def readUpToLoop (junk : Nat → UInt8) (newIndex : Nat) : (fuel : Nat) → PBuf →
    Res (Option String × PBuf)
  | 0, _ => .panic "out of fuel"
  | fuel + 1, s =>
    if s.bytes.length < newIndex then
      if s.eof then .ok (some "premature end of file (or font offsets are wrong)", s)
      else do
        let (e, s) ← readMore junk s
        match e with
        | some m => return (some m, s)
        | none => readUpToLoop junk newIndex fuel s
    else .ok (none, { s with index := newIndex })

/-- `internal/parsing_buffer.go:82-93`, `readUpTo`. -/
def readUpTo (junk : Nat → UInt8) (newIndex : Nat) (s : PBuf) : Res (Option String × PBuf) :=
  if newIndex ≤ s.index then .panic "readUpTo() misuse"
  else readUpToLoop junk newIndex (newIndex + 2) s

/-- `internal/parsing_buffer.go:40-50`, `EnsureEOF`. -/
def ensureEOF (junk : Nat → UInt8) (s : PBuf) : Res (Option String × PBuf) :=
  if s.eof then .ok (none, s) else do
    let preIndex := s.index
    let (e, s) ← readMore junk s
    match e with
    | some m => return (some m, s)
    | none =>
      if s.index > preIndex then return (some "file continues beyond the expected end", s)
      else if !s.eof then .panic "broken code"
      else return (none, s)

/-! ## Programs -/

/-- A parser: a program over the parsing buffer. -/
inductive Prog (α : Type) : Type 1 where
  | ret (a : α)
  /-- return an error -/
  | fail (msg : String)
  /-- panic -/
  | panic (msg : String)
  /-- `readUpTo(Index + n)`; on success the continuation gets the bytes passed over, on failure the
  handler gets the error -/
  | take (n : Nat) (handler : String → Prog α) (k : Bytes → Prog α)
  /-- `parser.Index` -/
  | index (k : Nat → Prog α)
  /-- `font.Data = parser.Bytes` -/
  | sync (k : Unit → Prog α)
  /-- evaluate something on `font.Data` (a returned error ends the program) -/
  | query {β : Type} (v : Bytes → Res β) (k : β → Prog α)

namespace Prog

/-- Sequencing; errors and panics end the program. -/
def bind {α β : Type} : Prog α → (α → Prog β) → Prog β
  | ret a, f => f a
  | fail m, _ => fail m
  | panic m, _ => panic m
  | take n h k, f => take n (fun m => (h m).bind f) (fun b => (k b).bind f)
  | index k, f => index (fun i => (k i).bind f)
  | sync k, f => sync (fun u => (k u).bind f)
  | query v k, f => query v (fun b => (k b).bind f)

instance : Monad Prog where
  pure := ret
  bind := bind

/-- Run a program on the parsing buffer. -/
def exec {α : Type} (junk : Nat → UInt8) : Prog α → PBuf → Res (α × PBuf)
  | ret a, s => .ok (a, s)
  | fail m, _ => .err m
  | panic m, _ => .panic m
  | take n h k, s =>
    match readUpTo junk (s.index + n) s with
    | .ok (none, s') => (k ((s'.bytes.take s'.index).drop s.index)).exec junk s'
    | .ok (some m, s') => (h m).exec junk s'
    | .err m => .err m
    | .panic m => .panic m
  | index k, s => (k s.index).exec junk s
  | sync k, s => (k ()).exec junk { s with data := s.bytes }
  | query v k, s =>
    match v s.data with
    | .ok b => (k b).exec junk s
    | .err m => .err m
    | .panic m => .panic m

/-- The usual `if err != nil { return err }` after `readUpTo`: the bytes passed over. -/
def read (n : Nat) : Prog Bytes := take n fail ret

/-- `internal/parsing_buffer.go:95-99`, `AdvanceBytes`, for `n ≥ 0`. -/
def advanceBytes (n : Nat) : Prog Unit := if n = 0 then ret () else take n fail fun _ => ret ()

/-- A decoded value: the decode functions are applied to the bytes passed over (which are enough, so
that looking at the whole rest of the buffer makes no difference). -/
def ofRes {α : Type} : Res α → Prog α
  | .ok a => ret a
  | .err m => fail m
  | .panic m => panic m

/-- `internal/parsing_buffer.go:140-145`, `ReadUint8`. -/
def readUint8 : Prog Nat := do
  let b ← read 1
  ofRes (FontModel.rd8 b 0)
/-- `internal/parsing_buffer.go:133-138`, `ReadUint16`. -/
def readUint16 : Prog Nat := do
  let b ← read 2
  ofRes (Helpers.decodeUint16LE b)
/-- `internal/parsing_buffer.go:121-126`, `ReadUint24`. -/
def readUint24 : Prog Nat := do
  let b ← read 3
  ofRes (Helpers.decodeUint24LE b)
/-- `ReadUint24` when the caller ignores the error: the value is then 0. -/
def readUint24IgnoringError : Prog Nat :=
  take 3 (fun _ => ret 0) fun b => ofRes (Helpers.decodeUint24LE b)
/-- `internal/parsing_buffer.go:114-119`, `ReadUint32`. -/
def readUint32 : Prog Nat := do
  let b ← read 4
  ofRes (Helpers.decodeUint32LE b)
/-- `internal/parsing_buffer.go:107-112`, `ReadUint64`. -/
def readUint64 : Prog Nat := do
  let b ← read 8
  ofRes (Helpers.decodeUint64LE b)
/-- `internal/parsing_buffer.go:128-131`, `ReadInt32`. -/
def readInt32 : Prog Int := do
  let n ← readUint32
  return (if n < 2147483648 then (n : Int) else (n : Int) - 4294967296)
/-- `internal/parsing_buffer.go:147-152`, `ReadInt8`. -/
def readInt8 : Prog Int := do
  let b ← read 1
  let v ← ofRes (FontModel.rd8 b 0)
  return FontModel.Font.int8 v
/-- `internal/parsing_buffer.go:155-161`, `ReadBool`. -/
def readBool : Prog Bool := do
  let v ← readUint8
  if v = 0 then return false
  else if v = 1 then return true
  else fail "bool value must be 0 or 1"
/-- `internal/parsing_buffer.go:101-105`, `AdvanceShortSlice`. -/
def advanceShortSlice : Prog Unit := do
  let n ← readUint8
  advanceBytes n
/-- `internal/parsing_buffer.go:163-171`, `ReadShortStr`. -/
def readShortStr : Prog Bytes := do
  let n ← readUint8
  if n = 0 then return [] else read n
/-- `internal/parsing_buffer.go:173-181`, `ReadString`. -/
def readString : Prog Bytes := do
  let n ← readUint16
  if n = 0 then return [] else read n

end Prog
end ParseBuf
