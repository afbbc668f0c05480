import Verif.Go

/-!
# Model of `internal/helpers.go`

Slices are lists. `GrowSliceByN`, `GrowSliceByOne` and `SetSliceSize` (lines 7-40) are only memory
management and appear in the models of their callers.
-/

namespace Helpers
open Go

/-- `internal/helpers.go:42-53`, `DeleteElementAt`. The element that is moved past the end of the
returned slice (line 51) is not visible through the returned slice and is not modelled.
`index` is non-negative. -/
def deleteElementAt {α : Type u} (buffer : List α) (index : Nat) : List α :=
  let size := buffer.length
  if index + 1 > size then buffer
  else if index + 1 = size then buffer.take (size - 1)
  else buffer.take index ++ buffer.drop (index + 1)

/-- Loop of `internal/helpers.go:60-67`. `fuel` bounds the iterations; `badBinarySearch` passes
enough of it (the interval shrinks at each step). Elements are compared as `Nat`: the Go
instances are integer types. -/
def badBinarySearchLoop (slice : List Nat) (target : Nat) :
    (fuel minIndex maxIndex : Nat) → Res Nat
  | 0, minIndex, _ => .ok minIndex
  | fuel + 1, minIndex, maxIndex =>
    if minIndex < maxIndex then do
      let ctrIndex := (minIndex + maxIndex) >>> 1
      let v ← idx slice ctrIndex
      if v < target then badBinarySearchLoop slice target fuel (ctrIndex + 1) maxIndex
      else badBinarySearchLoop slice target fuel minIndex ctrIndex
    else .ok minIndex

/-- `internal/helpers.go:57-69`, `BadBinarySearch`. -/
def badBinarySearch (slice : List Nat) (target : Nat) : Res (Nat × Bool) := do
  let numElements := slice.length
  let minIndex ← badBinarySearchLoop slice target (numElements + 1) 0 numElements
  if minIndex < numElements then
    let v ← idx slice minIndex
    return (minIndex, v == target)
  else return (minIndex, false)

/-- Loop of `internal/helpers.go:74-79`, walking down from `insertionIndex`;
`none` is the redundant case (line 77). -/
def orderedInsertPos (buffer : List Nat) (element : Nat) : (insertionIndex : Nat) → Res (Option Nat)
  | 0 => .ok (some 0)
  | i + 1 => do
    let candidate ← idx buffer i
    if candidate < element then return some (i + 1)
    if candidate == element then return none
    orderedInsertPos buffer element i

/-- `internal/helpers.go:71-89`, `BasicOrderedNonRepeatInsert`. -/
def basicOrderedNonRepeatInsert (buffer : List Nat) (element : Nat) : Res (List Nat) := do
  match ← orderedInsertPos buffer element buffer.length with
  | none => return buffer
  | some insertionIndex => return buffer.take insertionIndex ++ element :: buffer.drop insertionIndex

/-- `internal/helpers.go:91-94`, `BoolErrCheck`. -/
def boolErrCheck (value : UInt8) : Res Unit :=
  if value = 0 ∨ value = 1 then .ok () else .err "bool value must be 0 or 1"

/-- `internal/helpers.go:96-99`, `BoolToUint8`. -/
def boolToUint8 (b : Bool) : UInt8 := if b then 1 else 0

/-- Pattern counting loop of `internal/helpers.go:103-107`: 32 iterations (`i` goes 0, 2, .., 62),
each one looks at the two low bits and shifts by *one*. The counters are `uint8`; they never exceed
32 so no wrap is written. -/
def entropyPatterns : (iters : Nat) → (value : Nat) → (counts : Nat × Nat × Nat × Nat) →
    Nat × Nat × Nat × Nat
  | 0, _, c => c
  | n + 1, value, (a, b, c, d) =>
    let counts := match value &&& 3 with
      | 0 => (a + 1, b, c, d)
      | 1 => (a, b + 1, c, d)
      | 2 => (a, b, c + 1, d)
      | _ => (a, b, c, d + 1)
    entropyPatterns n (value >>> 1) counts

/-- One step of `internal/helpers.go:110-116` (`uint8` accumulation). -/
def entropyDistStep (dist count : Nat) : Nat :=
  if count ≤ 8 then u8 (dist + (8 - count)) else u8 (dist + (count - 8))

/-- The integer `dist` of `internal/helpers.go:109-116`. -/
def entropyDist (value : Nat) : Nat :=
  let (a, b, c, d) := entropyPatterns 32 value (0, 0, 0, 0)
  entropyDistStep (entropyDistStep (entropyDistStep (entropyDistStep 0 a) b) c) d

/-- `internal/helpers.go:102-119`, `LazyEntropyUint64`, as the exact rational `1 - dist/48`
(Go computes it in `float64`; only the comparison with a threshold is used). -/
def lazyEntropyUint64 (value : Nat) : Rat := 1 - (entropyDist value : Rat) / 48

/-- `internal/helpers.go:121-131`, `CryptoRandUint64`; the bytes come from `crypto/rand`. -/
def cryptoRandUint64 (randBytes : Bytes) : Nat :=
  (List.range 8).foldl (fun id i => id ||| ((randBytes.getD i 0).toNat <<< (i <<< 3))) 0

/-- `internal/helpers.go:135-138`. -/
def decodeUint16LE (buffer : Bytes) : Res Nat :=
  match buffer with
  | b0 :: b1 :: _ => .ok (b0.toNat ||| (b1.toNat <<< 8))
  | _ => .panic "len(buffer)"

/-- `internal/helpers.go:140-143`. -/
def decodeUint24LE (buffer : Bytes) : Res Nat :=
  match buffer with
  | b0 :: b1 :: b2 :: _ => .ok ((b0.toNat <<< 0) ||| (b1.toNat <<< 8) ||| (b2.toNat <<< 16))
  | _ => .panic "len(buffer)"

/-- `internal/helpers.go:145-149`. -/
def decodeUint32LE (buffer : Bytes) : Res Nat :=
  match buffer with
  | b0 :: b1 :: b2 :: b3 :: _ =>
    .ok ((b0.toNat <<< 0) ||| (b1.toNat <<< 8) ||| (b2.toNat <<< 16) ||| (b3.toNat <<< 24))
  | _ => .panic "len(buffer)"

/-- `internal/helpers.go:151-154`, `DecodeDate`: year, month, day. -/
def decodeDate (buffer : Bytes) : Res (Nat × Nat × Nat) :=
  match buffer with
  | b0 :: b1 :: b2 :: b3 :: _ => do
    let y ← decodeUint16LE [b0, b1]
    return (y, b2.toNat, b3.toNat)
  | _ => .panic "len(buffer)"

/-- `internal/helpers.go:156-161`. -/
def decodeUint64LE (buffer : Bytes) : Res Nat :=
  match buffer with
  | b0 :: b1 :: b2 :: b3 :: b4 :: b5 :: b6 :: b7 :: _ =>
    .ok ((b0.toNat <<< 0) ||| (b1.toNat <<< 8) ||| (b2.toNat <<< 16) ||| (b3.toNat <<< 24) |||
      (b4.toNat <<< 32) ||| (b5.toNat <<< 40) ||| (b6.toNat <<< 48) ||| (b7.toNat <<< 56))
  | _ => .panic "len(buffer)"

/-- `internal/helpers.go:163-165`. -/
def appendUint8 (buffer : Bytes) (value : Nat) : Bytes := buffer ++ [byte value]

/-- `internal/helpers.go:167-169`. -/
def appendUint16LE (buffer : Bytes) (value : Nat) : Bytes :=
  buffer ++ [byte value, byte (value >>> 8)]

/-- `internal/helpers.go:171-175`: contents of the slice after the call. -/
def encodeUint16LE (buffer : Bytes) (value : Nat) : Res Bytes :=
  match buffer with
  | _ :: _ :: rest => .ok (byte value :: byte (value >>> 8) :: rest)
  | _ => .panic "invalid usage of encodeUint16LE"

/-- `internal/helpers.go:177-179`. -/
def appendUint24LE (buffer : Bytes) (value : Nat) : Bytes :=
  buffer ++ [byte value, byte (value >>> 8), byte (value >>> 16)]

/-- `internal/helpers.go:181-186`: contents of the slice after the call. -/
def encodeUint24LE (buffer : Bytes) (value : Nat) : Res Bytes :=
  match buffer with
  | _ :: _ :: _ :: rest => .ok (byte value :: byte (value >>> 8) :: byte (value >>> 16) :: rest)
  | _ => .panic "invalid usage of encodeUint24LE"

/-- `internal/helpers.go:188-190`. -/
def appendUint32LE (buffer : Bytes) (value : Nat) : Bytes :=
  buffer ++ [byte value, byte (value >>> 8), byte (value >>> 16), byte (value >>> 24)]

/-- `internal/helpers.go:192-198`: contents of the slice after the call. -/
def encodeUint32LE (buffer : Bytes) (value : Nat) : Res Bytes :=
  match buffer with
  | _ :: _ :: _ :: _ :: rest =>
    .ok (byte value :: byte (value >>> 8) :: byte (value >>> 16) :: byte (value >>> 24) :: rest)
  | _ => .panic "invalid usage of encodeUint32LE"

/-- `internal/helpers.go:200-206`. -/
def appendUint64LE (buffer : Bytes) (value : Nat) : Bytes :=
  buffer ++ [byte value, byte (value >>> 8), byte (value >>> 16), byte (value >>> 24),
    byte (value >>> 32), byte (value >>> 40), byte (value >>> 48), byte (value >>> 56)]

/-- `internal/helpers.go:208-211`. -/
def appendShortString (buffer str : Bytes) : Res Bytes :=
  if str.length > 255 then .panic "appendShortString() can't append string with len() > 255"
  else .ok (buffer ++ [byte str.length] ++ str)

/-- `internal/helpers.go:213-216`. -/
def appendString (buffer str : Bytes) : Res Bytes :=
  if str.length > 65535 then .panic "appendString() can't append string with len() > 65535"
  else .ok (appendUint16LE buffer str.length ++ str)

/-- `internal/helpers.go:218-228`, `AppendByteDigits`. -/
def appendByteDigits (value : UInt8) (str : Bytes) : Bytes :=
  let str := if value > 99 then str ++ [value / 100 + 48] else str
  let str := if value > 9 then str ++ [(value / 10) % 10 + 48] else str
  str ++ [value % 10 + 48]

/-! ### `BoolList` (`internal/helpers.go:230-307`) -/

/-- `internal/helpers.go:230-233`. -/
structure BoolList where
  size : Nat
  bools : Bytes
deriving DecidableEq, Repr

namespace BoolList

/-- `uint8(1) << (i & 7)`, the mask of lines 268, 276, 282 and 291. -/
def bitMask (i : Nat) : UInt8 := 1 <<< UInt8.ofNat (i &&& 7)

/-- `internal/helpers.go:235-241`, `NewBoolList`. -/
def new (size : Int) : BoolList :=
  if size ≤ 0 then ⟨0, []⟩ else ⟨size.toNat, List.replicate ((size.toNat + 7) >>> 3) 0⟩

/-- `internal/helpers.go:266-270`, `Get` (also `IsSet`, line 263). -/
def get (self : BoolList) (i : Int) : Res Bool :=
  if i < 0 ∨ i ≥ self.size then .panic "out of bounds"
  else do
    let w ← idx self.bools (i.toNat >>> 3)
    return (w &&& bitMask i.toNat) != 0

/-- `internal/helpers.go:275-278`, `GetU8`: no check against `size`. -/
def getU8 (self : BoolList) (i : UInt8) : Res Bool := do
  let w ← idx self.bools (i.toNat >>> 3)
  return (w &&& bitMask i.toNat) != 0

/-- Shared body of `Set` and `SetU8` (lines 283-287 and 292-296). -/
def write (self : BoolList) (i : Nat) (value : Bool) : Res BoolList := do
  let w ← idx self.bools (i >>> 3)
  let w' := if value then w ||| bitMask i else w &&& ~~~ (bitMask i)
  let bools ← setAt self.bools (i >>> 3) w'
  return { self with bools := bools }

/-- `internal/helpers.go:280-288`, `Set`. -/
def set (self : BoolList) (i : Int) (value : Bool) : Res BoolList :=
  if i < 0 ∨ i ≥ self.size then .panic "out of bounds" else self.write i.toNat value

/-- `internal/helpers.go:290-297`, `SetU8`: no check against `size`. -/
def setU8 (self : BoolList) (i : UInt8) (value : Bool) : Res BoolList := self.write i.toNat value

/-- `internal/helpers.go:243-249`, `Push`. -/
def push (self : BoolList) (value : Bool) : Res BoolList :=
  let self := if self.size >>> 3 ≥ self.bools.length then { self with bools := self.bools ++ [0] }
    else self
  let self := { self with size := self.size + 1 }
  self.set (self.size - 1) value

/-- `internal/helpers.go:251-255`, `SetAllFalse`. -/
def setAllFalse (self : BoolList) : BoolList := { self with bools := self.bools.map fun _ => 0 }

/-- `internal/helpers.go:257-261`, `SetAllTrue`. -/
def setAllTrue (self : BoolList) : BoolList := { self with bools := self.bools.map fun _ => 255 }

end BoolList
end Helpers
