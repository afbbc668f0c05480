import Verif.Go

/-!
# Model of `internal/circular_buffer.go`
-/

namespace Circular
open Go

/-- `internal/circular_buffer.go:3-9`; the counters are `uint16`. -/
structure Buf (α : Type) where
  buffer : List α
  capacity : Nat
  headIndex : Nat
  numElements : Nat
  numPeeks : Nat
deriving DecidableEq, Repr

variable {α : Type}

/-- The zero value of the Go struct. -/
def Buf.zero : Buf α := ⟨[], 0, 0, 0, 0⟩

namespace Buf

/-- Lines 11-13. -/
def isEmpty (self : Buf α) : Bool := self.numElements == 0

/-- Lines 23-27, `Clear`. -/
def clear (self : Buf α) : Buf α := { self with headIndex := 0, numElements := 0, numPeeks := 0 }

/-- Lines 147-157, `unsafeLastElemIndex`. -/
def lastElemIndex (self : Buf α) : Nat :=
  let index := sub16 (u16 (self.headIndex + self.numElements)) 1
  if index < self.headIndex then sub16 self.numElements (sub16 self.capacity self.headIndex)
  else if index < self.capacity then index
  else sub16 index self.capacity

/-- Lines 160-170, `unsafePeekElemIndex`. -/
def peekElemIndex (self : Buf α) : Nat :=
  let index := u16 (self.headIndex + self.numPeeks)
  if index < self.headIndex then sub16 self.numPeeks (sub16 self.capacity self.headIndex)
  else if index < self.capacity then index
  else sub16 index self.capacity

/-- Lines 30-39, `Push`. -/
def push (self : Buf α) (element : α) : Res (Buf α) :=
  if self.numElements ≥ self.capacity then
    .panic "can't Push() into CircularBufferU16, buffer already full"
  else do
    let self := { self with numElements := u16 (self.numElements + 1) }
    let buffer ← setAt self.buffer self.lastElemIndex element
    return { self with buffer := buffer }

/-- Lines 41-53, `PeekAhead`. The zero value returned on an empty buffer is `none`. -/
def peekAhead (self : Buf α) : Res (Option α × Bool × Buf α) :=
  if self.isEmpty then .ok (none, false, self)
  else if self.numPeeks = sub16 self.numElements 1 then do
    let e ← idx self.buffer self.peekElemIndex
    return (some e, false, self)
  else do
    let self := { self with numPeeks := u16 (self.numPeeks + 1) }
    let e ← idx self.buffer self.peekElemIndex
    return (some e, true, self)

/-- Lines 55-57, `DiscardPeeks`. -/
def discardPeeks (self : Buf α) : Buf α := { self with numPeeks := 0 }

/-- Lines 59-63, `ConfirmPeeks`. -/
def confirmPeeks (self : Buf α) : Buf α :=
  { self with
    headIndex := self.peekElemIndex
    numElements := sub16 self.numElements self.numPeeks
    numPeeks := 0 }

/-- Lines 65-71, `Head`. -/
def head (self : Buf α) : Res α :=
  if self.isEmpty then .panic "can't Head() on empty CircularBufferU16"
  else idx self.buffer self.headIndex

/-- Lines 73-79, `Tail`. -/
def tail (self : Buf α) : Res α :=
  if self.isEmpty then .panic "can't Tail() on empty CircularBufferU16"
  else idx self.buffer self.lastElemIndex

/-- Lines 81-93, `PopHead`. -/
def popHead (self : Buf α) : Res (α × Buf α) :=
  if self.isEmpty then .panic "can't PopHead() on empty CircularBufferU16"
  else do
    let element ← idx self.buffer self.headIndex
    let self := { self with
      numElements := sub16 self.numElements 1, headIndex := u16 (self.headIndex + 1) }
    let self := if self.headIndex = self.capacity then { self with headIndex := 0 } else self
    return (element, self)

/-- Lines 95-103, `PopTail`. -/
def popTail (self : Buf α) : Res (α × Buf α) :=
  if self.isEmpty then .panic "can't PopTail() on empty CircularBufferU16"
  else do
    let element ← idx self.buffer self.lastElemIndex
    return (element, { self with numElements := sub16 self.numElements 1 })

/-- Go `copy(b[dstLo:dstHi], b[srcLo:srcHi])` on one backing array (memmove semantics). -/
def copyWithin (b : List α) (dstLo dstHi srcLo srcHi : Nat) : Res (List α) :=
  if dstLo ≤ dstHi ∧ dstHi ≤ b.length ∧ srcLo ≤ srcHi ∧ srcHi ≤ b.length then
    let n := min (dstHi - dstLo) (srcHi - srcLo)
    .ok (b.take dstLo ++ (b.drop srcLo).take n ++ b.drop (dstLo + n))
  else .panic "slice bounds out of range"

/-- Lines 111-142, `SetCapacity`. When the slice grows, `GrowSliceByN` may expose old memory of the
backing array: `junk` stands for those unspecified elements (as many as needed are taken). -/
def setCapacity (self : Buf α) (capacity : Nat) (junk : List α) : Res (Bool × Buf α) :=
  if self.capacity = capacity then .ok (true, self)
  else if capacity < self.numElements then .ok (false, self)
  else if capacity < self.capacity then do
    let lenReduction := sub16 self.capacity capacity
    let self' ← (if self.numElements > sub16 self.capacity self.headIndex then do
        let b ← copyWithin self.buffer (sub16 self.headIndex lenReduction) self.buffer.length
          self.headIndex self.buffer.length
        return { self with buffer := b, headIndex := sub16 self.headIndex lenReduction }
      else if self.headIndex > sub16 capacity self.numElements then do
        let b ← copyWithin self.buffer 0 self.numElements self.headIndex
          (u16 (self.headIndex + self.numElements))
        return { self with buffer := b, headIndex := 0 }
      else return self)
    let b ← slice self'.buffer 0 capacity
    return (true, { self' with buffer := b, capacity := capacity })
  else do
    let extraLen := sub16 capacity self.capacity
    let grown := self.buffer ++ junk.take extraLen
    let self' ← (if self.numElements > sub16 self.capacity self.headIndex then do
        let b ← copyWithin grown (u16 (self.headIndex + extraLen)) grown.length
          self.headIndex self.capacity
        return { self with buffer := b, headIndex := u16 (self.headIndex + extraLen) }
      else return { self with buffer := grown })
    return (true, { self' with capacity := capacity })

/-- Lines 105-108, `SetMinCapacity`. -/
def setMinCapacity (self : Buf α) (capacity : Nat) (junk : List α) : Res (Bool × Buf α) :=
  if self.capacity ≥ capacity then .ok (true, self)
  else self.setCapacity capacity junk

end Buf
end Circular
