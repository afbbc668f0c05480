import Verif.Model.Helpers

/-!
# Model of the remaining accessors of `BoolList` (`internal/helpers.go:263-307`)
-/

namespace Helpers.BoolList
open Go

/-- `internal/helpers.go:264`, `IsUnset`. -/
def isUnset (self : BoolList) (i : Int) : Res Bool := do
  let b ← self.get i
  return !b

/-- `internal/helpers.go:273`, `IsUnsetU8`. -/
def isUnsetU8 (self : BoolList) (i : UInt8) : Res Bool := do
  let b ← self.getU8 i
  return !b

/-- `internal/helpers.go:299-301`, `RawGetU8`. -/
def rawGetU8 (self : BoolList) (word bitMask : UInt8) : Res Bool := do
  let w ← idx self.bools word.toNat
  return (w &&& bitMask) != 0

/-- `internal/helpers.go:303-307`, `GetWordAndBitMaskU8` (does not use the receiver). -/
def wordAndBitMaskU8 (i : UInt8) : UInt8 × UInt8 := (i >>> 3, 1 <<< (i &&& 7))

end Helpers.BoolList
