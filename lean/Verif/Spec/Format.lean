import Verif.Go

/-! # Little-endian fields at absolute positions of the font data -/

namespace Spec

/-- The byte at a position, as a number (0 outside the data). -/
def byteAt (D : Bytes) (i : Nat) : Nat := (D.getD i 0).toNat
/-- Little-endian 16-bit field. -/
def u16At (D : Bytes) (i : Nat) : Nat := byteAt D i + 256 * byteAt D (i + 1)
/-- Little-endian 24-bit field. -/
def u24At (D : Bytes) (i : Nat) : Nat := u16At D i + 65536 * byteAt D (i + 2)
/-- Little-endian 32-bit field. -/
def u32At (D : Bytes) (i : Nat) : Nat := u24At D i + 16777216 * byteAt D (i + 3)

end Spec
