import Verif.Model.Helpers
import Verif.Spec.Bytes

namespace Helpers
open Go Spec

theorem or_shift {a b i : Nat} (h : a < 2 ^ i) : a ||| (b <<< i) = a + 2 ^ i * b := by
  rw [Nat.shiftLeft_eq, Nat.mul_comm b, Nat.or_comm, ← Nat.two_pow_add_eq_or_of_lt h, Nat.add_comm]

theorem toNat_lt (b : UInt8) : b.toNat < 256 := UInt8.toNat_lt b

theorem decodeUint16LE_cons (b0 b1 : UInt8) (r : Bytes) :
    decodeUint16LE (b0 :: b1 :: r) = .ok (b0.toNat + 256 * b1.toNat) := by
  have h0 := toNat_lt b0
  simp only [decodeUint16LE]
  rw [or_shift (by omega)]

theorem decodeUint24LE_cons (b0 b1 b2 : UInt8) (r : Bytes) :
    decodeUint24LE (b0 :: b1 :: b2 :: r) =
      .ok (b0.toNat + 256 * b1.toNat + 65536 * b2.toNat) := by
  have h0 := toNat_lt b0; have h1 := toNat_lt b1
  simp only [decodeUint24LE, Nat.shiftLeft_zero]
  rw [or_shift (i := 8) (by omega), or_shift (i := 16) (by omega)]

theorem decodeUint32LE_cons (b0 b1 b2 b3 : UInt8) (r : Bytes) :
    decodeUint32LE (b0 :: b1 :: b2 :: b3 :: r) =
      .ok (b0.toNat + 256 * b1.toNat + 65536 * b2.toNat + 16777216 * b3.toNat) := by
  have h0 := toNat_lt b0; have h1 := toNat_lt b1; have h2 := toNat_lt b2
  simp only [decodeUint32LE, Nat.shiftLeft_zero]
  rw [or_shift (i := 8) (by omega), or_shift (i := 16) (by omega), or_shift (i := 24) (by omega)]

theorem decodeUint64LE_cons (b0 b1 b2 b3 b4 b5 b6 b7 : UInt8) (r : Bytes) :
    decodeUint64LE (b0 :: b1 :: b2 :: b3 :: b4 :: b5 :: b6 :: b7 :: r) =
      .ok (b0.toNat + 2 ^ 8 * b1.toNat + 2 ^ 16 * b2.toNat + 2 ^ 24 * b3.toNat +
        2 ^ 32 * b4.toNat + 2 ^ 40 * b5.toNat + 2 ^ 48 * b6.toNat + 2 ^ 56 * b7.toNat) := by
  have h0 := toNat_lt b0; have h1 := toNat_lt b1; have h2 := toNat_lt b2
  have h3 := toNat_lt b3; have h4 := toNat_lt b4; have h5 := toNat_lt b5
  have h6 := toNat_lt b6
  simp only [decodeUint64LE, Nat.shiftLeft_zero]
  rw [or_shift (i := 8) (by omega), or_shift (i := 16) (by omega), or_shift (i := 24) (by omega),
    or_shift (i := 32) (by omega), or_shift (i := 40) (by omega), or_shift (i := 48) (by omega),
    or_shift (i := 56) (by omega)]

theorem decodeUint16LE_eq {b : Bytes} (h : 2 ≤ b.length) :
    decodeUint16LE b = .ok (leValue (b.take 2)) := by
  match b, h with
  | b0 :: b1 :: r, _ => rw [decodeUint16LE_cons]; simp [leValue]

theorem decodeUint24LE_eq {b : Bytes} (h : 3 ≤ b.length) :
    decodeUint24LE b = .ok (leValue (b.take 3)) := by
  match b, h with
  | b0 :: b1 :: b2 :: r, _ => rw [decodeUint24LE_cons]; simp [leValue]; omega

theorem decodeUint32LE_eq {b : Bytes} (h : 4 ≤ b.length) :
    decodeUint32LE b = .ok (leValue (b.take 4)) := by
  match b, h with
  | b0 :: b1 :: b2 :: b3 :: r, _ => rw [decodeUint32LE_cons]; simp [leValue]; omega

theorem decodeUint64LE_eq {b : Bytes} (h : 8 ≤ b.length) :
    decodeUint64LE b = .ok (leValue (b.take 8)) := by
  match b, h with
  | b0 :: b1 :: b2 :: b3 :: b4 :: b5 :: b6 :: b7 :: r, _ =>
    rw [decodeUint64LE_cons]; simp [leValue]; omega

/-- The bytes written for a 16-bit value. -/
def le16 (v : Nat) : Bytes := [byte v, byte (v >>> 8)]
/-- The bytes written for a 24-bit value. -/
def le24 (v : Nat) : Bytes := [byte v, byte (v >>> 8), byte (v >>> 16)]
/-- The bytes written for a 32-bit value. -/
def le32 (v : Nat) : Bytes := [byte v, byte (v >>> 8), byte (v >>> 16), byte (v >>> 24)]

@[simp] theorem le16_length (v : Nat) : (le16 v).length = 2 := rfl
@[simp] theorem le24_length (v : Nat) : (le24 v).length = 3 := rfl
@[simp] theorem le32_length (v : Nat) : (le32 v).length = 4 := rfl

theorem decodeUint16LE_le16 (v : Nat) (r : Bytes) :
    decodeUint16LE (le16 v ++ r) = .ok (v % 65536) := by
  simp only [le16, List.cons_append, decodeUint16LE_cons, byte_toNat, Nat.shiftRight_eq_div_pow]
  congr 1; omega

theorem decodeUint24LE_le24 (v : Nat) (r : Bytes) :
    decodeUint24LE (le24 v ++ r) = .ok (v % 16777216) := by
  simp only [le24, List.cons_append, decodeUint24LE_cons, byte_toNat, Nat.shiftRight_eq_div_pow]
  congr 1; omega

theorem decodeUint32LE_le32 (v : Nat) (r : Bytes) :
    decodeUint32LE (le32 v ++ r) = .ok (v % 4294967296) := by
  simp only [le32, List.cons_append, decodeUint32LE_cons, byte_toNat, Nat.shiftRight_eq_div_pow]
  congr 1; omega

end Helpers
