import Verif.Lemmas.Bytes

/-!
# C01: little-endian integer and string fields round-trip

The specification of an n-byte field is `Spec.leValue` (sum of `byte_i * 256^i`).
Appending writes exactly the bytes whose little-endian value is the argument, after the previous
contents; decoding any buffer gives the little-endian value of its first bytes.
-/

namespace C01
open Go Spec Helpers

/-- Decoding reads the little-endian value of the first 2/3/4/8 bytes of any long enough buffer,
and panics on shorter ones. -/
theorem decode_is_leValue (b : Bytes) :
    (2 ≤ b.length → decodeUint16LE b = .ok (leValue (b.take 2))) ∧
    (3 ≤ b.length → decodeUint24LE b = .ok (leValue (b.take 3))) ∧
    (4 ≤ b.length → decodeUint32LE b = .ok (leValue (b.take 4))) ∧
    (8 ≤ b.length → decodeUint64LE b = .ok (leValue (b.take 8))) ∧
    (b.length < 2 → (decodeUint16LE b).isPanic) ∧ (b.length < 3 → (decodeUint24LE b).isPanic) ∧
    (b.length < 4 → (decodeUint32LE b).isPanic) ∧ (b.length < 8 → (decodeUint64LE b).isPanic) := by
  refine ⟨decodeUint16LE_eq, decodeUint24LE_eq, decodeUint32LE_eq, decodeUint64LE_eq,
    ?_, ?_, ?_, ?_⟩
  · intro h; unfold decodeUint16LE; split <;> simp_all <;> omega
  · intro h; unfold decodeUint24LE; split <;> simp_all <;> omega
  · intro h; unfold decodeUint32LE; split <;> simp_all <;> omega
  · intro h; unfold decodeUint64LE; split <;> simp_all <;> omega

example : decodeUint24LE [0x01, 0x02, 0x03, 0xFF] = .ok 0x030201 := by decide

/-- Appending an 8-bit value adds exactly that byte. -/
theorem append8 (buf : Bytes) (v : Nat) (hv : v < 2 ^ 8) :
    ∃ bs, appendUint8 buf v = buf ++ bs ∧ bs.length = 1 ∧ leValue bs = v := by
  refine ⟨[byte v], rfl, rfl, ?_⟩
  simp only [leValue, byte_toNat]; omega

example : appendUint8 [9] 200 = [9, 200] := by decide

/-- Appending a 16-bit value adds exactly two bytes whose little-endian value is the argument. -/
theorem append16 (buf : Bytes) (v : Nat) (hv : v < 2 ^ 16) :
    ∃ bs, appendUint16LE buf v = buf ++ bs ∧ bs.length = 2 ∧ leValue bs = v := by
  refine ⟨le16 v, rfl, rfl, ?_⟩
  simp only [le16, leValue, byte_toNat, Nat.shiftRight_eq_div_pow]; omega

example : appendUint16LE [9] 0xABCD = [9, 0xCD, 0xAB] := by decide

/-- Appending a 24-bit value adds exactly three bytes; a larger argument keeps its low 24 bits. -/
theorem append24 (buf : Bytes) (v : Nat) :
    ∃ bs, appendUint24LE buf v = buf ++ bs ∧ bs.length = 3 ∧ leValue bs = v % 2 ^ 24 := by
  refine ⟨le24 v, rfl, rfl, ?_⟩
  simp only [le24, leValue, byte_toNat, Nat.shiftRight_eq_div_pow]; omega

example : appendUint24LE [] 0x01ABCDEF = [0xEF, 0xCD, 0xAB] := by decide

/-- Appending a 32-bit value adds exactly four bytes whose little-endian value is the argument. -/
theorem append32 (buf : Bytes) (v : Nat) (hv : v < 2 ^ 32) :
    ∃ bs, appendUint32LE buf v = buf ++ bs ∧ bs.length = 4 ∧ leValue bs = v := by
  refine ⟨le32 v, rfl, rfl, ?_⟩
  simp only [le32, leValue, byte_toNat, Nat.shiftRight_eq_div_pow]; omega

/-- Appending a 64-bit value adds exactly eight bytes whose little-endian value is the argument. -/
theorem append64 (buf : Bytes) (v : Nat) (hv : v < 2 ^ 64) :
    ∃ bs, appendUint64LE buf v = buf ++ bs ∧ bs.length = 8 ∧ leValue bs = v := by
  refine ⟨_, rfl, rfl, ?_⟩
  simp only [leValue, byte_toNat, Nat.shiftRight_eq_div_pow]; omega

example : appendUint64LE [] 0x0807060504030201 = [1, 2, 3, 4, 5, 6, 7, 8] := by decide

/-- Round trip at the offset where the value was appended, whatever is written afterwards. -/
theorem roundtrip (buf rest : Bytes) (v : Nat) :
    (v < 2 ^ 16 →
      decodeUint16LE ((appendUint16LE buf v ++ rest).drop buf.length) = .ok v) ∧
    (v < 2 ^ 24 →
      decodeUint24LE ((appendUint24LE buf v ++ rest).drop buf.length) = .ok v) ∧
    (v < 2 ^ 32 →
      decodeUint32LE ((appendUint32LE buf v ++ rest).drop buf.length) = .ok v) ∧
    (v < 2 ^ 64 →
      decodeUint64LE ((appendUint64LE buf v ++ rest).drop buf.length) = .ok v) := by
  refine ⟨fun h => ?_, fun h => ?_, fun h => ?_, fun h => ?_⟩
  · obtain ⟨bs, e, hl, hv⟩ := append16 buf v h
    rw [e, List.append_assoc, List.drop_left, decodeUint16LE_eq (by simp [hl]), ← hl,
      List.take_left, hv]
  · obtain ⟨bs, e, hl, hv⟩ := append24 buf v
    rw [e, List.append_assoc, List.drop_left, decodeUint24LE_eq (by simp [hl]), ← hl,
      List.take_left, hv, Nat.mod_eq_of_lt h]
  · obtain ⟨bs, e, hl, hv⟩ := append32 buf v h
    rw [e, List.append_assoc, List.drop_left, decodeUint32LE_eq (by simp [hl]), ← hl,
      List.take_left, hv]
  · obtain ⟨bs, e, hl, hv⟩ := append64 buf v h
    rw [e, List.append_assoc, List.drop_left, decodeUint64LE_eq (by simp [hl]), ← hl,
      List.take_left, hv]

example : decodeUint32LE ((appendUint32LE [7, 7] 0xDEADBEEF ++ [1, 2]).drop 2) = .ok 0xDEADBEEF := by
  decide

/-- In-place encoding overwrites exactly the field: the first bytes take the value and every other
byte (and the length) is unchanged. Too short slices panic. -/
theorem encode_in_place (buf : Bytes) (v : Nat) :
    (2 ≤ buf.length → v < 2 ^ 16 → ∃ b, encodeUint16LE buf v = .ok b ∧
      leValue (b.take 2) = v ∧ b.drop 2 = buf.drop 2 ∧ b.length = buf.length) ∧
    (3 ≤ buf.length → v < 2 ^ 24 → ∃ b, encodeUint24LE buf v = .ok b ∧
      leValue (b.take 3) = v ∧ b.drop 3 = buf.drop 3 ∧ b.length = buf.length) ∧
    (4 ≤ buf.length → v < 2 ^ 32 → ∃ b, encodeUint32LE buf v = .ok b ∧
      leValue (b.take 4) = v ∧ b.drop 4 = buf.drop 4 ∧ b.length = buf.length) ∧
    (buf.length < 2 → (encodeUint16LE buf v).isPanic) ∧
    (buf.length < 3 → (encodeUint24LE buf v).isPanic) ∧
    (buf.length < 4 → (encodeUint32LE buf v).isPanic) := by
  refine ⟨?_, ?_, ?_, ?_, ?_, ?_⟩
  · intro h hv
    match buf, h with
    | _ :: _ :: r, _ =>
      refine ⟨_, rfl, ?_, rfl, rfl⟩
      simp only [List.take, leValue, byte_toNat, Nat.shiftRight_eq_div_pow]; omega
  · intro h hv
    match buf, h with
    | _ :: _ :: _ :: r, _ =>
      refine ⟨_, rfl, ?_, rfl, rfl⟩
      simp only [List.take, leValue, byte_toNat, Nat.shiftRight_eq_div_pow]; omega
  · intro h hv
    match buf, h with
    | _ :: _ :: _ :: _ :: r, _ =>
      refine ⟨_, rfl, ?_, rfl, rfl⟩
      simp only [List.take, leValue, byte_toNat, Nat.shiftRight_eq_div_pow]; omega
  · intro h; unfold encodeUint16LE; split <;> simp_all <;> omega
  · intro h; unfold encodeUint24LE; split <;> simp_all <;> omega
  · intro h; unfold encodeUint32LE; split <;> simp_all <;> omega

example : encodeUint24LE [0, 0, 0, 42] 0x030201 = .ok [1, 2, 3, 42] := by decide

/-- Length-prefixed strings store their length followed by their bytes, and over-long strings panic
instead of being stored with a truncated length. -/
theorem strings (buf s : Bytes) :
    (s.length ≤ 255 → ∃ l, appendShortString buf s = .ok (buf ++ l :: s) ∧ l.toNat = s.length) ∧
    (s.length ≤ 65535 → ∃ l0 l1, appendString buf s = .ok (buf ++ l0 :: l1 :: s) ∧
      leValue [l0, l1] = s.length) ∧
    (255 < s.length → (appendShortString buf s).isPanic) ∧
    (65535 < s.length → (appendString buf s).isPanic) := by
  refine ⟨?_, ?_, ?_, ?_⟩
  · intro h
    refine ⟨byte s.length, ?_, ?_⟩
    · simp [appendShortString, Nat.not_lt.mpr h]
    · rw [byte_toNat]; omega
  · intro h
    refine ⟨byte s.length, byte (s.length >>> 8), ?_, ?_⟩
    · simp [appendString, appendUint16LE, Nat.not_lt.mpr h]
    · simp only [leValue, byte_toNat, Nat.shiftRight_eq_div_pow]; omega
  · intro h; simp [appendShortString, h]
  · intro h; simp [appendString, h]

example : appendShortString [0] [65, 66] = .ok [0, 2, 65, 66] := by decide

end C01
