import Verif.Model.Font
import Verif.Lemmas.Bytes
import Verif.Spec.Format

/-! # Reads from the font data -/

namespace FontModel
open Go Helpers Spec

theorem byteAt_lt (D : Bytes) (i : Nat) : byteAt D i < 256 := toNat_lt _
theorem u16At_lt (D : Bytes) (i : Nat) : u16At D i < 65536 := by
  have := byteAt_lt D i; have := byteAt_lt D (i + 1); simp only [u16At]; omega
theorem u24At_lt (D : Bytes) (i : Nat) : u24At D i < 16777216 := by
  have := u16At_lt D i; have := byteAt_lt D (i + 2); simp only [u24At]; omega
theorem u32At_lt (D : Bytes) (i : Nat) : u32At D i < 4294967296 := by
  have := u24At_lt D i; have := byteAt_lt D (i + 3); simp only [u32At]; omega

theorem byteAt_eq {D : Bytes} {i : Nat} (h : i < D.length) : byteAt D i = D[i].toNat := by
  simp [byteAt, h]

theorem byteAt_append_left {a x : Bytes} {i : Nat} (h : i < a.length) :
    byteAt (a ++ x) i = byteAt a i := by
  simp [byteAt, List.getElem?_append_left h]

theorem byteAt_append_right {a x : Bytes} {i : Nat} (h : a.length ≤ i) :
    byteAt (a ++ x) i = byteAt x (i - a.length) := by
  simp [byteAt, List.getElem?_append_right h]

theorem u16At_append_left {a x : Bytes} {i : Nat} (h : i + 2 ≤ a.length) :
    u16At (a ++ x) i = u16At a i := by
  simp only [u16At]
  rw [byteAt_append_left (by omega), byteAt_append_left (by omega)]

theorem u24At_append_left {a x : Bytes} {i : Nat} (h : i + 3 ≤ a.length) :
    u24At (a ++ x) i = u24At a i := by
  simp only [u24At]
  rw [u16At_append_left (by omega), byteAt_append_left (by omega)]

theorem u32At_append_left {a x : Bytes} {i : Nat} (h : i + 4 ≤ a.length) :
    u32At (a ++ x) i = u32At a i := by
  simp only [u32At]
  rw [u24At_append_left (by omega), byteAt_append_left (by omega)]

theorem u16At_append_right {a x : Bytes} {i : Nat} (h : a.length ≤ i) :
    u16At (a ++ x) i = u16At x (i - a.length) := by
  simp only [u16At]
  rw [byteAt_append_right h, byteAt_append_right (by omega),
    show i + 1 - a.length = i - a.length + 1 by omega]

theorem u24At_append_right {a x : Bytes} {i : Nat} (h : a.length ≤ i) :
    u24At (a ++ x) i = u24At x (i - a.length) := by
  simp only [u24At]
  rw [u16At_append_right h, byteAt_append_right (by omega),
    show i + 2 - a.length = i - a.length + 2 by omega]

theorem u32At_append_right {a x : Bytes} {i : Nat} (h : a.length ≤ i) :
    u32At (a ++ x) i = u32At x (i - a.length) := by
  simp only [u32At]
  rw [u24At_append_right h, byteAt_append_right (by omega),
    show i + 3 - a.length = i - a.length + 3 by omega]

theorem byteAt_drop (D : Bytes) (o i : Nat) : byteAt (D.drop o) i = byteAt D (o + i) := by
  simp [byteAt]

theorem u16At_drop (D : Bytes) (o i : Nat) : u16At (D.drop o) i = u16At D (o + i) := by
  simp only [u16At, byteAt_drop, Nat.add_assoc]
theorem u24At_drop (D : Bytes) (o i : Nat) : u24At (D.drop o) i = u24At D (o + i) := by
  simp only [u24At, u16At_drop, byteAt_drop, Nat.add_assoc]
theorem u32At_drop (D : Bytes) (o i : Nat) : u32At (D.drop o) i = u32At D (o + i) := by
  simp only [u32At, u24At_drop, byteAt_drop, Nat.add_assoc]

theorem byteAt_take {D : Bytes} {n i : Nat} (h : i < n) : byteAt (D.take n) i = byteAt D i := by
  simp [byteAt, List.getElem?_take, h]
theorem u16At_take {D : Bytes} {n i : Nat} (h : i + 2 ≤ n) : u16At (D.take n) i = u16At D i := by
  simp only [u16At]; rw [byteAt_take (by omega), byteAt_take (by omega)]
theorem u24At_take {D : Bytes} {n i : Nat} (h : i + 3 ≤ n) : u24At (D.take n) i = u24At D i := by
  simp only [u24At]; rw [u16At_take (by omega), byteAt_take (by omega)]
theorem u32At_take {D : Bytes} {n i : Nat} (h : i + 4 ≤ n) : u32At (D.take n) i = u32At D i := by
  simp only [u32At]; rw [u24At_take (by omega), byteAt_take (by omega)]

theorem decode16 {b : Bytes} (h : 2 ≤ b.length) : decodeUint16LE b = .ok (u16At b 0) := by
  match b, h with
  | b0 :: b1 :: r, _ => rw [decodeUint16LE_cons]; simp [u16At, byteAt]

theorem decode24 {b : Bytes} (h : 3 ≤ b.length) : decodeUint24LE b = .ok (u24At b 0) := by
  match b, h with
  | b0 :: b1 :: b2 :: r, _ => rw [decodeUint24LE_cons]; simp [u24At, u16At, byteAt]

theorem decode32 {b : Bytes} (h : 4 ≤ b.length) : decodeUint32LE b = .ok (u32At b 0) := by
  match b, h with
  | b0 :: b1 :: b2 :: b3 :: r, _ =>
    rw [decodeUint32LE_cons]; simp [u32At, u24At, u16At, byteAt]

theorem rd8_eq {D : Bytes} {o : Nat} (h : o < D.length) : rd8 D o = .ok (byteAt D o) := by
  simp [rd8, idx_lt h, byteAt_eq h]

theorem rd16_eq {D : Bytes} {o : Nat} (h : o + 2 ≤ D.length) : rd16 D o = .ok (u16At D o) := by
  simp only [rd16, sliceFrom]
  rw [if_pos (by omega), Res.ok_bind, decode16 (by simp; omega), u16At_drop, Nat.add_zero]

theorem rd24_eq {D : Bytes} {o : Nat} (h : o + 3 ≤ D.length) : rd24 D o = .ok (u24At D o) := by
  simp only [rd24, sliceFrom]
  rw [if_pos (by omega), Res.ok_bind, decode24 (by simp; omega), u24At_drop, Nat.add_zero]

theorem rd32_eq {D : Bytes} {o : Nat} (h : o + 4 ≤ D.length) : rd32 D o = .ok (u32At D o) := by
  simp only [rd32, sliceFrom]
  rw [if_pos (by omega), Res.ok_bind, decode32 (by simp; omega), u32At_drop, Nat.add_zero]

theorem rd64_append {a x : Bytes} {o : Nat} (h : o + 8 ≤ a.length) : rd64 (a ++ x) o = rd64 a o := by
  simp only [rd64, sliceFrom, List.length_append]
  rw [if_pos (by omega), if_pos (by omega), List.drop_append_of_le_length (by omega)]
  simp only [Res.ok_bind]
  rw [decodeUint64LE_eq (by simp; omega), decodeUint64LE_eq (by simp; omega),
    List.take_append_of_le_length (by simp; omega)]

theorem rd64_ok {a : Bytes} {o : Nat} (h : o + 8 ≤ a.length) :
    rd64 a o = .ok (leValue ((a.drop o).take 8)) := by
  simp only [rd64, sliceFrom]
  rw [if_pos (by omega), Res.ok_bind, decodeUint64LE_eq (by simp; omega)]

theorem unsafeString_eq {D : Bytes} {o n : Nat} (h : o < D.length) (h' : o + n ≤ D.length) :
    unsafeString D o n = .ok ((D.drop o).take n) := by
  simp only [unsafeString, idx_lt h, Res.ok_bind]
  rw [if_pos h']; rfl

theorem rd8_append {a x : Bytes} {o : Nat} (h : o < a.length) : rd8 (a ++ x) o = rd8 a o := by
  rw [rd8_eq h, rd8_eq (by simp; omega), byteAt_append_left h]
theorem rd16_append {a x : Bytes} {o : Nat} (h : o + 2 ≤ a.length) :
    rd16 (a ++ x) o = rd16 a o := by
  rw [rd16_eq h, rd16_eq (by simp; omega), u16At_append_left h]
theorem rd24_append {a x : Bytes} {o : Nat} (h : o + 3 ≤ a.length) :
    rd24 (a ++ x) o = rd24 a o := by
  rw [rd24_eq h, rd24_eq (by simp; omega), u24At_append_left h]
theorem rd32_append {a x : Bytes} {o : Nat} (h : o + 4 ≤ a.length) :
    rd32 (a ++ x) o = rd32 a o := by
  rw [rd32_eq h, rd32_eq (by simp; omega), u32At_append_left h]
theorem unsafeString_append {a x : Bytes} {o n : Nat} (h : o < a.length) (h' : o + n ≤ a.length) :
    unsafeString (a ++ x) o n = unsafeString a o n := by
  rw [unsafeString_eq h h', unsafeString_eq (by simp; omega) (by simp; omega),
    List.drop_append_of_le_length (by omega), List.take_append_of_le_length (by simp; omega)]

end FontModel
