import Verif.Model.Helpers

/-!
# C43: byte to decimal conversion
-/

namespace C43
open Helpers

/-- Decimal digits of `n` as ASCII bytes (specification). -/
def decimal (n : Nat) : Bytes := (Nat.toDigits 10 n).map fun c => UInt8.ofNat c.toNat

theorem digits_nil : ∀ v : Fin 256, appendByteDigits (UInt8.ofNat v) [] = decimal v := by
  decide +kernel

theorem digits_prefix (v : UInt8) (str : Bytes) :
    appendByteDigits v str = str ++ appendByteDigits v [] := by
  unfold appendByteDigits
  simp only
  split <;> split <;> simp

/-- **C43.** For every byte and every prefix, the decimal representation is appended. -/
theorem appendByteDigits_decimal (v : UInt8) (str : Bytes) :
    appendByteDigits v str = str ++ decimal v.toNat := by
  rw [digits_prefix]
  have := digits_nil ⟨v.toNat, UInt8.toNat_lt v⟩
  simp only [UInt8.ofNat_toNat] at this
  rw [this]

example : appendByteDigits 207 [65] = [65, 50, 48, 55] := by decide

end C43
