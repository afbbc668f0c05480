import Verif.Go
import Verif.Spec.Date

/-! # Dates in words: the parts that are known, with spaces between -/

namespace Spec.Calendar

/-- English names of the months. -/
inductive MonthName : Nat → String → Prop
  | jan : MonthName 1 "January"
  | feb : MonthName 2 "February"
  | mar : MonthName 3 "March"
  | apr : MonthName 4 "April"
  | may : MonthName 5 "May"
  | jun : MonthName 6 "June"
  | jul : MonthName 7 "July"
  | aug : MonthName 8 "August"
  | sep : MonthName 9 "September"
  | oct : MonthName 10 "October"
  | nov : MonthName 11 "November"
  | dec : MonthName 12 "December"

def letters (s : String) : Bytes := s.toList.map fun c => UInt8.ofNat c.toNat

/-- The number written in decimal by these bytes. -/
def numberOf (x : Bytes) : Nat := x.foldl (fun n b => 10 * n + (b.toNat - 48)) 0

/-- Decimal digits. -/
def Digits (x : Bytes) : Prop := ∀ b ∈ x, 48 ≤ b.toNat ∧ b.toNat ≤ 57

/-- A number without leading zeros. -/
structure Plain (n : Nat) (x : Bytes) : Prop where
  digits : Digits x
  value : numberOf x = n
  first : ∃ b r, x = b :: r ∧ (b = 48 → r = [])

/-- A number of at least four digits, with leading zeros only to reach four. -/
structure Padded (n : Nat) (x : Bytes) : Prop where
  digits : Digits x
  value : numberOf x = n
  four : 4 ≤ x.length
  first : x.head? = some 48 → x.length = 4

/-- The text of a date. -/
inductive Text : (year month day : Nat) → Bytes → Prop
  | unknown : Text 0 0 0 (letters "(Unknown Date)")
  | year {y ys} : y ≠ 0 → Padded y ys → Text y 0 0 ys
  | month {y m ys s} : MonthName m s → Padded y ys → Text y m 0 (letters s ++ [32] ++ ys)
  | full {y m d ys ds s} : d ≠ 0 → Plain d ds → MonthName m s → Padded y ys →
    Text y m d (ds ++ [32] ++ letters s ++ [32] ++ ys)

end Spec.Calendar
