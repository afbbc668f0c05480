/-!
# Specification: Gregorian calendar
-/

namespace Spec.Calendar

/-- Gregorian leap year rule. -/
def Leap (y : Nat) : Prop := (4 ∣ y ∧ ¬ 100 ∣ y) ∨ 400 ∣ y

/-- Days of each month. -/
inductive Days (y : Nat) : (month days : Nat) → Prop
  | jan : Days y 1 31
  | febLeap : Leap y → Days y 2 29
  | feb : ¬ Leap y → Days y 2 28
  | mar : Days y 3 31
  | apr : Days y 4 30
  | may : Days y 5 31
  | jun : Days y 6 30
  | jul : Days y 7 31
  | aug : Days y 8 31
  | sep : Days y 9 30
  | oct : Days y 10 31
  | nov : Days y 11 30
  | dec : Days y 12 31

/-- A (possibly incomplete) date: nothing, a year, a year and a month, or a calendar day. -/
inductive Valid : (year month day : Nat) → Prop
  | unknown : Valid 0 0 0
  | year {y} : y ≠ 0 → Valid y 0 0
  | month {y m n} : y ≠ 0 → Days y m n → Valid y m 0
  | full {y m d n} : y ≠ 0 → Days y m n → 1 ≤ d → d ≤ n → Valid y m d

end Spec.Calendar
