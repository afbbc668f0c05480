import Verif.Model.Helpers

/-!
# Model of `date.go`
-/

namespace DateModel
open Go

/-- `date.go:8-12`; fields are `uint16`, `uint8`, `uint8`. -/
structure Date where
  year : Nat
  month : Nat
  day : Nat
deriving DecidableEq, Repr

/-- `date.go:19-21`, `appendTo`. -/
def Date.appendTo (self : Date) (data : Bytes) : Bytes :=
  Helpers.appendUint16LE data self.year ++ [byte self.month, byte self.day]

/-- `date.go:42-46`, `isLeapYear`. -/
def isLeapYear (year : Nat) : Bool :=
  if year &&& 3 ≠ 0 then false
  else if year % 100 ≠ 0 then true
  else year % 400 == 0

/-- `date.go:48`. -/
def monthDaysTable : List Nat := [31, 28, 31, 30, 31, 30, 31, 31, 30, 31, 30, 31]

/-- `date.go:50-56`, `monthDays`: `self.Month - 1` is `uint8` arithmetic and indexes a slice of 12. -/
def Date.monthDays (self : Date) : Res Nat :=
  if self.month = 2 ∧ isLeapYear self.year then do
    let n ← idx monthDaysTable (sub8 self.month 1)
    return u8 (n + 1)
  else idx monthDaysTable (sub8 self.month 1)

/-- `date.go:25-31`, `IsValid`. -/
def Date.isValid (self : Date) : Res Bool :=
  if self.month = 0 ∧ self.day ≠ 0 then .ok false
  else if self.year = 0 ∧ (self.month ≠ 0 ∨ self.day ≠ 0) then .ok false
  else if self.month > 12 then .ok false
  else do
    let md ← self.monthDays
    if self.day > md then return false
    return true

/-- `date.go:34-36`, `IsComplete`. -/
def Date.isComplete (self : Date) : Bool := self.year != 0 && self.month != 0 && self.day != 0

end DateModel
