import Verif.Model.Date

/-!
# Dates as text (`date.go:38-40,58-79`)

Strings are bytes. `fmt.Sprintf` is trusted: `%d` writes the decimal digits, `%04d` adds leading zeros up to four.
-/

namespace DateModel
open Go

/-- `%d`, from the last digit. The fuel bounds the number of digits. -/
def digitsUpTo : Nat → Nat → Bytes
  | 0, _ => []
  | fuel + 1, n => if n < 10 then [byte (48 + n)] else digitsUpTo fuel (n / 10) ++ [byte (48 + n % 10)]

/-- `fmt.Sprintf("%d", n)`. -/
def sprintD (n : Nat) : Bytes := digitsUpTo (n + 1) n

/-- `fmt.Sprintf("%04d", n)`. -/
def sprint04D (n : Nat) : Bytes := List.replicate (4 - (sprintD n).length) 48 ++ sprintD n

def bytesOf (s : String) : Bytes := s.toList.map fun c => UInt8.ofNat c.toNat

/-- `date.go:75`. -/
def monthNames : List Bytes := ["January", "February", "March", "April", "May", "June", "July", "August",
  "September", "October", "November", "December"].map bytesOf

/-- `date.go:76-79`, `MonthName`. -/
def Date.monthName (self : Date) : Res Bytes :=
  if self.month = 0 ∨ self.month > 12 then .ok (bytesOf "????") else idx monthNames (self.month - 1)

/-- `date.go:62-73`, `String`. -/
def Date.string (self : Date) : Res Bytes :=
  if self.day = 0 then
    if self.month = 0 then
      if self.year = 0 then .ok (bytesOf "(Unknown Date)")
      else .ok (sprint04D self.year)
    else do
      let m ← self.monthName
      return m ++ [32] ++ sprint04D self.year
  else do
    let m ← self.monthName
    return sprintD self.day ++ [32] ++ m ++ [32] ++ sprint04D self.year

/-- `date.go:38`. -/
def Date.hasDay (self : Date) : Bool := self.day != 0
/-- `date.go:39`. -/
def Date.hasMonth (self : Date) : Bool := self.month != 0
/-- `date.go:40`. -/
def Date.hasYear (self : Date) : Bool := self.year != 0

end DateModel
