import Verif.Spec.Sections

/-! # Queries with an answer -/

namespace Spec
open Go FontModel

/-- The query has an answer exactly when `A`, and panics otherwise. -/
def Answers {α : Type} (x : Res α) (A : Prop) : Prop :=
  (A → ∃ v, x = .ok v) ∧ (¬A → x.isPanic = true)

/-- The number of options of a setting, none for settings that the font does not have. -/
def nOptions (D : Bytes) (f : Font) (k : Nat) : Nat :=
  if k < nSettings D f then end16 D f.offSettingDefs k - start16 D f.offSettingDefs k else 0

/-- The settings of a switch. -/
def switchSettings (D : Bytes) (f : Font) (i : Nat) : List Nat :=
  (sub D (f.offSwitches + 1 + 2 * nSwitches D f + start16 D (f.offSwitches + 1) i)
    (end16 D (f.offSwitches + 1) i - start16 D (f.offSwitches + 1) i)).map UInt8.toNat

end Spec
