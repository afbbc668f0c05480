import Verif.Spec.Conditions

/-! # Conditions for the examples -/

namespace Sample
open Go Spec FontModel

/-- A font with only conditions. -/
def conditionsFont (blocks : List Bytes) (offsets : Bytes) : Font :=
  ⟨[UInt8.ofNat blocks.length] ++ offsets ++ blocks.flatten, 0, 0, 0, 0, 0, 0, 0, 0, 0, 0, 0, 0,
    0, 0, 0, 0, 0⟩

/-- The first setting is 2 and the second is under 3, or the first one is over 4. -/
def someCond : Cond := .or [.and [.quick .eq 0 2, .quick .lt 1 3], .quick .gt 0 4]

/-- The first setting is at least the second, and the third is 40. -/
def anyCond : Cond := .and [.settings .ge 0 1, .const .eq 2 40]

end Sample
