import Verif.Spec.ConditionText

/-! # Texts of conditions for the examples -/

namespace Sample
open Spec

/-- `#003  !=7` -/
def writtenQuick : Written := ⟨[48, 48, 51], 2, .ne, 0, false, [55]⟩

/-- `#0 <= #12` -/
def writtenLong : Written := ⟨[48], 1, .le, 1, true, [49, 50]⟩

end Sample
