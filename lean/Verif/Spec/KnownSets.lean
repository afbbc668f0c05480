import Verif.Spec.Matching
import Verif.Model.DecisionTree

/-!
# The elements of the sets that rules use
-/

namespace Spec
open Go TreeModel ScannerModel

/-- The sets that the rule uses have elements, those that `S` says: listed, or as ranges of one. They are less than
`max`. -/
def Known (sets : Sets) (S : Nat → List Nat) (max : Nat) (r : RuleCode) : Prop := ∀ b i, (b, InElem.set i) ∈ r.elems →
  i ≠ 255 ∧ S i ≠ [] ∧ (∃ rs l, sets i = .ok (rs.map fun v => (v, v), l) ∧ S i = rs ++ l) ∧ ∀ v ∈ S i, v < max

end Spec
