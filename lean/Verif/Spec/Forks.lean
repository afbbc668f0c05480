import Verif.Spec.Ranges

/-!
# Rules that share single elements and then part
-/

namespace Spec
open Go TreeModel ScannerModel

/-- The rule has more than `n` elements, and those before are not sets. -/
def RuleCode.ForksAt (n : Nat) (r : RuleCode) : Prop := n < r.size ∧ ∀ b i, (b, InElem.set i) ∉ r.elems.take n

/-- What is needed of a rule: when it forks somewhere, there are only single elements before, and there may be sets
from there on; otherwise the only set may be the last element, and it is a list of elements. -/
def Branching (sets : Sets) (Q : Nat → List (Nat × Nat)) (max : Nat) (fork : Option Nat) (r : RuleCode) : Prop :=
  match fork with
  | none => r.SetsLast ∧ Known sets (fun i => spread (Q i)) max r
  | some n => r.ForksAt n ∧ Laid sets Q max r

/-- No input of the second rule goes on like one of the first when the first forks. -/
def Parted (Q : Nat → List (Nat × Nat)) (fork : Option Nat) (a b : RuleCode) : Prop :=
  ∀ n, fork = some n → ∀ p ∈ a.inputs fun i => spread (Q i), ∀ q ∈ b.inputs fun i => spread (Q i), ¬ p.take (n + 1) <+: q

/-- The number of ranges in the input, counting elements instead when the rule does not fork. -/
def RuleCode.reach (Q : Nat → List (Nat × Nat)) (fork : Option Nat) (r : RuleCode) : Nat :=
  match fork with
  | none => r.weight fun i => spread (Q i)
  | some _ => r.extent Q

end Spec
