import Verif.Spec.KnownSets

/-!
# Rules with sets given as ranges
-/

namespace Spec
open Go TreeModel ScannerModel

/-- The elements in ranges. -/
def spread (P : List (Nat × Nat)) : List Nat := P.flatMap fun p => List.range' p.1 (p.2 + 1 - p.1)

/-- The ranges an input element stands for, when `Q` are those of the sets. -/
def RuleCode.parts (Q : Nat → List (Nat × Nat)) (x : Nat × InElem) : List (Nat × Nat) :=
  match x.2 with
  | .one v => [(v, v)]
  | .set g => Q g

/-- The number of ranges in the input. -/
def RuleCode.extent (Q : Nat → List (Nat × Nat)) (r : RuleCode) : Nat := (r.elems.map fun x => (parts Q x).length).sum

/-- The elements that the input of the rule may start with. -/
def RuleCode.starts (Q : Nat → List (Nat × Nat)) (r : RuleCode) : List Nat :=
  (r.elems.take 1).flatMap (choices fun i => spread (Q i))

/-- The sets that the rule uses are those that `Q` says, each with ranges that do not overlap, below `max`. -/
def Laid (sets : Sets) (Q : Nat → List (Nat × Nat)) (max : Nat) (r : RuleCode) : Prop :=
  ∀ b i, (b, InElem.set i) ∈ r.elems → i ≠ 255 ∧ Q i ≠ [] ∧
    (∃ rs l, sets i = .ok (rs, l) ∧ Q i = rs ++ l.map fun v => (v, v)) ∧
    (∀ p ∈ Q i, p.1 ≤ p.2 ∧ p.2 < max) ∧ (Q i).Pairwise fun p q => q.2 < p.1 ∨ p.2 < q.1

end Spec
