import Verif.Model.DecisionTree
import Verif.Spec.RuleCode

/-! # Rules for examples on decision trees -/

namespace Sample
open Go TreeModel ScannerModel

/-- Set 0 is {1, 5}, set 1 is {1, …, 10}, the others are empty. -/
def treeSets : Sets := fun i =>
  if i = 0 then .ok ([], [1, 5]) else if i = 1 then .ok ([(1, 10)], []) else .ok ([], [])

/-- The set 0 followed by 2 3. -/
def ruleSet023 : Bytes := [255, 0, 3, 0, 1, 7, 0, 0, 18, 0, 2, 0, 3, 0, 0]
def rule124 : Bytes := [255, 0, 3, 0, 1, 7, 0, 0, 3, 1, 0, 2, 0, 4, 0, 0]
def rule927 : Bytes := [255, 0, 3, 0, 1, 7, 0, 0, 3, 9, 0, 2, 0, 7, 0, 0]
def rule52 : Bytes := [255, 0, 2, 0, 1, 7, 0, 0, 2, 5, 0, 2, 0, 0]
/-- The set 1 followed by 3. -/
def ruleSet13 : Bytes := [255, 0, 2, 0, 1, 7, 0, 0, 17, 1, 3, 0, 0]
/-- The set 2 followed by 3. -/
def ruleSet23 : Bytes := [255, 0, 2, 0, 1, 7, 0, 0, 17, 2, 3, 0, 0]

def rule19 : Bytes := [255, 0, 2, 0, 1, 7, 0, 0, 2, 1, 0, 9, 0, 0]
/-- The set 0 followed by 3. -/
def ruleSet03 : Bytes := [255, 0, 2, 0, 1, 7, 0, 0, 17, 0, 3, 0, 0]
/-- The set 0 followed by 4. -/
def ruleSet04 : Bytes := [255, 0, 2, 0, 1, 7, 0, 0, 17, 0, 4, 0, 0]

/-- The element 1 followed by the set 0. -/
def endsInSet : Spec.RuleCode := ⟨255, [7], [], [⟨[], [1]⟩, ⟨[0], []⟩], []⟩

/-- The rules 1 2 4 (twice), 2 after 1, and the last one. -/
def treeRules : List (Bytes × Nat) :=
  [(rule124, 0), ([255, 1, 1, 0, 1, 7, 0, 1, 1, 0, 1, 2, 0, 0], 3), (rule124, 9), (endsInSet.bytes Spec.word16, 11)]

/-- `ruleSet23`: the set 2, which is empty, followed by 3. -/
def emptyFirst : Spec.RuleCode := ⟨255, [7], [], [⟨[2], [3]⟩], []⟩
/-- The sets 1 and 0 followed by 3. -/
def manySets : Spec.RuleCode := ⟨255, [7], [], [⟨[1, 0], [3]⟩], []⟩
/-- The set 1 between 11 and 12. -/
def midSet : Spec.RuleCode := ⟨255, [7], [⟨[], [11]⟩], [⟨[1], [12]⟩], []⟩
/-- The ranges of `treeSets`. -/
def treeRanges (i : Nat) : List (Nat × Nat) := if i = 0 then [(1, 1), (5, 5)] else if i = 1 then [(1, 10)] else []

/-- 1 3, the set 1, and 12. -/
def forkWide : Spec.RuleCode := ⟨255, [7], [], [⟨[], [1, 3]⟩, ⟨[1], [12]⟩], []⟩
/-- 1 2, the set 0, and 9. -/
def forkList : Spec.RuleCode := ⟨255, [7], [⟨[], [1, 2]⟩], [⟨[0], [9]⟩], []⟩
/-- 1 2 4, and 1 3 11. -/
def noFork : Spec.RuleCode := ⟨255, [7], [], [⟨[], [1, 2, 4]⟩], []⟩
def noFork' : Spec.RuleCode := ⟨255, [7], [], [⟨[], [1, 3, 11]⟩], []⟩
/-- The rules with sets fork after two elements. -/
def forkOf (r : Spec.RuleCode) : Option Nat := if r.elems.length = 4 then some 2 else none

/-- The number of states of a tree. -/
def treeSize (mv : Nat → Bool) (rules : List (Bytes × Nat)) : Res Nat := do
  let (S, _) ← compile glyphKind mv treeSets rules {}
  return S.length

/-- Compile rules over glyphs and run the tree. -/
def matched (mv : Nat → Bool) (rules : List (Bytes × Nat)) (w : List Nat) : Res Nat := do
  let (S, _) ← compile glyphKind mv treeSets rules {}
  Tree.run ⟨S, 0, 0, false⟩ w

end Sample
