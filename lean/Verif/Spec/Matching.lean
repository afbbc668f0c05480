import Verif.Spec.RuleCode

/-!
# Matching rules against an input

A rule is given by its input elements and its index.
-/

namespace Spec

/-- The rule to report for the input `w`: 255 when no rule matches a prefix of it; otherwise the rule with the
longest input, and the lowest index among those with equal inputs. -/
def IsBest (rules : List (List Nat × Nat)) (w : List Nat) (r : Nat) : Prop :=
  (r = 255 ∧ ∀ x ∈ rules, ¬ x.1 <+: w) ∨
  ∃ x ∈ rules, r = x.2 ∧ x.1 <+: w ∧
    ∀ y ∈ rules, y.1 <+: w → y.1.length < x.1.length ∨ (y.1 = x.1 ∧ x.2 ≤ y.2)

/-! The relative positions of a range `a`-`b` and a range `x`-`y` that is added later. -/

/-- Both rules are matched as they should. -/
def Fits (a b x y : Nat) : Prop := y < a ∨ b < x ∨ (x = a ∧ b ≤ y) ∨ (x ≤ a ∧ a = b)
/-- A split is tried. -/
def Split (a b x y : Nat) : Prop := (x = a ∧ y < b) ∨ (a < x ∧ x ≤ b) ∨ (x < a ∧ a < b ∧ b ≤ y)
/-- The start of the first range is taken by the second. -/
def Taken (a b x y : Nat) : Prop := x < a ∧ a ≤ y ∧ y < b

namespace RuleCode

/-- The single elements of the input. -/
def singles (r : RuleCode) : List Nat :=
  r.elems.filterMap fun x => match x.2 with
    | .one v => some v
    | .set _ => none

/-- There are no sets in the input. -/
def NoSets (r : RuleCode) : Prop := ∀ b i, (b, InElem.set i) ∉ r.elems

/-- The rule whose input is one set. -/
def oneSet (i : Nat) (outs : List Nat) (condition : UInt8) : RuleCode := ⟨condition, outs, [], [⟨[i], []⟩], []⟩

/-- There are no sets before the last element of the input. -/
def SetsLast (r : RuleCode) : Prop := ∀ b i, (b, InElem.set i) ∉ r.elems.dropLast

/-- The elements an input element stands for, when `S` are the elements of the sets. -/
def choices (S : Nat → List Nat) (x : Nat × InElem) : List Nat :=
  match x.2 with
  | .one v => [v]
  | .set g => S g

/-- All the ways to take an element from each list. -/
def picks : List (List Nat) → List (List Nat)
  | [] => [[]]
  | c :: cs => c.flatMap fun v => (picks cs).map (v :: ·)

/-- The inputs a rule matches. -/
def inputs (S : Nat → List Nat) (r : RuleCode) : List (List Nat) := picks (r.elems.map (choices S))

/-- The length of the input. -/
def size (r : RuleCode) : Nat := r.elems.length

/-- The number of elements in the input, with all those of its sets. -/
def weight (S : Nat → List Nat) (r : RuleCode) : Nat := (r.elems.map fun x => (choices S x).length).sum

/-- The inputs of a rule with its index. -/
def matchings (S : Nat → List Nat) (x : RuleCode × Nat) : List (List Nat × Nat) := (x.1.inputs S).map fun p => (p, x.2)

end RuleCode
end Spec
