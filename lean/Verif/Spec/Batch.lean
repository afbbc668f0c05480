import Verif.Spec.Matching

/-!
# Rewriting a whole input

From left to right: the chosen rule for what is left of the input replaces its body, and scanning goes on
after it; when no rule matches, the first element is kept. The rules are in order and at most 254; their
input is the head, the body and the tail. The head and the tail are kept. Only the heads of other rules may
begin in a tail, so that scanning goes on after the tail; this is what the rules mean when there are no tails, or no
heads, and is not used otherwise.
-/

namespace Spec

/-- The inputs and the indices of the rules with a condition, when `S` are the elements of the sets. -/
def group (S : Nat → List Nat) (R : List RuleCode) (c : Nat) : List (List Nat × Nat) :=
  (R.zipIdx.filter fun x => decide (x.1.condition.toNat = c)).flatMap (RuleCode.matchings S)

/-- The chosen rule: the best one among those with its condition, and the one with the lowest index among
the best ones of each condition. -/
def Chosen (S : Nat → List Nat) (R : List RuleCode) (w : List Nat) (i : Nat) (r : RuleCode) : Prop :=
  R[i]? = some r ∧ IsBest (group S R r.condition.toNat) w i ∧ ∀ c j, IsBest (group S R c) w j → i ≤ j

/-- The elements for the tail of a rule. -/
def RuleCode.tailOf (r : RuleCode) (w : List Nat) : List Nat :=
  (w.drop (blockSize r.head + blockSize r.body)).take (blockSize r.tail)

/-- The rule occurs in the input. -/
def RuleCode.OccursIn (S : Nat → List Nat) (r : RuleCode) (w : List Nat) : Prop := ∃ p ∈ r.inputs S, p <:+: w

instance (S : Nat → List Nat) (r : RuleCode) (w : List Nat) : Decidable (r.OccursIn S w) :=
  inferInstanceAs (Decidable (∃ p ∈ r.inputs S, p <:+: w))

/-- The output for an input, when the rules replace their bodies as `em` says. -/
inductive BatchOf (S : Nat → List Nat) (em : RuleCode → List Nat) (R : List RuleCode) : List Nat → List Nat → Prop
  | nil : BatchOf S em R [] []
  | keep {x : Nat} {w o : List Nat} : (∀ r ∈ R, ∀ p ∈ r.inputs S, ¬ p <+: x :: w) → BatchOf S em R w o →
      BatchOf S em R (x :: w) (x :: o)
  | rewrite {w o : List Nat} {i : Nat} {r : RuleCode} : Chosen S R w i r →
      BatchOf S em R (w.drop r.size) o → BatchOf S em R w (w.take (blockSize r.head) ++ em r ++ r.tailOf w ++ o)

/-- The output for an input: bodies are replaced by the outputs of the rules. -/
abbrev Batch (S : Nat → List Nat) : List RuleCode → List Nat → List Nat → Prop := BatchOf S RuleCode.outs

end Spec
