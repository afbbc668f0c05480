import Verif.Spec.NameTable

/-! # Positions that a bisection looks at -/

namespace Spec
open Go

/-- A bisection of `lo`-`hi` that is to end at `p` looks at position `m`. -/
inductive Probed (p : Nat) : (lo hi m : Nat) → Prop
  | mid {lo hi : Nat} : lo < hi → Probed p lo hi ((lo + hi) / 2)
  | up {lo hi m : Nat} : lo < hi → (lo + hi) / 2 < p → Probed p ((lo + hi) / 2 + 1) hi m → Probed p lo hi m
  | down {lo hi m : Nat} : lo < hi → p ≤ (lo + hi) / 2 → Probed p lo ((lo + hi) / 2) m → Probed p lo hi m

/-- The comparison with the entry at `p` gives the right answer at all the positions the bisection looks at: what
comes before is below and of another length, what comes after is not. -/
def Guided (names : List Bytes) (p : Nat) : Prop :=
  ∀ m, Probed p 0 (names.length - 1) m →
    (m < p ↔ Below (names.getD m []) (names.getD p []) ∧ (names.getD m []).length ≠ (names.getD p []).length)

end Spec
