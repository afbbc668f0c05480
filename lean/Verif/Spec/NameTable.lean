import Verif.Model.Font

/-! # Tables of glyph names -/

namespace Spec
open Go FontModel

/-- The name section of `f` holds these names, and these glyph indices. -/
structure NameTable (f : Font) (names : List Bytes) (ids : List Nat) : Prop where
  same : ids.length = names.length
  count : f.namedCount = .ok names.length
  name : ∀ i (hi : i < names.length), f.nthGlyphName i names.length = .ok names[i]
  id : ∀ i (hi : i < ids.length), rd16 f.data (f.offGlyphNames + 2 + 2 * i) = .ok ids[i]

/-- Byte by byte not greater (up to the end of the shorter). -/
def Below : Bytes → Bytes → Prop
  | a :: as, b :: bs => a ≤ b ∧ Below as bs
  | _, _ => True

instance decBelow : ∀ x y, Decidable (Below x y)
  | [], _ => .isTrue trivial
  | _ :: _, [] => .isTrue trivial
  | a :: as, b :: bs => by
    rw [Below]
    exact @instDecidableAnd _ _ _ (decBelow as bs)

/-- Of two names, the earlier one is below the later one but not the other way around, and their
lengths differ. -/
def Searchable (names : List Bytes) : Prop :=
  names.Pairwise fun x y => x.length ≠ y.length ∧ Below x y ∧ ¬ Below y x

end Spec
