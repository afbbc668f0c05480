import Verif.Model.Encoder

/-! # The limits of the encoder -/

namespace Spec
open Mask

/-- The fragments are within the reach of the cursor, one after the other. -/
def Steps (x y : Int) : List Frag → Prop
  | [] => True
  | f :: fs => (-128 ≤ f.minX - x ∧ f.minX - x ≤ 128) ∧ (-128 ≤ f.minY - y ∧ f.minY - y ≤ 128) ∧
      f.maxX - f.minX < 256 ∧ f.maxY - f.minY < 256 ∧ Steps (f.maxX + 1) f.minY fs

end Spec
