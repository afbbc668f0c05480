import Verif.Spec.Checks
import Verif.Spec.Sections

/-! # The colors of a font, by index -/

namespace Spec
open FontModel

/-- Every color section ends after the one before. -/
def Rising (D : Bytes) (o : Nat) : Prop := ∀ k < byteAt D o, start8 D (o + 1) k < end8 D (o + 1) k

/-- The data of dyes and palettes is there, and there are at most 255 colors. -/
structure ColorsFit (f : Font) : Prop where
  dyes : f.offDyes + 1 + byteAt f.data f.offDyes + usedColors f.data f.offDyes ≤ f.data.length
  palettes : f.offPalettes + 1 + byteAt f.data f.offPalettes + 4 * usedColors f.data f.offPalettes ≤ f.data.length
  total : usedColors f.data f.offDyes + usedColors f.data f.offPalettes ≤ 255

/-- The color with the given index: transparent, alphas of dyes, colors of palettes (premultiplied). -/
def colorAt (f : Font) (i : Nat) : Nat × Nat × Nat × Nat :=
  let d := usedColors f.data f.offDyes
  if i = 0 then (0, 0, 0, 0)
  else if i ≤ d then
    let a := byteAt f.data (f.offDyes + byteAt f.data f.offDyes + i)
    (a, a, a, a)
  else
    let p := f.offPalettes + 1 + byteAt f.data f.offPalettes + 4 * (i - d - 1)
    (byteAt f.data p, byteAt f.data (p + 1), byteAt f.data (p + 2), byteAt f.data (p + 3))

/-- All colors, in order of index. -/
def colorTable (f : Font) : List (Nat × Nat × Nat × Nat) :=
  (List.range (1 + usedColors f.data f.offDyes + usedColors f.data f.offPalettes)).map (colorAt f)

end Spec
