import Verif.Model.Build
import Verif.Model.Font

/-! # All colors of a font (`font.go:379-394`) -/

namespace FontModel
open Go

/-- Line 385: `color.RGBA{ alpha, alpha, alpha, alpha }`. -/
def grayColor (alpha : Nat) : Nat × Nat × Nat × Nat := (alpha, alpha, alpha, alpha)

/-- `font.go:379-394`, `GoColorPalette`. `Count` only gives the capacity, but may panic. -/
def Font.goColorPalette (f : Font) : Res (List (Nat × Nat × Nat × Nat)) := do
  let _ ← f.colorCount
  let numDyes ← f.numDyes
  let dyes ← BuilderModel.mapRes f.eachDyeAlpha (List.range numDyes)
  let numPalettes ← f.numPalettes
  let palettes ← BuilderModel.mapRes f.eachPaletteColor (List.range numPalettes)
  return (0, 0, 0, 0) :: (dyes.flatten.map grayColor ++ palettes.flatten)

end FontModel
