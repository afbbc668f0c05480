import Verif.Spec.SampleBuilder

/-! # A sample builder with three glyphs, whose placements look like end offsets and like a mask -/

namespace Sample
open Go BuilderModel

/-- An empty mask. -/
def noPixels : Mask.Img := ⟨⟨0, 0, 0, 0⟩, 0, []⟩

def emptyGlyphs : Builder :=
  val fresh (do
    let (b, _) ← fresh.addGlyph [1001] noPixels
    let (b, _) ← b.addGlyph [1002] noPixels
    let (b, _) ← b.addGlyph [1003] noPixels
    return b.setVertLayoutUsed true)

/-- Vertical layout: four bytes of placement for each glyph, and no mask. -/
def lookalike : Builder :=
  val fresh (do
    let b ← emptyGlyphs.setGlyphPlacement 1001 ⟨2, 0, 0, 8⟩
    b.setGlyphPlacement 1002 ⟨0, 0, 132, 255⟩)

/-- A dye with two alphas and one without alphas. -/
def hollowDye : Builder :=
  val fresh (do
    let b ← oneGlyph.addDye (ascii "main") [255, 128]
    b.addDye (ascii "none") [])

end Sample
