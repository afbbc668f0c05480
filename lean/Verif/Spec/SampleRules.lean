import Verif.Spec.SampleBuilder

/-! # A builder with rewrite sets and rules -/

namespace Sample
open Go BuilderModel Builder

/-- A set with the range of the first two glyphs and the fourth one. -/
def withSet : Builder :=
  let b := (val (fourGlyphs, 0) (fourGlyphs.createGlyphSet 77)).1
  let b := val b (b.addGlyphSetRange 77 1001 1002)
  val b (b.addGlyphSetListGlyph 77 1004)

/-- An element of the set before the second glyph, which becomes the fourth glyph; two code points
become one. -/
def ruled : Builder :=
  let b := val withSet (withSet.addGlyphRule 1 1 0 [77, 1002] [1004])
  val b (b.addSimpleUtf8Rule 8230 [46, 46])

end Sample
