import Verif.Spec.SampleBuilder

/-! # Builders whose fonts are rejected by `Parse`, for one reason each -/

namespace Sample
open Go BuilderModel

/-- No name. -/
def noName : Builder := val fresh (oneGlyph.setName (fun _ => true) [])

/-- Vertical interspacing without vertical layout. -/
def interspaced : Builder := oneGlyph.setVertInterspacing 1

/-- A dye without alphas. -/
def emptyDye : Builder := val fresh (oneGlyph.addDye (ascii "main") [])

/-- A dye without name. -/
def namelessDye : Builder := val fresh (oneGlyph.addDye [] [255])

/-- A palette without colors. -/
def emptyPalette : Builder := val fresh (oneGlyph.addPalette (ascii "red") [])

/-- A palette without name. -/
def namelessPalette : Builder := val fresh (oneGlyph.addPalette [] [⟨255, 0, 0, 255⟩])

/-- A row of 130 pixels, all of them different from their neighbours. -/
def gradient : Mask.Img := ⟨⟨0, -1, 130, 0⟩, 130, (List.range 130).map fun i => byte (i + 1)⟩

/-- A glyph with a long mask. -/
def longMask : Builder := (val (fresh, 0) (fresh.addGlyph [1001] gradient)).1

/-- A setting without options. -/
def noOptions : Builder := (val (fresh, 0) (oneGlyph.addSetting (ascii "style") [])).1

/-- 254 switches. -/
def manySwitches : Builder :=
  val fresh ((List.replicate 254 [0]).foldlM (fun b s => do return (← b.addSwitch s).1)
    (val (fresh, 0) (oneGlyph.addSetting (ascii "style") [ascii "on"])).1)

/-- A glyph set without glyphs. -/
def emptySet : Builder := (val (fresh, 0) (oneGlyph.createGlyphSet 5)).1

/-- A rewrite rule for a sequence of 250 runes. -/
def longUtf8Rule : Builder := val fresh (oneGlyph.addSimpleUtf8Rule 65 (List.replicate 250 66))

/-- A rewrite rule with 255 glyphs as input and 255 as output. -/
def longGlyphRule : Builder :=
  val fresh (oneGlyph.addGlyphRule 0 255 0 (List.replicate 255 1001) (List.replicate 255 1001))

/-- A dye with a name of 65536 bytes. -/
def longDyeName : Builder := val fresh (oneGlyph.addDye (List.replicate 65536 97) [255])

end Sample
