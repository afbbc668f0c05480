import Verif.Spec.SampleBuilder

/-! # Fonts with many glyphs, for the examples -/

namespace Sample
open Go BuilderModel

/-- A mask of 150 different pixels, for which the encoder writes 303 bytes. -/
def wide : Mask.Img :=
  ⟨⟨0, -3, 50, 0⟩, 50, (List.range 150).map fun i => UInt8.ofNat (1 + (i * 37) % 255)⟩

def wideGlyph : GlyphData := ⟨[], ⟨50, 9, 5, 25⟩, wide⟩

/-- A fresh builder with some glyphs. -/
def withGlyphs (d : GoMap Nat GlyphData) (o : List Nat) : Builder := { fresh with glyphData := d, glyphOrder := o }

/-- Two lists of 128 glyphs, which take 517 bytes. -/
def longEntry : MapEntry :=
  ⟨0, [⟨(List.replicate 32 [1001, 1002, 1003, 1004]).flatten, 5⟩, ⟨(List.replicate 32 [1004, 1003, 1002, 1001]).flatten, 6⟩]⟩

/-- A builder with four glyphs and a switch, with some code points. -/
def withCodePoints (m : GoMap Int MapEntry) : Builder := { switched with runeMapping := m }

/-- The same, after the dye `main` has been added. -/
def switchedMain : Builder := { switched with dyes := [⟨ascii "main", [255]⟩] }

end Sample
