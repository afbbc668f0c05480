import Verif.Spec.SampleFont

/-! # A font with two of everything -/

namespace Spec

/-- Two of everything, as the document demands. -/
def fullFont : Bytes :=
  [2, 0, 0, 0, 1, 2, 3, 4, 5, 6, 7, 8, 1, 0, 0, 0, 232, 7, 5, 17, 232, 7, 5, 17, 232, 7, 5, 17,  -- fixed fields
   1, 65, 0, 0, 0, 0,  -- name "A", family, author, about
   3, 0, 1, 0, 7, 1, 3, 0, 5, 4, 1, 0, 2, 9, 1,  -- metrics, with vertical layout
   2, 2, 3, 255, 128, 90, 4, 0, 7, 0, 109, 97, 105, 110, 114, 101, 100,  -- dyes "main" and "red"
   2, 1, 3, 10, 20, 30, 40, 50, 60, 70, 80, 90, 100, 110, 120, 2, 0, 5, 0,
   112, 112, 113, 113, 113,  -- palettes "pp" and "qqq"
   2, 0, 2, 0, 0, 0, 2, 0, 0, 5, 0, 0, 97, 97, 98, 45, 49,  -- glyph 2 is "aa", glyph 0 is "b-1"
   4, 0, 0, 9, 0, 0, 13, 0, 0, 5, 6, 7, 2, 6, 6, 7, 3, 128, 7, 8, 9, 3,  -- placements and masks
   2, 2, 0, 6, 0, 104, 105, 111, 110, 45, 50,  -- words "hi" and "on-2"
   2, 1, 0, 3, 0, 97, 98, 99,  -- settings "a" and "bc"
   2, 0, 5, 0, 0, 100, 0, 1, 102,  -- with two and three options
   2, 1, 0, 3, 0, 0, 0, 1,  -- switches on one and on both
   2, 0, 65, 0, 0, 0, 66, 0, 0, 0, 3, 0, 0, 10, 0, 0, 255, 0, 0, 0, 0, 1, 0, 0, 2, 0,  -- mapping of A and B
   2, 5, 0, 7, 0, 2, 96, 0, 97, 0, 96, 1,  -- conditions
   2, 7, 0, 13, 0, 1, 48, 0, 0, 0, 9, 0, 0, 1, 65, 0, 0, 0,  -- sets of code points
   2, 5, 0, 9, 0, 1, 0, 0, 2, 0, 0, 1, 1, 0,  -- sets of glyphs
   2, 0, 14, 0, 0, 25, 0, 0, 255, 0, 1, 0, 1, 66, 0, 0, 0, 1, 65, 0, 0, 0, 0, 0, 1, 0, 1, 65, 0, 0, 0,
   16, 0,  -- rules for code points
   2, 0, 10, 0, 0, 19, 0, 0, 255, 0, 1, 0, 1, 1, 0, 1, 0, 0, 1, 0, 1, 0, 1, 1, 0, 16, 0,  -- rules for glyphs
   2, 0, 0, 1, 0, 0, 0, 0, 0, 1, 0, 254, 3,  -- kerning of two pairs
   2, 0, 0, 2, 0, 0, 0, 1, 0, 1, 0, 1, 255]  -- and of two pairs below each other

/-- The font `Parse` makes of it. -/
def fullParsed : FontModel.Font :=
  { data := fullFont, offMetrics := 34, offDyes := 49, offPalettes := 66, offGlyphNames := 90,
    offGlyphMasks := 107, offWords := 129, offSettingNames := 140, offSettingDefs := 148,
    offSwitches := 157, offMapping := 165, offConditions := 191, offUtf8Sets := 203,
    offGlyphSets := 221, offUtf8Rules := 235, offGlyphRules := 268, offHorzKern := 295,
    offVertKern := 308 }

/-- A change of one byte of it. -/
def fullWith (i : Nat) (v : UInt8) : FontModel.Font := { fullParsed with data := fullFont.set i v }

/-- Two settings with 16 options each, and a switch on both. -/
def casesFont : Bytes :=
  [2, 0, 0, 0, 1, 2, 3, 4, 5, 6, 7, 8, 1, 0, 0, 0, 232, 7, 5, 17, 232, 7, 5, 17, 232, 7, 5, 17,
   1, 65, 0, 0, 0, 0, 1, 0, 0, 0, 1, 0, 0, 0, 0, 0, 0, 0, 0, 0, 0, 0, 0, 0, 0, 1, 0, 0, 0, 0,
   2, 1, 0, 2, 0, 97, 98,
   16, 0, 32, 0, 0, 0, 0, 0, 0, 0, 0, 0, 0, 0, 0, 0, 0, 0, 0, 0, 0, 0, 0, 0, 0, 0, 0, 0, 0, 0, 0, 0, 0, 0, 0, 0,
   1, 2, 0, 0, 1, 0, 0, 0, 0, 0, 0, 0, 0, 0, 0, 0, 0, 0, 0, 0]

/-- The font `Parse` makes of it. -/
def casesParsed : FontModel.Font :=
  { data := casesFont, offMetrics := 34, offDyes := 49, offPalettes := 50, offGlyphNames := 51,
    offGlyphMasks := 53, offWords := 57, offSettingNames := 58, offSettingDefs := 65,
    offSwitches := 101, offMapping := 106, offConditions := 108, offUtf8Sets := 109, offGlyphSets := 110,
    offUtf8Rules := 111, offGlyphRules := 113, offHorzKern := 115, offVertKern := 118 }

/-- One byte of the font with many glyphs. -/
def manyByte (n i : Nat) : UInt8 :=
  if i < 34 then tinyFont.getD i 0 else if i = 34 ∨ i = 50 + 3 * n then Go.byte n
  else if i = 35 ∨ i = 51 + 3 * n then Go.byte (n / 256) else if i = 38 then 1 else 0

/-- A font with `n` glyphs, all without pixels, of which only the last end offset is right. -/
def manyFont (n : Nat) : FontModel.Font :=
  { data := (List.range (71 + 4 * n)).map (manyByte n), offMetrics := 34, offDyes := 49, offPalettes := 50,
    offGlyphNames := 51, offGlyphMasks := 53, offWords := 53 + 4 * n, offSettingNames := 54 + 4 * n,
    offSettingDefs := 55 + 4 * n, offSwitches := 55 + 4 * n, offMapping := 56 + 4 * n, offConditions := 58 + 4 * n,
    offUtf8Sets := 59 + 4 * n, offGlyphSets := 60 + 4 * n, offUtf8Rules := 61 + 4 * n, offGlyphRules := 63 + 4 * n,
    offHorzKern := 65 + 4 * n, offVertKern := 68 + 4 * n }

end Spec
