import Verif.Model.Parse

/-! # A smallest font, for examples and witnesses -/

namespace Spec

/-- One glyph with an empty mask, nothing else. -/
def tinyFont : Bytes :=
  [2, 0, 0, 0, 1, 2, 3, 4, 5, 6, 7, 8, 1, 0, 0, 0, 1, 0, 1, 1, 1, 0, 1, 1, 1, 0, 1, 1,  -- fixed
   1, 65, 0, 0, 0, 0,                                -- name "A", family, author, about
   1, 0, 0, 0, 1, 0, 0, 0, 0, 0, 0, 0, 0, 0, 0,      -- metrics
   0, 0,                                             -- dyes, palettes
   0, 0, 1, 0, 0, 0,                                 -- glyph names, masks
   0, 0,                                             -- words, settings
   0, 0, 0,                                          -- switches, mapping
   0, 0, 0, 0, 0, 0, 0,                              -- conditions, sets, rules
   0, 0, 0, 0, 0, 0]                                 -- kerning

/-- The font `Parse` makes of it. -/
def tinyParsed : FontModel.Font :=
  { data := tinyFont, offMetrics := 34, offDyes := 49, offPalettes := 50, offGlyphNames := 51,
    offGlyphMasks := 53, offWords := 57, offSettingNames := 58, offSettingDefs := 59,
    offSwitches := 59, offMapping := 60, offConditions := 62, offUtf8Sets := 63, offGlyphSets := 64,
    offUtf8Rules := 65, offGlyphRules := 67, offHorzKern := 69, offVertKern := 72 }

/-- A font with something in most sections. -/
def richFont : Bytes :=
  [2, 0, 0, 0, 1, 2, 3, 4, 5, 6, 7, 8, 1, 0, 0, 0, 1, 0, 1, 1, 1, 0, 1, 1, 1, 0, 1, 1,  -- fixed
   1, 65, 0, 0, 0, 0,                                -- name "A", family, author, about
   2, 0, 0, 0, 7, 1, 3, 0, 5, 4, 1, 0, 2, 0, 0,      -- metrics
   1, 2, 255, 128, 3, 0, 114, 101, 100,              -- dye "red" with two alphas
   1, 1, 10, 20, 30, 40, 2, 0, 112, 112,             -- palette "pp" with one color
   1, 0, 1, 0, 2, 0, 0, 97, 97,                      -- glyph 1 is named "aa"
   2, 0, 0, 3, 0, 0, 5, 9, 6,                        -- masks: advances 5 and 6
   1, 2, 0, 104, 105,                                -- word "hi"
   2, 1, 0, 3, 0, 97, 98, 99,                        -- settings "a" and "bc"
   2, 0, 5, 0, 0, 100, 0, 101, 102,                  -- with two and three options
   1, 2, 0, 0, 1,                                    -- one switch over both
   2, 0, 65, 0, 0, 0, 66, 0, 0, 0, 3, 0, 0, 22, 0, 0,  -- mapping of 'A' and 'B'
   255, 0, 0,                                        -- 'A' is glyph 0
   0, 0, 0, 0, 0, 1, 0, 0, 0, 0, 0, 1, 0, 0, 0, 0, 0, 1, 0,  -- 'B' depends on the switch
   0, 0, 1, 5, 0, 1, 0, 0, 1, 0,                     -- one glyph set
   0, 0, 1, 0, 10, 0, 0, 255, 0, 1, 0, 1, 1, 0, 1, 0, 0,  -- one glyph rule
   1, 0, 0, 1, 0, 0, 0, 254, 0, 0, 0]                -- kerning of the pair (0, 1)

/-- The font `Parse` makes of it. -/
def richParsed : FontModel.Font :=
  { data := richFont, offMetrics := 34, offDyes := 49, offPalettes := 58, offGlyphNames := 68,
    offGlyphMasks := 77, offWords := 86, offSettingNames := 91, offSettingDefs := 99,
    offSwitches := 108, offMapping := 113, offConditions := 151, offUtf8Sets := 152,
    offGlyphSets := 153, offUtf8Rules := 161, offGlyphRules := 163, offHorzKern := 178,
    offVertKern := 186 }

end Spec
