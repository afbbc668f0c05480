import Verif.Spec.Layout

/-!
# Blocks inside the sections

Most sections store `n` blocks one after the other, and before them the `n` end offsets of the
blocks, relative to the start of the first block. `o` is the position of the end offsets.
-/

namespace Spec
open FontModel

/-- `n` bytes from position `a`. -/
def sub (D : Bytes) (a n : Nat) : Bytes := (D.drop a).take n

def end8 (D : Bytes) (o i : Nat) : Nat := byteAt D (o + i)
def start8 (D : Bytes) (o i : Nat) : Nat := if i = 0 then 0 else end8 D o (i - 1)
def end16 (D : Bytes) (o i : Nat) : Nat := u16At D (o + 2 * i)
def start16 (D : Bytes) (o i : Nat) : Nat := if i = 0 then 0 else end16 D o (i - 1)
def end24 (D : Bytes) (o i : Nat) : Nat := u24At D (o + 3 * i)
def start24 (D : Bytes) (o i : Nat) : Nat := if i = 0 then 0 else end24 D o (i - 1)

/-- Bytes of placement data before each mask. -/
def placementSize (D : Bytes) (f : Font) : Nat := if byteAt D (f.offMetrics + 2) = 1 then 4 else 1

/-- Number of dyes, and so on. -/
def nGlyphs (D : Bytes) (f : Font) : Nat := u16At D f.offMetrics
def nDyes (D : Bytes) (f : Font) : Nat := byteAt D f.offDyes
def nPalettes (D : Bytes) (f : Font) : Nat := byteAt D f.offPalettes
def nNamed (D : Bytes) (f : Font) : Nat := u16At D f.offGlyphNames
def nWords (D : Bytes) (f : Font) : Nat := byteAt D f.offWords
def nSettings (D : Bytes) (f : Font) : Nat := byteAt D f.offSettingNames
def nSwitches (D : Bytes) (f : Font) : Nat := byteAt D f.offSwitches
def nEntries (D : Bytes) (f : Font) : Nat := u16At D f.offMapping
def nConditions (D : Bytes) (f : Font) : Nat := byteAt D f.offConditions
def nUtf8Sets (D : Bytes) (f : Font) : Nat := byteAt D f.offUtf8Sets
def nGlyphSets (D : Bytes) (f : Font) : Nat := byteAt D f.offGlyphSets
def nUtf8Rules (D : Bytes) (f : Font) : Nat := u16At D f.offUtf8Rules
def nGlyphRules (D : Bytes) (f : Font) : Nat := u16At D f.offGlyphRules

/-- Total number of alphas of all dyes, and of colors of all palettes. -/
def dyeColors (D : Bytes) (f : Font) : Nat := byteAt D (f.offDyes + nDyes D f)
def paletteColors (D : Bytes) (f : Font) : Nat := byteAt D (f.offPalettes + nPalettes D f)

/-- Positions of end offsets and of first blocks. -/
def dyeNameEnds (D : Bytes) (f : Font) : Nat := f.offDyes + 1 + nDyes D f + dyeColors D f
def paletteNameEnds (D : Bytes) (f : Font) : Nat :=
  f.offPalettes + 1 + nPalettes D f + 4 * paletteColors D f
def glyphNameEnds (D : Bytes) (f : Font) : Nat := f.offGlyphNames + 2 + 2 * nNamed D f
def glyphNameData (D : Bytes) (f : Font) : Nat := glyphNameEnds D f + 3 * nNamed D f
def maskData (D : Bytes) (f : Font) : Nat := f.offGlyphMasks + 3 * nGlyphs D f
def mappingEnds (D : Bytes) (f : Font) : Nat := f.offMapping + 2 + 4 * nEntries D f
def mappingData (D : Bytes) (f : Font) : Nat := mappingEnds D f + 3 * nEntries D f

/-- The end offsets inside the sections, which `Parse` does not look at (except for the last one),
are in order. -/
structure InnerOk (D : Bytes) (f : Font) : Prop where
  dyeColors : ∀ i < nDyes D f, start8 D (f.offDyes + 1) i < end8 D (f.offDyes + 1) i
  dyeNames : ∀ i < nDyes D f, start16 D (dyeNameEnds D f) i < end16 D (dyeNameEnds D f) i
  paletteColors : ∀ i < nPalettes D f,
    start8 D (f.offPalettes + 1) i < end8 D (f.offPalettes + 1) i
  paletteNames : ∀ i < nPalettes D f,
    start16 D (paletteNameEnds D f) i < end16 D (paletteNameEnds D f) i
  glyphNames : ∀ i < nNamed D f, start24 D (glyphNameEnds D f) i ≤ end24 D (glyphNameEnds D f) i
  masks : ∀ i < nGlyphs D f,
    start24 D f.offGlyphMasks i + placementSize D f ≤ end24 D f.offGlyphMasks i
  words : ∀ i < nWords D f, start16 D (f.offWords + 1) i < end16 D (f.offWords + 1) i
  settingNames : ∀ i < nSettings D f,
    start16 D (f.offSettingNames + 1) i ≤ end16 D (f.offSettingNames + 1) i
  settings : ∀ i < nSettings D f, start16 D f.offSettingDefs i < end16 D f.offSettingDefs i ∧
    end16 D f.offSettingDefs i ≤ start16 D f.offSettingDefs i + 255
  switches : ∀ i < nSwitches D f, start16 D (f.offSwitches + 1) i < end16 D (f.offSwitches + 1) i
  mapping : ∀ i < nEntries D f, start24 D (mappingEnds D f) i < end24 D (mappingEnds D f) i
  utf8Sets : ∀ i < nUtf8Sets D f, start16 D (f.offUtf8Sets + 1) i < end16 D (f.offUtf8Sets + 1) i
  glyphSets : ∀ i < nGlyphSets D f, start16 D (f.offGlyphSets + 1) i < end16 D (f.offGlyphSets + 1) i
  utf8Rules : ∀ i < nUtf8Rules D f, start24 D (f.offUtf8Rules + 2) i ≤ end24 D (f.offUtf8Rules + 2) i
  glyphRules : ∀ i < nGlyphRules D f,
    start24 D (f.offGlyphRules + 2) i ≤ end24 D (f.offGlyphRules + 2) i

end Spec
