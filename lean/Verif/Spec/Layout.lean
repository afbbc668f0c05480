import Verif.Spec.Format
import Verif.Model.Font

/-!
# Layout of the font data

Sizes of the sections, computed only from the counts and last end offsets stored in the data.
`o` is always the position where the section starts.
-/

namespace Spec
open FontModel

/-- Fixed fields, then three strings with 8-bit lengths and one with a 16-bit length. -/
def headerSize (D : Bytes) : Nat :=
  let name := byteAt D 28
  let family := byteAt D (29 + name)
  let author := byteAt D (30 + name + family)
  let about := u16At D (31 + name + family + author)
  33 + name + family + author + about

/-- `count`, 8-bit color end indices, alphas, 16-bit name end offsets, names. -/
def dyesSize (D : Bytes) (o : Nat) : Nat :=
  let n := byteAt D o
  if n = 0 then 1 else
  let colors := byteAt D (o + n)
  1 + n + colors + 2 * n + u16At D (o + 1 + n + colors + 2 * (n - 1))

/-- `count`, 8-bit color end indices, 4-byte colors, 16-bit name end offsets, names. -/
def palettesSize (D : Bytes) (o : Nat) : Nat :=
  let n := byteAt D o
  if n = 0 then 1 else
  let colors := byteAt D (o + n)
  1 + n + 4 * colors + 2 * n + u16At D (o + 1 + n + 4 * colors + 2 * (n - 1))

/-- 16-bit count, 16-bit glyph indices, 24-bit name end offsets, names. -/
def glyphNamesSize (D : Bytes) (o : Nat) : Nat :=
  let n := u16At D o
  if n = 0 then 2 else 2 + 2 * n + 3 * n + u24At D (o + 2 + 2 * n + 3 * (n - 1))

/-- 24-bit end offsets, data. The count is that of the metrics. -/
def masksSize (D : Bytes) (numGlyphs o : Nat) : Nat :=
  3 * numGlyphs + u24At D (o + 3 * (numGlyphs - 1))

/-- 8-bit count, 16-bit end offsets, data: words, setting names, switches, conditions, sets. -/
def blocks16Size (D : Bytes) (o : Nat) : Nat :=
  let n := byteAt D o
  if n = 0 then 1 else 1 + 2 * n + u16At D (o + 1 + 2 * (n - 1))

/-- 16-bit end offsets, data. The count is that of the setting names. -/
def settingDefsSize (D : Bytes) (numSettings o : Nat) : Nat :=
  if numSettings = 0 then 0 else 2 * numSettings + u16At D (o + 2 * (numSettings - 1))

/-- 16-bit count, 32-bit code points, 24-bit end offsets, data. -/
def mappingSize (D : Bytes) (o : Nat) : Nat :=
  let n := u16At D o
  if n = 0 then 2 else 2 + 4 * n + 3 * n + u24At D (o + 2 + 4 * n + 3 * (n - 1))

/-- 16-bit count, 24-bit end offsets, data. -/
def rulesSize (D : Bytes) (o : Nat) : Nat :=
  let n := u16At D o
  if n = 0 then 2 else 2 + 3 * n + u24At D (o + 2 + 3 * (n - 1))

/-- 24-bit count, 32-bit pairs, 8-bit values. -/
def kernSize (D : Bytes) (o : Nat) : Nat := 3 + 5 * u24At D o

/-- All sections up to kerning follow each other without gaps. -/
structure Layout (D : Bytes) (f : Font) : Prop where
  metrics : f.offMetrics = headerSize D
  dyes : f.offDyes = f.offMetrics + 15
  palettes : f.offPalettes = f.offDyes + dyesSize D f.offDyes
  glyphNames : f.offGlyphNames = f.offPalettes + palettesSize D f.offPalettes
  glyphMasks : f.offGlyphMasks = f.offGlyphNames + glyphNamesSize D f.offGlyphNames
  words : f.offWords = f.offGlyphMasks + masksSize D (u16At D f.offMetrics) f.offGlyphMasks
  settingNames : f.offSettingNames = f.offWords + blocks16Size D f.offWords
  settingDefs : f.offSettingDefs = f.offSettingNames + blocks16Size D f.offSettingNames
  switches : f.offSwitches =
    f.offSettingDefs + settingDefsSize D (byteAt D f.offSettingNames) f.offSettingDefs
  mapping : f.offMapping = f.offSwitches + blocks16Size D f.offSwitches
  conditions : f.offConditions = f.offMapping + mappingSize D f.offMapping
  utf8Sets : f.offUtf8Sets = f.offConditions + blocks16Size D f.offConditions
  glyphSets : f.offGlyphSets = f.offUtf8Sets + blocks16Size D f.offUtf8Sets
  utf8Rules : f.offUtf8Rules = f.offGlyphSets + blocks16Size D f.offGlyphSets
  glyphRules : f.offGlyphRules = f.offUtf8Rules + rulesSize D f.offUtf8Rules
  horzKern : f.offHorzKern = f.offGlyphRules + rulesSize D f.offGlyphRules
  fits : f.offHorzKern ≤ D.length

/-- The two kerning tables follow and end exactly at `last`. -/
structure KernLayout (D : Bytes) (f : Font) (last : Nat) : Prop where
  vertKern : f.offVertKern = f.offHorzKern + kernSize D f.offHorzKern
  stop : last = f.offVertKern + kernSize D f.offVertKern
  fits : last ≤ D.length

/-- What `Parse` checks of counts and sizes. -/
structure Limits (D : Bytes) (f : Font) : Prop where
  format : u32At D 0 = 2
  name : 0 < byteAt D 28
  glyphs : 0 < u16At D f.offMetrics
  vert : byteAt D (f.offMetrics + 2) ≤ 1
  ascent : 0 < byteAt D (f.offMetrics + 4)
  extraAscent : byteAt D (f.offMetrics + 5) ≤ byteAt D (f.offMetrics + 4)
  named : u16At D f.offGlyphNames ≤ u16At D f.offMetrics
  switches : byteAt D f.offSwitches ≤ 253

end Spec
