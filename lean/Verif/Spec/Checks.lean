import Verif.Spec.Layout
import Verif.Model.Helpers

/-!
# Everything that `Parse` checks

For every section, the conditions on its counts and on its last end offset (`o` is the position where
the section starts). Only the entropy estimate of identifiers is that of the code (C42).
-/

namespace Spec
open FontModel Helpers

/-- Little-endian 64-bit field. -/
def u64At (D : Bytes) (i : Nat) : Nat := u32At D i + 4294967296 * u32At D (i + 4)

/-- Format version, identifier, name. -/
structure HeaderChecks (D : Bytes) : Prop where
  format : u32At D 0 = 2
  entropy : minEntropyID ≤ lazyEntropyUint64 (u64At D 4)
  name : 0 < byteAt D 28

/-- There are glyphs, vertical layout is a boolean, ascents, vertical interspacing. -/
structure MetricsChecks (D : Bytes) (o : Nat) : Prop where
  glyphs : 0 < u16At D o
  vert : byteAt D (o + 2) ≤ 1
  ascent : 0 < byteAt D (o + 4)
  extraAscent : byteAt D (o + 5) ≤ byteAt D (o + 4)
  vertInterspacing : byteAt D (o + 11) = 0 ∨ byteAt D (o + 2) = 1

/-- Colors used by dyes. -/
def usedColors (D : Bytes) (o : Nat) : Nat := if byteAt D o = 0 then 0 else byteAt D (o + byteAt D o)

/-- As many colors as dyes, as many bytes in names as dyes. -/
def DyesChecks (D : Bytes) (o : Nat) : Prop :=
  let n := byteAt D o
  0 < n → n ≤ byteAt D (o + n) ∧ n ≤ u16At D (o + 1 + n + byteAt D (o + n) + 2 * (n - 1))

/-- The same for palettes, and the number of colors. -/
def PalettesChecks (D : Bytes) (o used : Nat) : Prop :=
  let n := byteAt D o
  0 < n → used + byteAt D (o + n) ≤ 255 ∧ n ≤ byteAt D (o + n) ∧
    n ≤ u16At D (o + 1 + n + 4 * byteAt D (o + n) + 2 * (n - 1))

/-- Names are not more than the glyphs, and of at most 32 bytes on average. -/
def GlyphNamesChecks (D : Bytes) (numGlyphs o : Nat) : Prop :=
  let n := u16At D o
  0 < n → n ≤ numGlyphs ∧ u24At D (o + 2 + 2 * n + 3 * (n - 1)) ≤ n * 32

/-- Masks of at most 255 bytes on average, after the placements. -/
def MasksChecks (D : Bytes) (vert : Bool) (numGlyphs o : Nat) : Prop :=
  let placement := if vert then 4 else 1
  placement * numGlyphs ≤ u24At D (o + 3 * (numGlyphs - 1)) ∧
    u24At D (o + 3 * (numGlyphs - 1)) ≤ (placement + 255) * numGlyphs

/-- Blocks with an 8-bit count and 16-bit end offsets: smallest and largest length of the data. -/
def BlocksChecks (D : Bytes) (o : Nat) (least most : Nat → Nat) : Prop :=
  let n := byteAt D o
  0 < n → least n ≤ u16At D (o + 1 + 2 * (n - 1)) ∧ u16At D (o + 1 + 2 * (n - 1)) ≤ most n

/-- Every setting has an option, on average. -/
def SettingDefsChecks (D : Bytes) (numSettings o : Nat) : Prop :=
  0 < numSettings → numSettings ≤ u16At D (o + 2 * (numSettings - 1))

/-- Entries take three bytes, on average. -/
def MappingChecks (D : Bytes) (o : Nat) : Prop :=
  let n := u16At D o
  0 < n → 3 * n ≤ u24At D (o + 2 + 4 * n + 3 * (n - 1))

/-- Smallest and largest size of rules. -/
def RulesChecks (D : Bytes) (o most : Nat) : Prop :=
  let n := u16At D o
  0 < n → 8 * n ≤ u24At D (o + 2 + 3 * (n - 1)) ∧ u24At D (o + 2 + 3 * (n - 1)) ≤ n * most

/-- All checks. -/
structure Checks (D : Bytes) (f : Font) : Prop where
  header : HeaderChecks D
  metrics : MetricsChecks D f.offMetrics
  dyes : DyesChecks D f.offDyes
  palettes : PalettesChecks D f.offPalettes (usedColors D f.offDyes)
  colors : byteAt D f.offDyes + byteAt D f.offPalettes ≤ 255
  glyphNames : GlyphNamesChecks D (u16At D f.offMetrics) f.offGlyphNames
  glyphMasks : MasksChecks D (byteAt D (f.offMetrics + 2) == 1) (u16At D f.offMetrics) f.offGlyphMasks
  words : BlocksChecks D f.offWords id (· * 32)
  settingNames : BlocksChecks D f.offSettingNames id (· * 32)
  settingDefs : SettingDefsChecks D (byteAt D f.offSettingNames) f.offSettingDefs
  numSwitches : byteAt D f.offSwitches ≤ 253
  switches : BlocksChecks D f.offSwitches id (· * byteAt D f.offSettingNames)
  mapping : MappingChecks D f.offMapping
  conditions : BlocksChecks D f.offConditions (· * 2) fun _ => 65535
  utf8Sets : BlocksChecks D f.offUtf8Sets (1 + · * 5) fun _ => 65535
  glyphSets : BlocksChecks D f.offGlyphSets (1 + · * 3) fun _ => 65535
  utf8Rules : RulesChecks D f.offUtf8Rules 1026
  glyphRules : RulesChecks D f.offGlyphRules 514
  horzKern : u24At D f.offHorzKern ≤ u16At D f.offMetrics * u16At D f.offMetrics
  vertKern : u24At D f.offVertKern ≤ u16At D f.offMetrics * u16At D f.offMetrics

/-- The checks before kerning. -/
def ChecksUpTo (D : Bytes) (f : Font) : Prop :=
  HeaderChecks D ∧ MetricsChecks D f.offMetrics ∧ DyesChecks D f.offDyes ∧
  PalettesChecks D f.offPalettes (usedColors D f.offDyes) ∧
  byteAt D f.offDyes + byteAt D f.offPalettes ≤ 255 ∧
  GlyphNamesChecks D (u16At D f.offMetrics) f.offGlyphNames ∧
  MasksChecks D (byteAt D (f.offMetrics + 2) == 1) (u16At D f.offMetrics) f.offGlyphMasks ∧
  BlocksChecks D f.offWords id (· * 32) ∧ BlocksChecks D f.offSettingNames id (· * 32) ∧
  SettingDefsChecks D (byteAt D f.offSettingNames) f.offSettingDefs ∧
  byteAt D f.offSwitches ≤ 253 ∧ BlocksChecks D f.offSwitches id (· * byteAt D f.offSettingNames) ∧
  MappingChecks D f.offMapping ∧ BlocksChecks D f.offConditions (· * 2) (fun _ => 65535) ∧
  BlocksChecks D f.offUtf8Sets (1 + · * 5) (fun _ => 65535) ∧
  BlocksChecks D f.offGlyphSets (1 + · * 3) (fun _ => 65535) ∧
  RulesChecks D f.offUtf8Rules 1026 ∧ RulesChecks D f.offGlyphRules 514

/-- One kerning table, as `Parse` reads it: it ends at `stop`, and is not longer than all pairs of `n` glyphs.
When the data ends before or inside the count there is no table. -/
def KernTable (D : Bytes) (n o stop : Nat) : Prop :=
  (D.length < o + 3 ∧ stop = o) ∨ (stop = o + kernSize D o ∧ stop ≤ D.length ∧ u24At D o ≤ n * n)

/-- What `Parse` does not reject: a font up to `stop`, with missing kerning tables. Anything may follow. -/
structure Tolerated (D : Bytes) (f : Font) (stop : Nat) : Prop where
  layout : Layout D f
  checks : ChecksUpTo D f
  horzKern : KernTable D (u16At D f.offMetrics) f.offHorzKern f.offVertKern
  vertKern : KernTable D (u16At D f.offMetrics) f.offVertKern stop

/-- Data that is exactly one font. -/
structure WellFormed (D : Bytes) (f : Font) : Prop where
  layout : Layout D f
  kerning : KernLayout D f D.length
  checks : Checks D f

end Spec
