import Verif.Spec.Acceptable
import Verif.Spec.Reachable

/-!
# Builders for which `Build` does not panic

`Buildable` is what `Build` takes for granted and the methods do not ensure.
-/

namespace Spec
open Go Helpers BuilderModel EditionModel

/-- A mask without padding between rows that fits, together with the origin, a 128x128 square. -/
structure SmallMask (m : Mask.Img) : Prop where
  wide : m.rect.x0 ≤ m.rect.x1
  high : m.rect.y0 ≤ m.rect.y1
  stride : m.stride = m.rect.x1 - m.rect.x0
  pixels : (m.rect.x1 - m.rect.x0) * (m.rect.y1 - m.rect.y0) ≤ m.pix.length
  x : max m.rect.x1 0 - min m.rect.x0 0 ≤ 128
  y : max m.rect.y1 0 - min m.rect.y0 0 ≤ 128

/-- The encoder gives the bytes of the mask. -/
def Encodes (env : Env) (m : Mask.Img) : Prop := ∃ x, Mask.appendRasterOps env.fragOrder [] m = .ok x

/-- Sizes of tables, and references to glyphs, sets and classes that exist. -/
structure Orderly (b : Builder) : Prop where
  /-- Dyes and palettes. Only the colors are counted by `AddDye` and `AddPalette`. -/
  sections : b.dyes.length + b.palettes.length ≤ 255
  mapped : b.runeMapping.length ≤ 56789
  /-- Not checked by `MapWithSwitch` and `MapWithSwitchSingles`. -/
  mapGlyphs : ∀ e ∈ b.runeMapping, ∀ g ∈ e.2.cases, ∀ u ∈ g.glyphs, u ∈ b.glyphOrder
  mapGroups : ∀ e ∈ b.runeMapping, ∀ g ∈ e.2.cases, g.glyphs.length ≤ 128
  /-- No set has been removed. -/
  sets : b.glyphSets.length = b.glyphSetsOrder.length
  /-- One less than what can be added. -/
  ranges : ∀ s ∈ b.glyphSets, s.2.ranges.length ≤ 254
  lists : ∀ s ∈ b.glyphSets, s.2.list.length ≤ 254
  utf8Rules : b.utf8Rules.length ≤ 65535
  glyphRules : b.glyphRules.length ≤ 65535
  /-- Not checked by `AddGlyphRewriteRule`. -/
  bodies : ∀ r ∈ b.glyphRules, r.bodyLen ≠ 0
  outputs : ∀ r ∈ b.glyphRules, r.output.length ≤ 255
  horzCount : b.horzKern.length ≤ 16777215
  vertCount : b.vertKern.length ≤ 16777215
  /-- Not checked by `SetKerningPair`. -/
  horzGlyphs : ∀ e ∈ b.horzKern, e.1.1 ∈ b.glyphOrder ∧ e.1.2 ∈ b.glyphOrder
  /-- The values of the vertical pairs are looked up among the horizontal ones. -/
  vertPairs : ∀ e ∈ b.vertKern, ∃ e' ∈ b.horzKern, e'.1 = e.1
  /-- Not checked by `ParseEditionData`. -/
  classes : ∀ e ∈ b.horzKern, e.2.cls ≤ b.kernClasses.length

/-- The masks are small in addition. -/
structure Buildable (b : Builder) : Prop extends Orderly b where
  masks : ∀ u g, b.glyphData.get u = some g → SmallMask g.mask

/-- What no method takes back: dyes, palettes and rules, and the places of removed sets. -/
def Spoiled (b : Builder) : Prop :=
  b.dyes.length + b.palettes.length > 255 ∨ b.glyphSets.length < b.glyphSetsOrder.length ∨
  b.utf8Rules.length > 65535 ∨ b.glyphRules.length > 65535 ∨
  ∃ r ∈ b.glyphRules, r.bodyLen = 0 ∨ r.output.length > 255

/-- Further steps of the public methods, from `e` on. -/
inductive Later (e : Editor) : Editor → Prop
  | refl : Later e e
  | call {e' b'} : Later e e' → Call e'.builder b' → Later e { e' with builder := b' }
  | clear {e'} : Later e e' → Later e (clearEditionData e')
  | parse {e' junk sig gz err e''} : Later e e' → parseEditionData junk sig gz e' = .ok (err, e'') → Later e e''

end Spec
