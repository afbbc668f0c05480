import Verif.Spec.Colors
import Verif.Spec.Kern
import Verif.Spec.Mapping
import Verif.Spec.Words

/-!
# Builders whose fonts are accepted by `Parse`

`Kept` is what the methods of the builder maintain by themselves. `SizesFit` says that the end offsets of
three sections do not overflow (the other sections are checked by `Build`). `Acceptable` lists what
`Parse` checks and the builder does not.
-/

namespace Spec
open Go Helpers BuilderModel

/-- What the methods of the builder maintain. -/
structure Kept (b : Builder) : Prop where
  id : FontModel.minEntropyID ≤ lazyEntropyUint64 b.fontID.toNat
  glyphNames : ∀ u g, b.glyphData.get u = some g → g.name.length ≤ 32
  colors : ColorsOk b
  settings : SettingsOk b.settings
  switches : ∀ s ∈ b.switches, s ≠ []
  mapping : MapOk b
  conditions : b.conditions = []
  kern : KernOk b

/-- Names of colors, masks and mapping do not exceed what their end offsets can express. -/
structure SizesFit (b : Builder) (f : FontModel.Font) : Prop where
  dyeNames : (b.dyes.map fun d => d.name.length).sum ≤ 65535
  paletteNames : (b.palettes.map fun p => p.name.length).sum ≤ 65535
  masks : f.offWords ≤ f.offGlyphMasks + 3 * b.glyphOrder.length + 16777215
  mapping : f.offConditions ≤ f.offMapping + (2 + 7 * b.runeMapping.length) + 16777215

/-- Bytes of a placement. -/
def placementLen (b : Builder) : Nat := if b.hasVertLayout then 4 else 1

/-- What `Parse` checks and the builder does not: the font has a name; vertical interspacing goes with
vertical layout; color sections and settings are not empty, on average; masks take up to 255 bytes, on
average; there are up to 253 switches; mapped code points take three bytes or more, on average; glyph sets take more than three bytes, on average; rewrite rules
are not too long, on average. -/
structure Acceptable (b : Builder) (f : FontModel.Font) : Prop where
  name : b.fontName ≠ []
  vertInterspacing : b.vertInterspacing = 0 ∨ b.hasVertLayout = true
  dyeAlphas : b.dyes.length ≤ (b.dyes.map fun d => d.alphas.length).sum
  dyeNames : b.dyes.length ≤ (b.dyes.map fun d => d.name.length).sum
  paletteColors : b.palettes.length ≤ (b.palettes.map fun p => p.colors.length).sum
  paletteNames : b.palettes.length ≤ (b.palettes.map fun p => p.name.length).sum
  masks : f.offWords ≤ f.offGlyphMasks + 3 * b.glyphOrder.length +
    (placementLen b + 255) * b.glyphOrder.length
  options : b.settings.length ≤ (b.settings.map fun s => s.options.length).sum
  switches : b.switches.length ≤ 253
  glyphSets : b.glyphSetsOrder ≠ [] →
    f.offGlyphSets + (1 + 2 * b.glyphSetsOrder.length) + (1 + 3 * b.glyphSetsOrder.length) ≤ f.offUtf8Rules
  utf8Rules : f.offGlyphRules ≤ f.offUtf8Rules + (2 + 3 * b.utf8Rules.length) + 1026 * b.utf8Rules.length
  glyphRules : f.offHorzKern ≤ f.offGlyphRules + (2 + 3 * b.glyphRules.length) + 514 * b.glyphRules.length
  mapping : f.offMapping + (2 + 7 * b.runeMapping.length) + 3 * b.runeMapping.length ≤ f.offConditions

end Spec
