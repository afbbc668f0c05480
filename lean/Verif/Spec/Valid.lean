import Verif.Spec.Checks

/-! # Valid fonts -/

namespace Spec
open FontModel

/-- Checks of header and metrics; not more names than glyphs; at most 255 color sections. -/
structure Valid (f : Font) : Prop where
  header : HeaderChecks f.data
  metrics : MetricsChecks f.data f.offMetrics
  glyphNames : u16At f.data f.offGlyphNames ≤ u16At f.data f.offMetrics
  colors : byteAt f.data f.offDyes + byteAt f.data f.offPalettes ≤ 255

/-- The fields that validation looks at are inside the data. -/
structure FieldsFit (f : Font) : Prop where
  name : 29 < f.data.length ∧ 29 + byteAt f.data 28 ≤ f.data.length
  metrics : f.offMetrics + 15 ≤ f.data.length
  dyes : f.offDyes < f.data.length
  palettes : f.offPalettes < f.data.length
  glyphNames : f.offGlyphNames + 2 ≤ f.data.length

end Spec
