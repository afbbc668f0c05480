import Verif.Model.Font

/-! # Validation of whole fonts (`font.go:56-75`) -/

namespace FontModel
open Go

/-- The end of all `Validate` methods: `if mode == FmtStrict { panic("unimplemented") }`. -/
def strictChecks (strict : Bool) : Res Unit := if strict then .panic "unimplemented" else .ok ()

/-- `font.go:56-75`, `Font.Validate`; `strict` is `mode == FmtStrict`. There are no default checks for settings
(`font.go:675-690`), mapping (lines 928-938) and kerning (lines 1360-1370). Rewrite rules are not validated. -/
def Font.validate (f : Font) (strict : Bool) : Res Unit := do
  f.validateHeader
  strictChecks strict
  f.validateMetrics
  strictChecks strict
  f.validateGlyphs
  strictChecks strict
  f.validateColor
  strictChecks strict
  strictChecks strict
  strictChecks strict
  strictChecks strict

end FontModel
