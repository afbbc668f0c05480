import Verif.Go

/-! # Model of `glyph.go:15-33` -/

namespace GlyphModel
open Go

/-- `glyph.go:15-18`; both ends are included (`uint16`). -/
structure GlyphRange where
  first : Nat
  last : Nat
deriving DecidableEq, Repr

/-- `glyph.go:20-22`, `Contains`. -/
def GlyphRange.contains (self : GlyphRange) (index : Nat) : Bool := index ≥ self.first && index ≤ self.last

/-- `glyph.go:24-28`, `Validate`. -/
def GlyphRange.validate (self : GlyphRange) (maxGlyphs : Nat) : Res Unit :=
  if self.first > self.last then .err "invalid glyph range: First > Last"
  else if self.last ≥ maxGlyphs then .err "invalid glyph range: Last exceeds maxGlyphs"
  else .ok ()

/-- `glyph.go:30-33`, `NewRange`. -/
def newRange (first last : Nat) : Res GlyphRange :=
  if last < first then .panic "invalid glyph range: last < first" else .ok ⟨first, last⟩

end GlyphModel
