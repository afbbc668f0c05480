import Verif.Spec.Edition
import Verif.Spec.SampleBuilder

/-! # Edition data for examples -/

namespace Sample
open Go BuilderModel EditionModel Spec

/-- Two glyphs and a kerning pair. -/
def kernedEditor : Editor := ⟨twoGlyphs.setKerningPair 1001 1002 (-2), [], [], []⟩

/-- A category, two classes, a horizontal and a vertical pair. -/
def editionData : EditionData :=
  { fontID := 0x9E3779B97F4A7C15
    categories := [(ascii "All letters", 2)]
    classes := [(ascii "tight", -3), (ascii "wide", 4)]
    horz := [⟨0, 1, 1⟩, ⟨1, 0, 2⟩]
    vert := [⟨1, 1, 2⟩]
    conditions := [] }

/-- A category that is larger than the font, and a class that does not exist. -/
def nonconforming : EditionData := { editionData with categories := [(ascii "All", 3)], horz := [⟨0, 1, 7⟩] }

/-- The vertical pair has no class, the horizontal ones were read before. -/
def badEdition : EditionData := { editionData with vert := [⟨1, 1, 0⟩] }

/-- The reader that delivers everything at once. -/
def atOnce (D : Bytes) : ParseBuf.Reader := ⟨[⟨D, .nil⟩], .eof⟩

end Sample
