import Verif.Spec.SampleBuilder
import Verif.Spec.SampleEdition

/-! # Builders on which `Build` panics, for one reason each -/

namespace Sample
open Go BuilderModel EditionModel Spec

/-- 256 dyes without alphas. -/
def manyDyes : Builder := val fresh ((List.range 256).foldlM (fun b i => b.addDye [byte i] []) oneGlyph)

/-- A mapping to a glyph that does not exist. -/
def strayGlyph : Builder := val fresh (switched.mapWithSwitchSingles 65 0 [1003, 9999])

/-- A group of 129 glyphs. -/
def wideGroup : Builder := val fresh (switched.mapWithSwitch 65 0 [List.replicate 129 1001, [1002, 1003]] [0, 0])

/-- A glyph set that has been removed. -/
def removedSet : Builder := ((val (fresh, 0) (oneGlyph.createGlyphSet 5)).1.removeGlyphSet 5).1

/-- `n` further glyphs. -/
def glyphs (n : Nat) : Res Builder :=
  (List.range n).foldlM (fun b i => do return (← b.addGlyph [2000 + i] dot).1) oneGlyph

/-- A glyph set with 255 ranges of 16 glyphs. -/
def addRanges : Res Builder := do
  let b ← glyphs 16
  let (b, _) ← b.createGlyphSet 5
  (List.range 255).foldlM (fun b i => b.addGlyphSetRange 5 (2000 + i / 16) (2000 + i % 16)) b

def manyRanges : Builder := val fresh addRanges

/-- A glyph set with a list of 255 glyphs. -/
def addList : Res Builder := do
  let b ← glyphs 255
  let (b, _) ← b.createGlyphSet 5
  (List.range 255).foldlM (fun b i => b.addGlyphSetListGlyph 5 (2000 + i)) b

def longList : Builder := val fresh addList

/-- A rewrite rule without body. -/
def emptyBody : Builder := val fresh (oneGlyph.addGlyphRule 1 0 0 [1001] [1001])

/-- A rewrite rule with 256 glyphs as output. -/
def longOutput : Builder := val fresh (oneGlyph.addGlyphRule 0 1 0 [1001] (List.replicate 256 1001))

/-- Kerning for a glyph that does not exist. -/
def strayKerning : Builder := oneGlyph.setKerningPair 1001 9999 (-1)

/-- A pixel far to the right. -/
def farDot : Mask.Img := ⟨⟨300, -1, 301, 0⟩, 1, [255]⟩

/-- A glyph with such a mask. -/
def farGlyph : Builder := (val (fresh, 0) (fresh.addGlyph [1001] farDot)).1

/-- After loading the sample of edition data. -/
def loaded : Builder :=
  { twoGlyphs with
    kernClasses := [-3, 4]
    horzKern := [((1001, 1002), ⟨1, -2⟩), ((1002, 1001), ⟨2, 0⟩)]
    vertKern := [((1002, 1002), ⟨2, 0⟩)] }

/-- Edition data with a class that does not exist. -/
def wrongClass : EditionData := { editionData with horz := [⟨0, 1, 7⟩], vert := [] }

/-- After loading it. -/
def misclassed : Builder :=
  { twoGlyphs with
    kernClasses := [-3, 4]
    horzKern := [((1001, 1002), ⟨7, -2⟩)] }

end Sample
