import Verif.Spec.SampleBuilder
import Verif.Spec.SampleTester

/-! # Builders with replacements, for the examples -/

namespace Sample
open Go BuilderModel TesterModel TreeModel FontModel CacheModel Spec

/-- Two ligatures, and a replacement of glyphs after a glyph. -/
def ligatures : Builder :=
  val fresh (do
    let b ← mapped.addSimpleUtf8Rule 64257 [102, 105]
    let b ← b.addSimpleUtf8Rule 64259 [102, 102, 105]
    b.addGlyphRule 1 2 0 [1001, 1002, 1003] [1004])

/-- A ligature, and a replacement of a text that rules cannot have. -/
def refusedText : Builder :=
  val fresh (do
    let b ← mapped.addSimpleUtf8Rule 64257 [102, 105]
    b.addSimpleUtf8Rule 63 [102, 65533])

/-- Replacements of a glyph by a glyph, by two and by none. -/
def refusedOutputs : Builder :=
  val fresh (do
    let b ← mapped.addGlyphRule 0 1 0 [1001] [1002]
    let b ← b.addGlyphRule 0 1 0 [1002] [1003, 1004]
    b.addGlyphRule 0 1 0 [1003] [])

/-- Two glyphs are replaced by two glyphs. -/
def twoForTwo : Builder := val fresh (mapped.addGlyphRule 0 2 0 [1001, 1002] [1003, 1004])

/-- A replacement of two glyphs before another one. -/
def before : Builder := val fresh (mapped.addGlyphRule 0 2 1 [1001, 1002, 1003] [1004])

/-- A set with two glyphs, one of them as a range, and a replacement of a glyph and one of the set. -/
def setAtEnd : Builder :=
  val fresh (do
    let (b, u) ← mapped.createGlyphSet 500
    let b ← b.addGlyphSetListGlyph u 1003
    let b ← b.addGlyphSetRange u 1002 1002
    b.addGlyphRule 0 2 0 [1001, u] [1004])

/-- A set with a range of two glyphs, and replacements that begin with the set, or have it in the middle. -/
def setsInside : Builder :=
  val fresh (do
    let (b, u) ← mapped.createGlyphSet 500
    let b ← b.addGlyphSetRange u 1001 1002
    let b ← b.addGlyphRule 0 2 0 [u, 1003] [1004]
    b.addGlyphRule 1 3 0 [1003, u, u, 1003] [1004])

/-- What a tester with the rules `R` makes of `w`. -/
def typed (v : Variant) (word : Nat → Bytes) (f : Font) (R : List RuleCode) (w : List Nat) : Res (List (List Nat)) := do
  let s ← SettingsCache.new f
  let (_, outs) ← World.run v word { testerEnv with font := f, sets := glyphSets f } (R.map .add ++ [.seq w]) { s := s }
  return outs

end Sample
