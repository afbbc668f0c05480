import Verif.Spec.SampleText
import Verif.Spec.SampleHistory

/-! # Calls without sets -/

namespace Sample
open Spec BuilderModel

/-- Two glyphs, a replacement of code points and one of glyphs. -/
def ruleCalls : List Method := [
  .addGlyphRewriteRule 0 2 0 [1001, 1002] [1001],
  .addSimpleUtf8RewriteRule 67 [65, 66],
  .addGlyph [1001, 1002] dot,
  .addGlyph [1001] dot]

/-- What they make. -/
def callRules : Builder :=
  { fresh with
    glyphOrder := [1001, 1002]
    glyphData := [(1001, ⟨[], ⟨1, 9, 5, 0⟩, dot⟩), (1002, ⟨[], ⟨1, 9, 5, 0⟩, dot⟩)]
    utf8Rules := [⟨255, 0, 2, 0, ⟨2, [0]⟩, [65, 66], [], [67]⟩]
    glyphRules := [⟨255, 0, 2, 0, ⟨2, [0]⟩, [1001, 1002], [], [1001]⟩] }

/-- The replacements of `setsInside`, and one of a glyph of the set. -/
def beginsInside : Builder := val fresh (setsInside.addGlyphRule 0 1 0 [1002] [1003])

/-- Their rules. -/
def beginsInsideRules : List RuleCode :=
  [⟨255, [3], [], [⟨[0], [2]⟩], []⟩, ⟨255, [3], [⟨[], [2]⟩], [⟨[0, 0], [2]⟩], []⟩, plainRule 255 [2] [] [1] []]

end Sample
