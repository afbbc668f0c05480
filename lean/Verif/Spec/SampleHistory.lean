import Verif.Spec.History
import Verif.Spec.SampleBuilder

/-! # Calls for the examples -/

namespace Sample
open Spec BuilderModel

/-- The calls that make a builder, the latest one first. The second glyph takes the second random value, because the
first one is in use. -/
def calls : List Method := [
  .setAscent 11,
  .addGlyphRewriteRule 0 2 0 [1001, 1002] [1001],
  .addSimpleUtf8RewriteRule 67 [65, 66],
  .addGlyphSetListGlyph 77 1001,
  .addGlyphSetRange 77 1001 1002,
  .createGlyphSet 77,
  .map 65 1002,
  .mapGroup 66 3 [1001, 1002],
  .map 65 1001,
  .addSwitch [0],
  .addSetting (ascii "style") [ascii "off", ascii "on"],
  .addDye (ascii "main") [255, 90],
  .setKerningPair 1001 1002 (-3),
  .setKerningPair 1001 1002 5,
  .setGlyphName 1001 (ascii "dot"),
  .setGlyphPlacement 1002 ⟨4, 3, 2, 1⟩,
  .addGlyph [1001, 1002] dot,
  .addGlyph [1001] dot,
  .setAscent 12,
  .setVersion 2 7 day day,
  .setName (fun _ => true) (ascii "Dots"),
  .raiseMinorVersion day]

/-- What they make. -/
def called : Builder :=
  { fresh with
    versionMajor := 2
    versionMinor := 7
    fontName := ascii "Dots"
    ascent := 11
    glyphOrder := [1001, 1002]
    glyphData := [(1001, ⟨ascii "dot", ⟨1, 12, 5, 0⟩, dot⟩), (1002, ⟨[], ⟨4, 3, 2, 1⟩, dot⟩)]
    horzKern := [((1001, 1002), ⟨0, -3⟩)]
    dyes := [⟨ascii "main", [255, 90]⟩]
    settings := [⟨ascii "style", [ascii "off", ascii "on"]⟩]
    switches := [[0]]
    runeMapping := [(65, ⟨255, [⟨[1002], 0⟩]⟩), (66, ⟨254, [⟨[1001, 1002], 3⟩]⟩)]
    glyphSets := [(77, ⟨[(1001, 1002)], [1001]⟩)]
    glyphSetsOrder := [77]
    utf8Rules := [⟨255, 0, 2, 0, ⟨2, [0]⟩, [65, 66], [], [67]⟩]
    glyphRules := [⟨255, 0, 2, 0, ⟨2, [0]⟩, [1001, 1002], [], [1001]⟩] }

end Sample
