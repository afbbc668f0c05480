import Verif.Spec.SampleBuilder

/-! # Builders that `Build` refuses with an error -/

namespace Sample
open Go BuilderModel

/-- Two glyphs with the same name. -/
def nameBoth : Res Builder := do
  let b ← twoGlyphs.setGlyphName 1001 (ascii "same")
  b.setGlyphName 1002 (ascii "same")

def sameNames : Builder := val fresh nameBoth

/-- A set with a range that ends before it starts. -/
def reverse : Res Builder := do
  let (b, _) ← twoGlyphs.createGlyphSet 5
  b.addGlyphSetRange 5 1002 1001

def reversed : Builder := val fresh reverse

/-- The range taken away again, says the method. -/
def unreversed : Builder × Bool := reversed.removeGlyphSetRange 5 1002 1001

/-- The options of two settings, 256 together. -/
def lettered (c : String) : List Bytes := (List.range 128).map fun i =>
  ascii c ++ [byte (97 + i / 16), byte (97 + i % 16)]

def addManyWords : Res (Builder × Nat) := do
  let (b, _) ← oneGlyph.addSetting (ascii "one") (lettered "x")
  b.addSetting (ascii "two") (lettered "y")

def manyWords : Builder := (val (fresh, 0) addManyWords).1

/-- Sets with a glyph, a range and a rule that uses them. -/
def addSets : Res Builder := do
  let (b, _) ← twoGlyphs.createGlyphSet 5
  let b ← b.addGlyphSetRange 5 1001 1002
  let b ← b.addGlyphSetListGlyph 5 1002
  b.addGlyphRule 0 2 0 [1001, 5] [1002]

def withSets : Builder := val fresh addSets

end Sample
