import Verif.Model.Build

/-! # Builders for the examples -/

namespace Sample
open Go BuilderModel

/-- Orders as the lists come, and two predefined words. -/
def env : Env := ⟨id, fun _ => id, id, id, fun i => if i = 7 then ascii "on" else ascii "off"⟩

def day : DateModel.Date := ⟨2024, 5, 17⟩

/-- The value of a successful call (for examples). -/
def val {α : Type} (d : α) : Res α → α
  | .ok a => a
  | _ => d

/-- A fresh builder. -/
def fresh : Builder :=
  { fontID := 0x9E3779B97F4A7C15, firstVersionDate := day, majorVersionDate := day,
    minorVersionDate := day, fontName := ascii "Unnamed", fontFamily := ascii "Unnamed",
    fontAuthor := ascii "Authorless", fontAbout := ascii "No information available." }

/-- A mask of one pixel. -/
def dot : Mask.Img := ⟨⟨0, -1, 1, 0⟩, 1, [255]⟩

/-- One glyph. -/
def oneGlyph : Builder := (val (fresh, 0) (fresh.addGlyph [1001] dot)).1

/-- One glyph and a dye, a name of 226 bytes and the family name `Fam`. -/
def longName : Builder :=
  val fresh (do
    let b ← oneGlyph.setName (fun _ => true) (List.replicate 226 97)
    let b ← b.setFamily (fun _ => true) (ascii "Fam")
    b.addDye (ascii "main") [255])

/-- Vertical layout. -/
def vertical : Builder :=
  val fresh (do
    let b := ((oneGlyph.setAscent 12).setExtraAscent 3).setVertLayoutUsed true
    let b ← b.setVertLineWidth 7
    b.setVertLineGap 2)

/-- The result of `Build` (for examples). -/
def result (b : Builder) : Builder × FontModel.Font := val (b, ⟨[], 0, 0, 0, 0, 0, 0, 0, 0, 0, 0, 0, 0,
  0, 0, 0, 0, 0⟩) (b.build env)

/-- Two glyphs. -/
def twoGlyphs : Builder := (val (oneGlyph, 0) (oneGlyph.addGlyph [1002] dot)).1

/-- Kerning for two of the four pairs. -/
def kerned : Builder := (twoGlyphs.setKerningPair 1002 1001 (-3)).setKerningPair 1001 1001 7

/-- A vertical kerning pair, as `ParseEditionData` stores it, with class 1. -/
def vertKerned (b : Builder) : Builder :=
  { b with
    kernClasses := [5]
    vertKern := [((1001, 1001), ⟨1, 0⟩)] }

/-- Names for the two glyphs. -/
def named (x y : String) : Builder :=
  val fresh (do
    let b ← twoGlyphs.setGlyphName 1001 (ascii x)
    b.setGlyphName 1002 (ascii y))

/-- Two dyes and two palettes. -/
def colored : Builder :=
  val fresh (do
    let b ← oneGlyph.addDye (ascii "main") [255, 128]
    let b ← b.addPalette (ascii "red") [⟨255, 0, 0, 255⟩, ⟨128, 0, 0, 255⟩]
    let b ← b.addDye (ascii "shadow") [90]
    b.addPalette (ascii "blue") [⟨0, 0, 255, 255⟩])

/-- Two dyes and three palettes. -/
def palettes : Builder :=
  val fresh (do
    let b ← oneGlyph.addDye (ascii "main") [255]
    let b ← b.addDye (ascii "shadow") [90, 60, 30]
    let b ← b.addPalette (ascii "red") [⟨255, 0, 0, 255⟩, ⟨128, 0, 0, 255⟩]
    let b ← b.addPalette (ascii "blue") [⟨0, 0, 255, 255⟩]
    b.addPalette (ascii "green") [⟨0, 255, 0, 255⟩])

/-- Four glyphs. -/
def fourGlyphs : Builder :=
  val fresh (do
    let (b, _) ← twoGlyphs.addGlyph [1003] dot
    let (b, _) ← b.addGlyph [1004] dot
    return b)

/-- A setting with two options and a switch on it. -/
def switched : Builder :=
  val fresh (do
    let (b, _) ← fourGlyphs.addSetting (ascii "style") [ascii "off", ascii "on"]
    let (b, _) ← b.addSwitch [0]
    return b)

/-- The letter A is mapped to single glyphs, B to two lists, C to two ranges, D to one glyph. -/
def mapped : Builder :=
  val fresh (do
    let b ← switched.mapWithSwitchSingles 65 0 [1003, 1001]
    let b ← b.mapWithSwitch 66 0 [[1001, 1003], [1004, 1002]] [5, 6]
    let b ← b.mapWithSwitch 67 0 [[1001, 1002], [1003, 1004]] [5, 6]
    let b ← b.map 68 1002
    let b ← b.mapGroup 69 9 [1003, 1002, 1001]
    b.mapGroup 70 9 [1001, 1002, 1004])

/-- Select a glyph for a code point. -/
def chosen (f : FontModel.Font) (codePoint : Nat) (settings : List Nat) (choice : Nat) : Res (Option Nat) := do
  match ← f.utf8 codePoint settings with
  | none => return none
  | some g =>
    let i ← f.groupSelect g choice
    return some i

/-- The animation flags for a code point. -/
def animFlags (f : FontModel.Font) (codePoint : Nat) (settings : List Nat) : Res (Option Nat) := do
  match ← f.utf8 codePoint settings with
  | none => return none
  | some g =>
    let i ← f.groupAnimFlags g
    return some i

/-- Two settings with 17 options each, and a switch on both. -/
def manyCases : Builder :=
  val fresh (do
    let (b, _) ← oneGlyph.addSetting (ascii "style") (List.replicate 17 (ascii "on"))
    let (b, _) ← b.addSetting (ascii "shape") (List.replicate 17 (ascii "on"))
    let (b, _) ← b.addSwitch [0, 1]
    return b)

end Sample
