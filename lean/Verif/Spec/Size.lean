import Verif.Spec.WellMade

/-! # The size of the data of a font

The encodings of masks (C10, C44), of the groups of code points (C21, C24), of words (C40) and of rules (C29, C31)
are those of the builder; everything else is counted. -/

namespace Spec.Size
open Go BuilderModel

/-- The sum over a list. -/
def total {α : Type} (f : α → Nat) (l : List α) : Nat := (l.map f).sum

/-- The number of bytes of an encoding. -/
def encodedLen : Res Bytes → Nat
  | .ok x => x.length
  | _ => 0

/-- The builder with the main dye, which is added by `Build` when there are no colors. -/
def withMain (b : Builder) : Builder :=
  if b.dyes.length + b.palettes.length = 0 then { b with dyes := [⟨ascii "main", [255]⟩] } else b

/-- The bytes of a mapping entry: the switch, and then an index or the groups. -/
def entrySize (b : Builder) (e : MapEntry) : Nat :=
  if e.switchType = 255 then 3 else 1 + total (fun g => encodedLen (b.groupBytes g)) e.cases

/-- The bytes of a name of a glyph with its index and its end. -/
def nameSize (b : Builder) (u : Nat) : Nat :=
  match b.glyphData.get u with
  | some g => if g.name = [] then 0 else 5 + g.name.length
  | none => 0

def utf8RuleSize (r : Rule) : Nat := encodedLen (Builder.ruleBytes Builder.noGroup Builder.runeElem r)
def glyphRuleSize (b : Builder) (r : Rule) : Nat := encodedLen (Builder.ruleBytes b.groupRef b.glyphElem r)

/-- Header, metrics and colors. -/
def frontSize (b : Builder) : Nat :=
  (33 + b.fontName.length + b.fontFamily.length + b.fontAuthor.length + b.fontAbout.length) + 15 +
  (1 + 3 * b.dyes.length + total (·.alphas.length) b.dyes + total (·.name.length) b.dyes) +
  (1 + 3 * b.palettes.length + 4 * total (·.colors.length) b.palettes + total (·.name.length) b.palettes)

/-- Glyphs. -/
def glyphsSize (env : Env) (b : Builder) : Nat :=
  (2 + total (nameSize b) b.glyphOrder) +
  (3 * b.glyphOrder.length + total (fun u => encodedLen (b.glyphBlock env u)) b.glyphOrder)

/-- The words that are stored. -/
def wordsSize (env : Env) (b : Builder) : Nat :=
  match b.settingWords env with
  | .ok (words, _) => 1 + 2 * words.length + total List.length words.keys
  | _ => 0

/-- Settings and switches. -/
def settingsSize (b : Builder) : Nat :=
  (1 + 2 * b.settings.length + total (·.name.length) b.settings) +
  (2 * b.settings.length + total (·.options.length) b.settings) +
  (1 + 2 * b.switches.length + total List.length b.switches)

/-- Code points. -/
def codePointsSize (b : Builder) : Nat :=
  2 + 7 * b.runeMapping.length + total (fun e => entrySize b e.2) b.runeMapping

/-- Conditions, sets and rules. -/
def rewritesSize (b : Builder) : Nat :=
  (1 + 2 * b.conditions.length + total List.length b.conditions) + 1 +
  (1 + 2 * b.glyphSets.length + total (fun s => setCost s.2) b.glyphSets) +
  (2 + 3 * b.utf8Rules.length + total utf8RuleSize b.utf8Rules) +
  (2 + 3 * b.glyphRules.length + total (glyphRuleSize b) b.glyphRules)

/-- All of the data. -/
def fontSize (env : Env) (b : Builder) : Nat :=
  frontSize b + glyphsSize env b + wordsSize env b + settingsSize b + codePointsSize b + rewritesSize b +
  (3 + 5 * b.horzKern.length) + (3 + 5 * b.vertKern.length)

/-- Rules take less than 16 MiB each, and the data at most 32 MiB. -/
structure FitsData (env : Env) (b : Builder) : Prop where
  utf8 : total utf8RuleSize b.utf8Rules ≤ 16777215
  glyph : total (glyphRuleSize b) b.glyphRules ≤ 16777215
  all : fontSize env b ≤ 33554432

end Spec.Size
