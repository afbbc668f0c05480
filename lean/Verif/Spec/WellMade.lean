import Verif.Spec.Buildable
import Verif.Spec.Words

/-!
# Builders that `Build` accepts

`WellMade` is what `Build` checks and reports as an error, but for the sizes of the data.
-/

namespace Spec
open Go Helpers BuilderModel EditionModel

/-- The glyphs of a range are at most 256, and the first comes first. -/
def InOrder (b : Builder) (r : Nat × Nat) : Prop :=
  b.glyphOrder.idxOf r.1 ≤ b.glyphOrder.idxOf r.2 ∧ b.glyphOrder.idxOf r.2 ≤ b.glyphOrder.idxOf r.1 + 255

/-- What a set takes: two counts, three bytes for each range and two for each glyph. -/
def setCost (s : GlyphSet) : Nat := 2 + 3 * s.ranges.length + 2 * s.list.length

/-- At most 255 words are used as options. -/
def FewWords (b : Builder) : Prop := ∃ l : List Bytes, l.length ≤ 255 ∧ ∀ w, IsOption b w → w ∈ l

structure WellMade (b : Builder) : Prop where
  glyphs : b.glyphOrder ≠ []
  ascent : 0 < b.ascent.toNat
  extraAscent : b.extraAscent.toNat < b.ascent.toNat
  uppercase : b.uppercaseAscent.toNat ≤ b.ascent.toNat
  midline : b.midlineAscent.toNat ≤ b.uppercaseAscent.toNat
  /-- Different glyphs have different names, or none. -/
  names : ∀ u v g h, b.glyphData.get u = some g → b.glyphData.get v = some h → g.name = h.name →
    g.name ≠ [] → u = v
  words : FewWords b
  setSizes : (b.glyphSets.map fun s => setCost s.2).sum ≤ 65535
  ranges : ∀ s ∈ b.glyphSets, ∀ r ∈ s.2.ranges, InOrder b r

/-- The glyphs and sets that sets and rules refer to exist. -/
structure Refs (b : Builder) : Prop where
  ranges : ∀ e ∈ b.glyphSets, ∀ r ∈ e.2.ranges, r.1 ∈ b.glyphOrder ∧ r.2 ∈ b.glyphOrder
  lists : ∀ e ∈ b.glyphSets, ∀ u ∈ e.2.list, u ∈ b.glyphOrder
  outputs : ∀ r ∈ b.glyphRules, ∀ u ∈ r.output, u ∈ b.glyphOrder
  elems : ∀ r ∈ b.glyphRules, ∀ u ∈ r.inElems, u ∈ b.glyphOrder
  groups : ∀ r ∈ b.glyphRules, ∀ u ∈ r.inGroups, u ∈ b.glyphSetsOrder
  utf8 : ∀ r ∈ b.utf8Rules, r.inGroups = []

/-- The limits on the data. -/
def TooLarge (m : String) : Prop :=
  m = "font data exceeds maximum size" ∨ m = "rewrite rules exceed maximum allowed size of 16MiB"

/-- What no method takes back: neither settings nor elements of sets can be removed. -/
def Doomed (b : Builder) : Prop :=
  Spoiled b ∨ ¬ FewWords b ∨ (b.glyphSets.map fun s => setCost s.2).sum > 65535 ∨
  ∃ s ∈ b.glyphSets, s.2.ranges.length > 254 ∨ s.2.list.length > 254 ∨ ∃ r ∈ s.2.ranges, ¬ InOrder b r

end Spec
