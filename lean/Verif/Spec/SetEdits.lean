import Verif.Model.Builder

/-! # What an edit of a rewrite set should do -/

namespace Spec
open BuilderModel Builder

/-- Two builders have the same glyph sets: the same identifiers with the same ranges and lists. -/
def SameSets (b b' : Builder) : Prop := ∀ u, b'.glyphSets.get u = b.glyphSets.get u

/-- The range is not in the set any more, and everything else is as before. -/
def RangeRemoved (b b' : Builder) (setUID first last : Nat) : Prop :=
  b'.eachGlyphSetRange setUID = (b.eachGlyphSetRange setUID).filter (· ≠ (first, last)) ∧
  b'.eachGlyphSetListGlyph setUID = b.eachGlyphSetListGlyph setUID ∧
  ∀ u, u ≠ setUID → b'.glyphSets.get u = b.glyphSets.get u

/-- The glyph is not in the list of the set any more, and everything else is as before. -/
def GlyphRemoved (b b' : Builder) (setUID uid : Nat) : Prop :=
  b'.eachGlyphSetListGlyph setUID = (b.eachGlyphSetListGlyph setUID).filter (· ≠ uid) ∧
  b'.eachGlyphSetRange setUID = b.eachGlyphSetRange setUID ∧
  ∀ u, u ≠ setUID → b'.glyphSets.get u = b.glyphSets.get u

end Spec
