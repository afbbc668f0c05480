import Verif.Model.Build

/-! # Builders with the same content -/

namespace Spec
open BuilderModel

/-- The same entries, iterated in another order. -/
structure SameMap {K V : Type} (m m' : GoMap K V) : Prop where
  nodup : (m.map Prod.fst).Nodup
  perm : m.Perm m'

/-- The same builder, except that the Go maps are iterated in other orders. -/
structure SameContent (b c : Builder) : Prop where
  rest : c = { b with glyphData := c.glyphData, runeMapping := c.runeMapping, glyphSets := c.glyphSets,
                      runeSets := c.runeSets, horzKern := c.horzKern, vertKern := c.vertKern }
  glyphData : SameMap b.glyphData c.glyphData
  runeMapping : SameMap b.runeMapping c.runeMapping
  glyphSets : SameMap b.glyphSets c.glyphSets
  runeSets : SameMap b.runeSets c.runeSets
  horzKern : SameMap b.horzKern c.horzKern
  vertKern : SameMap b.vertKern c.vertKern

end Spec
