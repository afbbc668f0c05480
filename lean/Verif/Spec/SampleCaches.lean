import Verif.Spec.Caches
import Verif.Spec.SampleBuilder

/-! # Caches for the examples -/

namespace Sample
open Go FontModel CacheModel Spec

/-- The font of `mapped`. -/
def mappedFont : Font := (result mapped).2

/-- A fresh mapping cache for it. -/
def mapping (size : Int) : MappingCache :=
  val { font := mappedFont, entries := [] } (MappingCache.new mappedFont size)

/-- Its settings. -/
def noBools : Helpers.BoolList := Helpers.BoolList.new 0

def settings : SettingsCache :=
  val ⟨noBools, noBools, noBools, noBools, [], noBools, []⟩ (SettingsCache.new mappedFont)

/-- A lookup and a settings change, many drops and the same lookup. -/
def manyDrops (n : Nat) : List Lookup.Op :=
  .lookup 65 :: .change 0 1 :: (List.replicate n .drop ++ [.lookup 65])

/-- The code points of a cache after lookups. -/
def cachedAfter (size : Int) (cs : List Int) : Res (List Int) := do
  let (m, _) ← Lookup.lookups (mapping size) settings cs
  return m.cached.keys

end Sample
