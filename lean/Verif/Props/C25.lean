import Verif.Lemmas.MappingCacheRun
import Verif.Lemmas.MappingCacheDrops
import Verif.Spec.SampleCaches

/-!
# C25: the mapping cache is transparent

Every lookup through the cache has the offset, case and kind of a direct lookup, for every history with
fewer than 2^32 drops. After 2^32 drops the counter is back at its first value, and an entry that was
not used in between is taken as valid again. The switch type of a cached group is lost.
-/

namespace C25
open Go Spec FontModel CacheModel BuilderModel

/-- Every history of lookups, settings changes, drops and resets, with every font (parsed or not) and
every size that `NewMappingCache` accepts, as long as there are fewer than 2^32 drops. -/
theorem transparent_partial (f : Font) (size : Int) (m : MappingCache) (s : SettingsCache)
    (hm : MappingCache.new f size = .ok m) (hs : SettingsCache.new f = .ok s) (n : Nat)
    (hn : f.numSettings = .ok n) (ops : List Lookup.Op) (hd : Lookup.drops ops < 4294967296) :
    Lookup.codeRun m s ops = Lookup.run f (List.replicate n 0) ops := by
  simp only [MappingCache.new, ite_panic] at hm
  obtain ⟨h1, h2, hm⟩ := hm
  simp only [Res.ok.injEq] at hm
  subst hm
  have hs' := id hs
  simp only [SettingsCache.new, Res.bind_eq_ok] at hs'
  obtain ⟨n', e1, k, e2, j, e3, _⟩ := hs'
  rw [hn, Res.ok.injEq] at e1
  subst e1
  obtain ⟨c, q1, q2⟩ := Coherent.new hn e2 e3
  rw [hs, Res.ok.injEq] at q1
  subst q1
  exact run_eq ops (CacheInv.fresh _ (by omega) (by omega)) q2 (by simp only; omega)

/-- `NewMappingCache` accepts exactly the sizes from 1 to 65000. -/
theorem new_sizes (f : Font) (size : Int) :
    ((∃ m, MappingCache.new f size = .ok m) ↔ 1 ≤ size ∧ size ≤ 65000) ∧
    (∀ msg, MappingCache.new f size ≠ .err msg) := by
  rw [MappingCache.new]
  split
  · exact ⟨by simp; omega, by simp⟩
  · split
    · exact ⟨by simp; omega, by simp⟩
    · exact ⟨by simp; omega, by simp⟩

/-- A setting is changed and 2^32 drops are requested in all: the next lookup has the old glyph. -/
theorem transparent_violated :
    (∃ b', Sample.mapped.build Sample.env = .ok (b', Sample.mappedFont)) ∧
    MappingCache.new Sample.mappedFont 8 = .ok (Sample.mapping 8) ∧
    SettingsCache.new Sample.mappedFont = .ok Sample.settings ∧
    Sample.mappedFont.numSettings = .ok 1 ∧
    Lookup.drops (Sample.manyDrops 4294967295) = 4294967296 ∧
    Lookup.codeRun (Sample.mapping 8) Sample.settings (Sample.manyDrops 4294967295) ≠
      Lookup.run Sample.mappedFont [0] (Sample.manyDrops 4294967295) := by
  refine ⟨⟨(Sample.result Sample.mapped).1, by decide +kernel⟩, by decide +kernel, by decide +kernel,
    by decide +kernel, ?_, ?_⟩
  · have e : ∀ ops, Lookup.drops (.lookup 65 :: .change 0 1 :: ops) = Lookup.drops ops + 1 := fun _ => rfl
    rw [Sample.manyDrops, e, drops_many]
    rfl
  · have hd : (Lookup.codeState (Sample.mapping 8) Sample.settings [.lookup 65, .change 0 1]).1.drop = 1 := by
      decide +kernel
    rw [Sample.manyDrops]
    refine stale (d := 0) ?_ ?_ ?_ ?_ (by rw [hd]; omega) (by rw [hd]) ?_ <;> decide +kernel

/-- The second lookup of a code point has lost the switch type. -/
theorem switchType_violated :
    let f := Sample.mappedFont
    (do
      let m ← MappingCache.new f 8
      let s ← SettingsCache.new f
      let (m, s, a) ← m.get 69 s
      let (_, s, b) ← m.get 69 s
      let (_, c) ← utf8WithCache f 69 s
      return (a.map Font.Group.switchType, b.map Font.Group.switchType, c.map Font.Group.switchType)) =
    .ok (some 254, some 0, some 254) := by
  decide +kernel

/-- A history with changes and evictions. -/
example : let f := Sample.mappedFont
    Lookup.drops [.lookup 65, .lookup 66, .change 0 1, .lookup 65, .lookup 71, .reset, .direct 66] = 1 ∧
    Lookup.run f [0] [.lookup 65, .change 0 1, .lookup 65, .lookup 71] =
      [.group 195 0 false, .unit, .group 198 1 false, .missing] := by
  decide +kernel

end C25
