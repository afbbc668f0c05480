import Verif.Lemmas.Unbuildable
import Verif.Lemmas.WellMade
import Verif.Spec.SampleRefused

/-! # The samples can be reached -/

namespace Sample
open Go BuilderModel Spec

theorem twoGlyphs_reachable : Reachable twoGlyphs :=
  oneGlyph_reachable.call (.addGlyph (rolls := [1002]) (mask := dot) (uid := 1002) (by decide +kernel))

theorem sameNames_reachable : Reachable sameNames := by
  have e : nameBoth = .ok sameNames := val_eq (by decide +kernel)
  obtain ⟨b, hb, e⟩ := Res.bind_eq_ok.1 e
  exact (twoGlyphs_reachable.call (.setGlyphName hb)).call (.setGlyphName e)

theorem reversed_reachable : Reachable reversed := by
  have e : reverse = .ok reversed := val_eq (by decide +kernel)
  obtain ⟨⟨b, u⟩, hb, e⟩ := Res.bind_eq_ok.1 e
  exact (twoGlyphs_reachable.call (.createGlyphSet hb)).call (.addGlyphSetRange e)

theorem manyWords_reachable : Reachable manyWords := by
  have e : addManyWords = .ok (val (fresh, 0) addManyWords) := val_eq (by decide +kernel)
  rw [manyWords]
  generalize val (fresh, 0) addManyWords = r at *
  obtain ⟨⟨b, u⟩, hb, e⟩ := Res.bind_eq_ok.1 e
  exact (oneGlyph_reachable.call (.addSetting hb)).call (.addSetting e)

theorem withSets_reachable : Reachable withSets := by
  have e : addSets = .ok withSets := val_eq (by decide +kernel)
  obtain ⟨⟨b, u⟩, hb, e⟩ := Res.bind_eq_ok.1 e
  obtain ⟨c, hc, e⟩ := Res.bind_eq_ok.1 e
  obtain ⟨d, hd, e⟩ := Res.bind_eq_ok.1 e
  exact (((twoGlyphs_reachable.call (.createGlyphSet hb)).call (.addGlyphSetRange hc)).call
    (.addGlyphSetListGlyph hd)).call (.addGlyphRewriteRule e)

theorem reversed_doomed : Doomed reversed := by
  refine .inr (.inr (.inr ⟨(5, ⟨[(1002, 1001)], []⟩), by decide +kernel, .inr (.inr ⟨(1002, 1001), by simp, ?_⟩)⟩))
  show ¬ (reversed.glyphOrder.idxOf 1002 ≤ reversed.glyphOrder.idxOf 1001 ∧ _)
  decide +kernel

theorem withSets_buildable : Buildable withSets := by
  have hg : withSets.glyphData.map (fun e => e.2.mask) = [dot, dot] := by decide +kernel
  refine ⟨⟨by decide +kernel, by decide +kernel, by decide +kernel, by decide +kernel, by decide +kernel,
    by decide +kernel, by decide +kernel, by decide +kernel, by decide +kernel, by decide +kernel, by decide +kernel,
    by decide +kernel, by decide +kernel, by decide +kernel, by decide +kernel, by decide +kernel⟩, ?_⟩
  intro u g h
  have : g.mask ∈ withSets.glyphData.map (fun e => e.2.mask) :=
    List.mem_map.2 ⟨_, GoMap.mem_of_get h, rfl⟩
  rw [hg] at this
  have : g.mask = dot := by simpa using this
  rw [this]
  constructor <;> decide

end Sample
