import Verif.Lemmas.BuiltRewrites
import Verif.Spec.SampleRules

/-!
# C30: rewrite set accessors return the encoded set

Glyph sets read back exactly, also those of built fonts. For sets of code points the list is right, but
the end of a range is computed with the wrong byte: every range is reported with a single code point.
-/

namespace C30
open Go Spec FontModel BuilderModel

/-- Ranges of glyph sets. -/
theorem glyph_ranges (s : EncSet) (h : s.Ok 65536) :
    RSet.glyphRanges s.glyphBytes = .ok (s.ranges.map fun r => (r.1, r.1 + r.2)) := by
  obtain ⟨h0, h1, _, _⟩ := set_at h (At_self _)
  rw [RSet.glyphRanges, h0, Res.ok_bind]
  exact rangeLoop16 _ _ h1 h.ranges

/-- Lists of glyph sets. -/
theorem glyph_list (s : EncSet) (h : s.Ok 65536) : RSet.glyphList s.glyphBytes = .ok s.list := by
  obtain ⟨h0, _, h2, h3⟩ := set_at h (At_self _)
  rw [RSet.glyphList, h0, Res.ok_bind, h2, Res.ok_bind]
  exact listLoop16 _ _ h3 h.list

/-- Lists of sets of code points. -/
theorem utf8_list (s : EncSet) (h : s.Ok 1114112) :
    RSet.runeList s.utf8Bytes = .ok (s.list.map Int.ofNat) := by
  obtain ⟨h0, _, h2, h3⟩ := set_at32 h (At_self _)
  rw [RSet.runeList, h0, Res.ok_bind, h2, Res.ok_bind]
  exact listLoop32 _ _ h3 (fun g hg => by have := h.list g hg; omega)

/-- Ranges of code points are always reported with the first code point only. -/
theorem utf8_ranges (s : EncSet) (h : s.Ok 1114112) :
    RSet.runeRanges s.utf8Bytes = .ok (s.ranges.map fun r => (Int.ofNat r.1, Int.ofNat r.1)) := by
  obtain ⟨h0, h1, _, _⟩ := set_at32 h (At_self _)
  rw [RSet.runeRanges, h0, Res.ok_bind]
  by_cases hz : s.ranges.length = 0
  · rw [hz, List.length_eq_zero_iff.1 hz]; rfl
  · exact rangeLoop32 _ _ _ _ h1 (fun r hr => by have := (h.ranges r hr).2; omega) (by omega) (by omega)

/-- They are right exactly when all ranges have a single code point. -/
theorem utf8_ranges_iff (s : EncSet) (h : s.Ok 1114112) :
    RSet.runeRanges s.utf8Bytes = .ok (s.ranges.map fun r => (Int.ofNat r.1, Int.ofNat (r.1 + r.2))) ↔
    ∀ r ∈ s.ranges, r.2 = 0 := by
  rw [utf8_ranges s h, Res.ok.injEq, List.map_inj_left]
  refine forall_congr' fun r => imp_congr_right fun _ => ?_
  simp only [Prod.mk.injEq, true_and, Int.ofNat_eq_natCast]
  omega

/-- The property for ranges with a single code point. -/
theorem utf8_ranges_partial (s : EncSet) (h : s.Ok 1114112) (hs : ∀ r ∈ s.ranges, r.2 = 0) :
    RSet.runeRanges s.utf8Bytes = .ok (s.ranges.map fun r => (Int.ofNat r.1, Int.ofNat (r.1 + r.2))) :=
  (utf8_ranges_iff s h).2 hs

/-- The digits are reported as the digit zero. -/
theorem utf8_ranges_violated :
    RSet.runeRanges (EncSet.utf8Bytes ⟨[(48, 9)], []⟩) = .ok [(48, 48)] := by decide +kernel

/-- Every set of a built font reads back as the ranges and glyphs that were added to it, as the
positions of those glyphs. -/
theorem built_set (env : Env) (b b' : Builder) (f : Font) (h : b.build env = .ok (b', f))
    (hn : b.glyphOrder.Nodup) {i : Nat} (hi : i < b.glyphSetsOrder.length) :
    ∃ gs bytes ranges list, b.glyphSets.get b.glyphSetsOrder[i] = some gs ∧ f.getGlyphSet i = .ok bytes ∧
      RSet.glyphRanges bytes = .ok ranges ∧ RSet.glyphList bytes = .ok list ∧
      ranges.map (fun r => (b.glyphOrder[r.1]?, b.glyphOrder[r.2]?)) =
        gs.ranges.map (fun u => (some u.1, some u.2)) ∧
      list.map (b.glyphOrder[·]?) = gs.list.map some := by
  obtain ⟨s, w, bi, hB⟩ := build_parts h
  have e1 : b'.glyphSetsOrder = b.glyphSetsOrder := by rw [hB.b'_eq]
  have e2 : b'.glyphOrder = b.glyphOrder := by rw [hB.b'_eq]
  have e3 : b'.glyphSets = b.glyphSets := by rw [hB.b'_eq]
  have hl : b'.glyphOrder.length ≤ 65536 := by
    have := hB.count; have := hB.order
    rw [FontModel.maxGlyphs] at *; rw [e2]; omega
  have hn' : b'.glyphOrder.Nodup := by rw [e2]; exact hn
  obtain ⟨gs, bytes, h1, h2, h3⟩ := BuilderModel.built_set hn' hl hB.atGlyphSets hB.glyphSets (i := i)
    (by rw [e1]; exact hi)
  obtain ⟨_, e, rfl, h4, h5, h6⟩ := setBytes_enc hn' hl h2
  simp only [e1, e2, e3] at h1 h5 h6
  refine ⟨gs, _, _, _, h1, h3, glyph_ranges e h4, glyph_list e h4, ?_, h6⟩
  rw [List.map_map]
  exact h5

/-- A set that meets the hypotheses. -/
example : (EncSet.mk [(3, 250), (700, 0)] [9, 40000]).Ok 65536 ∧
    EncSet.glyphBytes ⟨[(3, 250), (700, 0)], [9, 40000]⟩ = [2, 3, 0, 250, 188, 2, 0, 2, 9, 0, 64, 156] := by
  refine ⟨⟨?_, ?_, ?_, ?_⟩, by decide +kernel⟩ <;> simp

/-- A built font with a set. -/
example : ∃ b' f, Sample.ruled.build Sample.env = .ok (b', f) ∧
    f.getGlyphSet 0 = .ok [1, 0, 0, 1, 1, 3, 0] ∧
    RSet.glyphRanges [1, 0, 0, 1, 1, 3, 0] = .ok [(0, 1)] ∧ RSet.glyphList [1, 0, 0, 1, 1, 3, 0] = .ok [3] := by
  refine ⟨(Sample.result Sample.ruled).1, (Sample.result Sample.ruled).2, ?_⟩
  decide +kernel

end C30
