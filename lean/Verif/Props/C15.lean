import Verif.Lemmas.Accepted
import Verif.Spec.SampleFont

/-!
# C15: section offsets of a parsed font are ordered and inside the data

The offsets and section sizes are as documented for every accepted font, with two exceptions: without
settings the (empty) settings definitions section starts where the switches start, and a font cut off
inside its kerning counts (C13) has empty kerning sections. The second part of the property is
violated: `Parse` looks only at the last end offset of each table, so that accessors of accepted fonts
can run out of the data or panic. With the end offsets in order (`InnerOk`) they return what the data
says.
-/

namespace C15
open Go ParseBuf ParseModel FontModel Font Spec

/-- All sections up to kerning follow each other exactly as their own counts say, all inside the
data. -/
theorem layout {f : Font} (h : Accepted f) : Layout f.data f ∧ Limits f.data f :=
  ⟨(accepted_layout h).1, (accepted_layout h).2.1⟩

/-- The kerning tables, where present. -/
theorem kerning_layout_partial {f : Font} (h : Accepted f)
    (hv : f.offVertKern + 3 ≤ f.data.length) :
    ∃ stop, KernLayout f.data f stop := by
  obtain ⟨_, _, h3, stop, h4, h5⟩ := accepted_layout h
  refine ⟨stop, ?_, ?_, h5⟩
  · rcases h3 with ⟨a, b⟩ | ⟨a, b⟩
    · omega
    · exact a
  · rcases h4 with ⟨a, b⟩ | ⟨a, b⟩
    · omega
    · exact a

/-- The offsets are in the documented order and inside the data. -/
theorem ordered_partial {f : Font} (h : Accepted f) :
    33 ≤ f.offMetrics ∧ f.offMetrics + 15 = f.offDyes ∧ f.offDyes < f.offPalettes ∧
    f.offPalettes < f.offGlyphNames ∧ f.offGlyphNames + 2 ≤ f.offGlyphMasks ∧
    f.offGlyphMasks + 3 ≤ f.offWords ∧ f.offWords < f.offSettingNames ∧
    f.offSettingNames < f.offSettingDefs ∧ f.offSettingDefs ≤ f.offSwitches ∧
    f.offSwitches < f.offMapping ∧ f.offMapping + 2 ≤ f.offConditions ∧
    f.offConditions < f.offUtf8Sets ∧ f.offUtf8Sets < f.offGlyphSets ∧
    f.offGlyphSets < f.offUtf8Rules ∧ f.offUtf8Rules + 2 ≤ f.offGlyphRules ∧
    f.offGlyphRules + 2 ≤ f.offHorzKern ∧ f.offHorzKern ≤ f.offVertKern ∧
    f.offVertKern ≤ f.data.length := by
  obtain ⟨h1, h2, h3, stop, h4, h5⟩ := accepted_layout h
  have := h1.order h2.glyphs
  have k : f.offHorzKern ≤ f.offVertKern := by rcases h3 with ⟨_, b⟩ | ⟨b, _⟩ <;> omega
  have k' : f.offVertKern ≤ f.data.length := by
    rcases h4 with ⟨_, b⟩ | ⟨b, _⟩ <;> omega
  refine ⟨?_, ?_, ?_, ?_, ?_, ?_, ?_, ?_, ?_, ?_, ?_, ?_, ?_, ?_, ?_, ?_, ?_, ?_⟩ <;> omega

/-- Two offsets can be equal. -/
theorem ordered_violated : ∃ f, Accepted f ∧ f.offSettingDefs = f.offSwitches :=
  ⟨tinyParsed, ⟨tinyFont, ⟨[⟨tinyFont, .nil⟩], .eof⟩, fun _ => 0, by decide +kernel,
    serves_one _ (by decide +kernel), by decide +kernel⟩, rfl⟩

/-- The font of the examples is accepted and has its end offsets in order. -/
theorem rich_accepted : Accepted richParsed ∧ InnerOk richParsed.data richParsed :=
  ⟨⟨richFont, ⟨[⟨richFont, .nil⟩], .eof⟩, fun _ => 0, by decide +kernel,
    serves_one _ (by decide +kernel), by decide +kernel⟩,
    ⟨by decide +kernel, by decide +kernel, by decide +kernel, by decide +kernel, by decide +kernel,
      by decide +kernel, by decide +kernel, by decide +kernel, by decide +kernel, by decide +kernel,
      by decide +kernel, by decide +kernel, by decide +kernel, by decide +kernel, by decide +kernel⟩⟩

/-- `Advance` of an existing glyph of an accepted font panics (the end offset of glyph 0 was
replaced by the largest one). -/
theorem accessors_violated : ∃ f g, Accepted f ∧ g < nGlyphs f.data f ∧ (f.advance g).isPanic = true :=
  ⟨{ richParsed with data := ((richFont.set 77 255).set 78 255).set 79 255 }, 1,
    ⟨((richFont.set 77 255).set 78 255).set 79 255,
      ⟨[⟨((richFont.set 77 255).set 78 255).set 79 255, .nil⟩], .eof⟩, fun _ => 0, by decide +kernel,
      serves_one _ (by decide +kernel), by decide +kernel⟩,
    by decide +kernel, by decide +kernel⟩

/-- The kerning accessors of an accepted font panic when it was cut off. -/
theorem kerning_violated : ∃ f, Accepted f ∧ (f.kernGet 0 0).isPanic = true :=
  ⟨{ tinyParsed with data := tinyFont.take 70, offVertKern := 69 },
    ⟨tinyFont.take 70, ⟨[⟨tinyFont.take 70, .nil⟩], .eof⟩, fun _ => 0, by decide +kernel,
      serves_one _ (by decide +kernel), by decide +kernel⟩,
    by decide +kernel⟩

section
variable {f : Font} (h : Accepted f)
include h

/-- Metrics. -/
theorem metrics_read :
    f.numGlyphs = .ok (u16At f.data f.offMetrics) ∧
    f.hasVertLayout = .ok (byteAt f.data (f.offMetrics + 2) == 1) ∧
    f.monoWidth = .ok (byteAt f.data (f.offMetrics + 3)) ∧
    f.monospaced = .ok (byteAt f.data (f.offMetrics + 3) != 0) ∧
    f.ascent = .ok (byteAt f.data (f.offMetrics + 4)) ∧
    f.extraAscent = .ok (byteAt f.data (f.offMetrics + 5)) ∧
    f.descent = .ok (byteAt f.data (f.offMetrics + 6)) ∧
    f.extraDescent = .ok (byteAt f.data (f.offMetrics + 7)) ∧
    f.uppercaseAscent = .ok (byteAt f.data (f.offMetrics + 8)) ∧
    f.midlineAscent = .ok (byteAt f.data (f.offMetrics + 9)) ∧
    f.horzInterspacing = .ok (byteAt f.data (f.offMetrics + 10)) ∧
    f.vertInterspacing = .ok (byteAt f.data (f.offMetrics + 11)) ∧
    f.lineGap = .ok (byteAt f.data (f.offMetrics + 12)) ∧
    f.vertLineWidth = .ok (byteAt f.data (f.offMetrics + 13)) ∧
    f.vertLineGap = .ok (byteAt f.data (f.offMetrics + 14)) ∧
    f.lineHeight = .ok (byteAt f.data (f.offMetrics + 4) + byteAt f.data (f.offMetrics + 6) +
      byteAt f.data (f.offMetrics + 12)) ∧
    f.vertLineFullWidth = .ok (byteAt f.data (f.offMetrics + 13) + byteAt f.data (f.offMetrics + 14)) := by
  have := ordered_partial h
  have hb : ∀ i, i < 15 → f.offMetrics + i < f.data.length := by intro i hi; omega
  refine ⟨rd16_eq (by omega), ?_, rd8_eq (hb _ (by omega)), ?_, rd8_eq (hb _ (by omega)),
    rd8_eq (hb _ (by omega)), rd8_eq (hb _ (by omega)), rd8_eq (hb _ (by omega)),
    rd8_eq (hb _ (by omega)), rd8_eq (hb _ (by omega)), rd8_eq (hb _ (by omega)),
    rd8_eq (hb _ (by omega)), rd8_eq (hb _ (by omega)), rd8_eq (hb _ (by omega)),
    rd8_eq (hb _ (by omega)), ?_, ?_⟩
  · unfold hasVertLayout; rw [rd8_eq (hb _ (by omega))]; rfl
  · unfold monospaced monoWidth; rw [rd8_eq (hb _ (by omega))]; rfl
  · unfold lineHeight ascent descent lineGap
    rw [rd8_eq (hb _ (by omega)), Res.ok_bind, rd8_eq (hb _ (by omega)), Res.ok_bind,
      rd8_eq (hb _ (by omega))]; rfl
  · unfold vertLineFullWidth vertLineWidth vertLineGap
    rw [rd8_eq (hb _ (by omega)), Res.ok_bind, rd8_eq (hb _ (by omega))]; rfl

/-- All counts. -/
theorem counts_read :
    f.numDyes = .ok (nDyes f.data f) ∧ f.numPalettes = .ok (nPalettes f.data f) ∧
    f.numDyeIndices = .ok (dyeColors f.data f) ∧ f.numPaletteIndices = .ok (paletteColors f.data f) ∧
    f.namedCount = .ok (nNamed f.data f) ∧ f.numWords = .ok (nWords f.data f) ∧
    f.numSettings = .ok (nSettings f.data f) ∧ f.numSwitchTypes = .ok (nSwitches f.data f) ∧
    f.numEntries = .ok (nEntries f.data f) ∧ f.numConditions = .ok (nConditions f.data f) ∧
    f.numUtf8Rules = .ok (nUtf8Rules f.data f) ∧ f.numGlyphRules = .ok (nGlyphRules f.data f) := by
  have ho := ordered_partial h
  have hL := (layout h).1
  have hd : f.numDyes = .ok (nDyes f.data f) := rd8_eq (by omega)
  have hp : f.numPalettes = .ok (nPalettes f.data f) := rd8_eq (by omega)
  refine ⟨hd, hp, ?_, ?_, rd16_eq (by omega), rd8_eq (by omega), rd8_eq (by omega), rd8_eq (by omega),
    rd16_eq (by omega), rd8_eq (by omega), rd16_eq (by omega), rd16_eq (by omega)⟩
  · unfold numDyeIndices
    rw [hd, Res.ok_bind, rd8_eq]
    · rfl
    · by_cases hz : nDyes f.data f = 0
      · omega
      · have := hL.dyesEnd hz
        simp only [dyeNameEnds] at this
        omega
  · unfold numPaletteIndices
    rw [hp, Res.ok_bind, rd8_eq]
    · rfl
    · by_cases hz : nPalettes f.data f = 0
      · omega
      · have := hL.palettesEnd hz
        simp only [paletteNameEnds] at this
        omega

variable (hI : InnerOk f.data f)
include hI

/-- Placements and masks of every glyph. -/
theorem glyphs_read_partial {g : Nat} (hg : g < nGlyphs f.data f) :
    f.advance g = .ok (byteAt f.data (maskData f.data f + start24 f.data f.offGlyphMasks g)) ∧
    f.placement g = .ok (
      if byteAt f.data (f.offMetrics + 2) = 1 then
        let p := maskData f.data f + start24 f.data f.offGlyphMasks g
        ⟨byteAt f.data p, byteAt f.data (p + 1), byteAt f.data (p + 2), byteAt f.data (p + 3)⟩
      else ⟨byteAt f.data (maskData f.data f + start24 f.data f.offGlyphMasks g), 0, 0, 0⟩) ∧
    f.maskOps g = .ok (sub f.data
      (maskData f.data f + start24 f.data f.offGlyphMasks g + placementSize f.data f)
      (end24 f.data f.offGlyphMasks g - start24 f.data f.offGlyphMasks g - placementSize f.data f)) := by
  have ho := ordered_partial h
  obtain ⟨hn, hv, _⟩ := metrics_read h
  have hm := hI.masks g hg
  have hlast := end24_last (D := f.data) (o := f.offGlyphMasks) (n := nGlyphs f.data f)
    (fun i hi => by have := hI.masks i hi; omega) hg
  have hend := (layout h).1.masksEnd
  have hn' : f.numGlyphs = .ok (nGlyphs f.data f) := hn
  have hps : 1 ≤ placementSize f.data f := by unfold placementSize; split <;> omega
  have hmd : maskData f.data f = f.offGlyphMasks + 3 * nGlyphs f.data f := rfl
  have e1 : f.offGlyphMasks + 2 * nGlyphs f.data f + nGlyphs f.data f = maskData f.data f := by omega
  refine ⟨?_, ?_, ?_⟩
  · unfold advance
    rw [hn', Res.ok_bind, if_neg (by omega), glyphDataStart_eq (by omega), Res.ok_bind]
    simp only [shl1]
    rw [e1, rd8_eq (by omega)]
  · unfold placement
    rw [hn', Res.ok_bind, if_neg (by omega), glyphDataStart_eq (by omega), Res.ok_bind]
    simp only [shl1]
    rw [e1, rd8_eq (by omega), Res.ok_bind, hv, Res.ok_bind]
    by_cases hc : byteAt f.data (f.offMetrics + 2) = 1
    · have hps4 : placementSize f.data f = 4 := by unfold placementSize; rw [if_pos hc]
      rw [if_pos (by simp [hc]), if_pos hc, rd8_eq (by omega), Res.ok_bind, rd8_eq (by omega),
        Res.ok_bind, rd8_eq (by omega), Res.ok_bind]; rfl
    · rw [if_neg (by simp [hc]), if_neg hc]; rfl
  · unfold maskOps
    rw [glyphDataOffsets_eq (by omega) (by omega), Res.ok_bind]
    simp only
    rw [hv, Res.ok_bind, hn', Res.ok_bind]
    simp only [shl1]
    rw [e1]
    have e2 : (if (byteAt f.data (f.offMetrics + 2) == 1) = true then
        start24 f.data f.offGlyphMasks g + 4 else start24 f.data f.offGlyphMasks g + 1) =
        start24 f.data f.offGlyphMasks g + placementSize f.data f := by
      unfold placementSize
      by_cases hc : byteAt f.data (f.offMetrics + 2) = 1 <;> simp [hc]
    rw [e2, slice_sub (by omega) (by omega)]
    congr 2 <;> omega

/-- Glyph names. -/
theorem glyphNames_read_partial {i : Nat} (hi : i < nNamed f.data f) :
    f.nthGlyphName i (nNamed f.data f) = .ok (sub f.data
      (glyphNameData f.data f + start24 f.data (glyphNameEnds f.data f) i)
      (end24 f.data (glyphNameEnds f.data f) i - start24 f.data (glyphNameEnds f.data f) i)) := by
  have ho := ordered_partial h
  have hend := (layout h).1.namesEnd (by omega)
  have hlast := end24_last hI.glyphNames hi
  have hgd : glyphNameData f.data f = glyphNameEnds f.data f + 3 * nNamed f.data f := rfl
  exact nthGlyphName_eq rfl (by omega) (hI.glyphNames i hi) (by omega)

/-- Dyes: number and values of alphas, and names. -/
theorem dyes_read_partial :
    (∀ k < nDyes f.data f, f.numDyeAlphas k =
        .ok (end8 f.data (f.offDyes + 1) k - start8 f.data (f.offDyes + 1) k) ∧
      f.eachDyeAlpha k = .ok ((List.range' (start8 f.data (f.offDyes + 1) k)
        (end8 f.data (f.offDyes + 1) k - start8 f.data (f.offDyes + 1) k)).map fun j =>
          byteAt f.data (f.offDyes + 1 + nDyes f.data f + j))) ∧
    f.eachDye = .ok ((List.range (nDyes f.data f)).map fun j =>
      sub f.data (dyeNameEnds f.data f + 2 * nDyes f.data f + start16 f.data (dyeNameEnds f.data f) j)
        (end16 f.data (dyeNameEnds f.data f) j - start16 f.data (dyeNameEnds f.data f) j)) := by
  have ho := ordered_partial h
  obtain ⟨hd, _, hdi, _⟩ := counts_read h
  have hde : dyeNameEnds f.data f = f.offDyes + 1 + nDyes f.data f + dyeColors f.data f := rfl
  constructor
  · intro k hk
    have hend := (layout h).1.dyesEnd (by omega)
    have hlast := end8_last (fun i hi => Nat.le_of_lt (hI.dyeColors i hi)) hk
    have e8 : end8 f.data (f.offDyes + 1) (nDyes f.data f - 1) = dyeColors f.data f := by
      unfold end8 dyeColors; congr 1; omega
    have hs := hI.dyeColors k hk
    constructor
    · unfold numDyeAlphas
      rw [hd, Res.ok_bind, if_neg (by omega), sectionBounds_eq (by omega) hs]; rfl
    · unfold eachDyeAlpha
      rw [hd, Res.ok_bind, if_neg (by omega), sectionBounds_eq (by omega) hs, Res.ok_bind]
      simp only
      rw [readAlphas_eq _ _ (by omega)]
  · unfold eachDye
    rw [hd, Res.ok_bind, hdi, Res.ok_bind]
    simp only [shl1]
    rw [← hde]
    have hx : ∀ j < nDyes f.data f, dyeNameEnds f.data f + 2 * nDyes f.data f +
        end16 f.data (dyeNameEnds f.data f) j ≤ f.data.length := by
      intro j hj
      have hend := (layout h).1.dyesEnd (by omega)
      have hlast := end16_last (fun i hi => Nat.le_of_lt (hI.dyeNames i hi)) hj
      omega
    have := eachNameLoop_eq (D := f.data) (names := dyeNameEnds f.data f + 2 * nDyes f.data f)
      (dyeNameEnds f.data f) (nDyes f.data f) (nDyes f.data f) 0 (by omega) hI.dyeNames
      (fun j hj => by have := hx j hj; omega) hx
    rw [List.range_eq_range']
    exact this

/-- Palettes: number and values of colors, and names. -/
theorem palettes_read_partial :
    (∀ k < nPalettes f.data f, f.numPaletteColors k =
        .ok (end8 f.data (f.offPalettes + 1) k - start8 f.data (f.offPalettes + 1) k) ∧
      f.eachPaletteColor k = .ok ((List.range' (start8 f.data (f.offPalettes + 1) k)
        (end8 f.data (f.offPalettes + 1) k - start8 f.data (f.offPalettes + 1) k)).map fun j =>
          let p := f.offPalettes + 1 + nPalettes f.data f + 4 * j
          (byteAt f.data p, byteAt f.data (p + 1), byteAt f.data (p + 2), byteAt f.data (p + 3)))) ∧
    f.eachPalette = .ok ((List.range (nPalettes f.data f)).map fun j =>
      sub f.data (paletteNameEnds f.data f + 2 * nPalettes f.data f +
          start16 f.data (paletteNameEnds f.data f) j)
        (end16 f.data (paletteNameEnds f.data f) j - start16 f.data (paletteNameEnds f.data f) j)) := by
  have ho := ordered_partial h
  obtain ⟨_, hd, _, hdi, _⟩ := counts_read h
  have hde : paletteNameEnds f.data f =
    f.offPalettes + 1 + nPalettes f.data f + 4 * paletteColors f.data f := rfl
  constructor
  · intro k hk
    have hend := (layout h).1.palettesEnd (by omega)
    have hlast := end8_last (fun i hi => Nat.le_of_lt (hI.paletteColors i hi)) hk
    have e8 : end8 f.data (f.offPalettes + 1) (nPalettes f.data f - 1) = paletteColors f.data f := by
      unfold end8 paletteColors; congr 1; omega
    have hs := hI.paletteColors k hk
    constructor
    · unfold numPaletteColors
      rw [hd, Res.ok_bind, if_neg (by omega), sectionBounds_eq (by omega) hs]; rfl
    · unfold eachPaletteColor
      rw [hd, Res.ok_bind, if_neg (by omega), sectionBounds_eq (by omega) hs, Res.ok_bind]
      simp only
      rw [readColors_eq _ _ (by omega)]
  · unfold eachPalette
    rw [hd, Res.ok_bind, hdi, Res.ok_bind]
    simp only [shl1, shl2]
    rw [← hde]
    have hx : ∀ j < nPalettes f.data f, paletteNameEnds f.data f + 2 * nPalettes f.data f +
        end16 f.data (paletteNameEnds f.data f) j ≤ f.data.length := by
      intro j hj
      have hend := (layout h).1.palettesEnd (by omega)
      have hlast := end16_last (fun i hi => Nat.le_of_lt (hI.paletteNames i hi)) hj
      omega
    have := eachNameLoop_eq (D := f.data)
      (names := paletteNameEnds f.data f + 2 * nPalettes f.data f)
      (paletteNameEnds f.data f) (nPalettes f.data f) (nPalettes f.data f) 0 (by omega)
      hI.paletteNames (fun j hj => by have := hx j hj; omega) hx
    rw [List.range_eq_range']
    exact this

/-- Words. -/
theorem words_read_partial (predef : Nat → Bytes) {i : Nat} (hi : i < nWords f.data f) :
    f.getWord predef i = .ok (sub f.data
      (f.offWords + 1 + 2 * nWords f.data f + start16 f.data (f.offWords + 1) i)
      (end16 f.data (f.offWords + 1) i - start16 f.data (f.offWords + 1) i)) := by
  have ho := ordered_partial h
  have hend := blocksEnd (layout h).1.settingNames (by unfold nWords at hi; omega)
  have hlast := end16_last (fun i hi => Nat.le_of_lt (hI.words i hi)) hi
  simp only [nWords] at *
  exact getWord_eq predef (by omega) hi (by omega) (hI.words i hi) (by unfold nWords; omega)

/-- Settings: numbers and words of options, and names. -/
theorem settings_read_partial (predef : Nat → Bytes) :
    (∀ k < nSettings f.data f, f.getNumOptions k =
        .ok (end16 f.data f.offSettingDefs k - start16 f.data f.offSettingDefs k) ∧
      ∀ o, start16 f.data f.offSettingDefs k + o < end16 f.data f.offSettingDefs k →
        f.getOptionName predef k o = f.getWord predef
          (byteAt f.data (f.offSettingDefs + 2 * nSettings f.data f +
            start16 f.data f.offSettingDefs k + o))) ∧
    (∀ k o, (k < nSettings f.data f →
        end16 f.data f.offSettingDefs k ≤ start16 f.data f.offSettingDefs k + o) →
      (f.getOptionName predef k o).isPanic = true) ∧
    f.eachSetting = .ok ((List.range (nSettings f.data f)).map fun j =>
      sub f.data (f.offSettingNames + 1 + 2 * nSettings f.data f +
          start16 f.data (f.offSettingNames + 1) j)
        (end16 f.data (f.offSettingNames + 1) j - start16 f.data (f.offSettingNames + 1) j)) := by
  have ho := ordered_partial h
  obtain ⟨_, _, _, _, _, _, hs, _⟩ := counts_read h
  refine ⟨?_, ?_, ?_⟩
  · intro k hk
    have hend := (layout h).1.defsEnd (by omega)
    have hlast := end16_last (fun i hi => Nat.le_of_lt (hI.settings i hi).1) hk
    obtain ⟨i1, i2⟩ := hI.settings k hk
    have hsb := settingBounds_eq (f := f) (k := k) (by omega) i1 i2
    constructor
    · unfold getNumOptions
      rw [hs, Res.ok_bind, if_neg (by omega), hsb]; rfl
    · intro o hoo
      unfold getOptionName
      rw [hs, Res.ok_bind, if_neg (by omega), hsb, Res.ok_bind]
      simp only [shl1]
      rw [if_neg (by omega), rd8_eq (by omega)]; rfl
  · intro k o hko
    unfold getOptionName
    rw [hs, Res.ok_bind]
    by_cases hk : k < nSettings f.data f
    · have hend := (layout h).1.defsEnd (by omega)
      have hlast := end16_last (fun i hi => Nat.le_of_lt (hI.settings i hi).1) hk
      obtain ⟨i1, i2⟩ := hI.settings k hk
      have := hko hk
      rw [if_neg (by omega), settingBounds_eq (f := f) (k := k) (by omega) i1 i2, Res.ok_bind]
      simp only
      rw [if_pos (by omega)]; rfl
    · rw [if_pos (by omega)]; rfl
  · unfold eachSetting
    rw [hs, Res.ok_bind]
    have hx : ∀ j < nSettings f.data f, f.offSettingNames + 1 + nSettings f.data f * 2 +
        end16 f.data (f.offSettingNames + 1) j < f.data.length := by
      intro j hj
      have hend := blocksEnd (layout h).1.settingDefs (by unfold nSettings at hj; omega)
      have hlast := end16_last hI.settingNames hj
      simp only [nSettings] at *
      omega
    have := eachSettingLoop_eq (D := f.data)
      (names := f.offSettingNames + 1 + nSettings f.data f * 2)
      (f.offSettingNames + 1) (nSettings f.data f) (nSettings f.data f) 0 (by omega)
      hI.settingNames (fun j hj => by have := hx j hj; omega) hx
    rw [List.range_eq_range', Nat.mul_comm 2]
    exact this

/-- Rules and sets: exactly the bytes between the end offsets. -/
theorem rewrites_read_partial :
    (∀ i < nUtf8Rules f.data f, f.getUtf8Rule i = .ok (sub f.data
      (f.offUtf8Rules + 2 + 3 * nUtf8Rules f.data f + start24 f.data (f.offUtf8Rules + 2) i)
      (end24 f.data (f.offUtf8Rules + 2) i - start24 f.data (f.offUtf8Rules + 2) i))) ∧
    (∀ i < nGlyphRules f.data f, f.getGlyphRule i = .ok (sub f.data
      (f.offGlyphRules + 2 + 3 * nGlyphRules f.data f + start24 f.data (f.offGlyphRules + 2) i)
      (end24 f.data (f.offGlyphRules + 2) i - start24 f.data (f.offGlyphRules + 2) i))) ∧
    (∀ i < nUtf8Sets f.data f, f.getUtf8Set i = .ok (sub f.data
      (f.offUtf8Sets + 1 + 2 * nUtf8Sets f.data f + start16 f.data (f.offUtf8Sets + 1) i)
      (end16 f.data (f.offUtf8Sets + 1) i - start16 f.data (f.offUtf8Sets + 1) i))) ∧
    (∀ i < nGlyphSets f.data f, f.getGlyphSet i = .ok (sub f.data
      (f.offGlyphSets + 1 + 2 * nGlyphSets f.data f + start16 f.data (f.offGlyphSets + 1) i)
      (end16 f.data (f.offGlyphSets + 1) i - start16 f.data (f.offGlyphSets + 1) i))) := by
  have ho := ordered_partial h
  refine ⟨fun i hi => ?_, fun i hi => ?_, fun i hi => ?_, fun i hi => ?_⟩
  · have hend := rulesEnd (layout h).1.glyphRules (by unfold nUtf8Rules at hi; omega)
    have hlast := end24_last hI.utf8Rules hi
    have hm := hI.utf8Rules i hi
    unfold nUtf8Rules at *
    exact getRule_eq (by omega) hi (by omega) hm (by omega)
  · have hend := rulesEnd (layout h).1.horzKern (by unfold nGlyphRules at hi; omega)
    have hlast := end24_last hI.glyphRules hi
    have hm := hI.glyphRules i hi
    unfold nGlyphRules at *
    exact getRule_eq (by omega) hi (by omega) hm (by omega)
  · have hend := blocksEnd (layout h).1.glyphSets (by unfold nUtf8Sets at hi; omega)
    have hlast := end16_last (fun i hi => Nat.le_of_lt (hI.utf8Sets i hi)) hi
    have hm := hI.utf8Sets i hi
    unfold nUtf8Sets at *
    exact getSet_eq (by omega) hi (by omega) hm (by omega)
  · have hend := blocksEnd (layout h).1.utf8Rules (by unfold nGlyphSets at hi; omega)
    have hlast := end16_last (fun i hi => Nat.le_of_lt (hI.glyphSets i hi)) hi
    have hm := hI.glyphSets i hi
    unfold nGlyphSets at *
    exact getSet_eq (by omega) hi (by omega) hm (by omega)

end

/-- All of the above on the font of the examples. -/
example : richParsed.advance 1 = .ok 6 ∧ richParsed.maskOps 0 = .ok [9] ∧
    richParsed.nthGlyphName 0 1 = .ok [97, 97] ∧ richParsed.eachDye = .ok [[114, 101, 100]] ∧
    richParsed.eachDyeAlpha 0 = .ok [255, 128] ∧ richParsed.eachPaletteColor 0 = .ok [(10, 20, 30, 40)] ∧
    richParsed.getWord (fun _ => []) 0 = .ok [104, 105] ∧ richParsed.getNumOptions 1 = .ok 3 ∧
    richParsed.eachSetting = .ok [[97], [98, 99]] ∧ richParsed.getGlyphSet 0 = .ok [1, 0, 0, 1, 0] ∧
    richParsed.getGlyphRule 0 = .ok [255, 0, 1, 0, 1, 1, 0, 1, 0, 0] := by decide +kernel

end C15
