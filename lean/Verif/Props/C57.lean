import Verif.Props.C15
import Verif.Spec.Answers
import Verif.Lemmas.Outside
import Verif.Lemmas.BuiltInner
import Verif.Props.C53

/-!
# C57: a font answers exactly the queries about what it contains

Queries with an index outside of the font panic, for every font that `Parse` returns. Queries with an index inside of
the font have an answer if the end offsets are in order, which is the case for fonts made with a builder if no dye,
palette or setting is empty. Both directions have an exception: `RasterizeMask` does not look at the number of glyphs
(`masks_violated`), and empty dyes can't be asked for (`empty_violated`).
-/

namespace C57
open Go BuilderModel ParseBuf ParseModel FontModel Spec
open FontModel.Font

section
variable {f : Font} (h : Accepted f)
include h

/-- For every font that `Parse` returns, queries about glyphs, colors, settings, switches, rules and sets that it does
not have panic, except that such settings have no options and that other words are predefined. -/
theorem outside (i : Nat) :
    (nGlyphs f.data f ≤ i → (f.advance i).isPanic = true ∧ (f.placement i).isPanic = true) ∧
    (nDyes f.data f ≤ i → (f.numDyeAlphas i).isPanic = true ∧ (f.eachDyeAlpha i).isPanic = true) ∧
    (nPalettes f.data f ≤ i → (f.numPaletteColors i).isPanic = true ∧ (f.eachPaletteColor i).isPanic = true) ∧
    (nSettings f.data f ≤ i → f.getNumOptions i = .ok 0 ∧
      ∀ predef o, (f.getOptionName predef i o).isPanic = true) ∧
    (nSwitches f.data f ≤ i → ∀ settings, (f.evaluateSwitch i settings).isPanic = true) ∧
    (nUtf8Rules f.data f ≤ i → (f.getUtf8Rule i).isPanic = true) ∧
    (nGlyphRules f.data f ≤ i → (f.getGlyphRule i).isPanic = true) ∧
    (nUtf8Sets f.data f ≤ i → (f.getUtf8Set i).isPanic = true) ∧
    (nGlyphSets f.data f ≤ i → (f.getGlyphSet i).isPanic = true) ∧
    (nWords f.data f ≤ i → ∀ predef, f.getWord predef i = .ok (predef i)) := by
  have ho := C15.ordered_partial h
  obtain ⟨hg, _⟩ := C15.metrics_read h
  obtain ⟨hd, hp, _, _, _, hw, hs, hm, _, _, hu, hr⟩ := C15.counts_read h
  have hg : f.numGlyphs = .ok (nGlyphs f.data f) := hg
  refine ⟨fun hi => ⟨?_, ?_⟩, fun hi => ⟨?_, ?_⟩, fun hi => ⟨?_, ?_⟩, fun hi => ⟨?_, fun predef o => ?_⟩,
    fun hi settings => ?_, fun hi => ?_, fun hi => ?_, fun hi => ?_, fun hi => ?_, fun hi predef => ?_⟩
  · rw [advance, hg, Res.ok_bind, if_pos hi]; rfl
  · rw [placement, hg, Res.ok_bind, if_pos hi]; rfl
  · rw [numDyeAlphas, hd, Res.ok_bind, if_pos hi]; rfl
  · rw [eachDyeAlpha, hd, Res.ok_bind, if_pos hi]; rfl
  · rw [numPaletteColors, hp, Res.ok_bind, if_pos hi]; rfl
  · rw [eachPaletteColor, hp, Res.ok_bind, if_pos hi]; rfl
  · rw [getNumOptions, hs, Res.ok_bind, if_pos hi]; rfl
  · rw [getOptionName, hs, Res.ok_bind, if_pos hi]; rfl
  · rw [evaluateSwitch, hm, Res.ok_bind, if_pos hi]; rfl
  · rw [getUtf8Rule, getRule, rd16_eq (by omega), Res.ok_bind, if_pos (show i ≥ u16At _ _ from hi)]; rfl
  · rw [getGlyphRule, getRule, rd16_eq (by omega), Res.ok_bind, if_pos (show i ≥ u16At _ _ from hi)]; rfl
  · rw [getUtf8Set, getSet, rd8_eq (by omega), Res.ok_bind, if_pos (show i ≥ byteAt _ _ from hi)]; rfl
  · rw [getGlyphSet, getSet, rd8_eq (by omega), Res.ok_bind, if_pos (show i ≥ byteAt _ _ from hi)]; rfl
  · rw [getWord, hw, Res.ok_bind, if_neg (by omega)]; rfl

variable (hI : InnerOk f.data f)
include hI

/-- With the end offsets in order, queries about glyphs, colors, settings, rules and sets have an answer exactly when
the font has them. Missing: masks, see `masks_violated`. -/
theorem exact_partial (predef : Nat → Bytes) (i : Nat) :
    Answers (f.advance i) (i < nGlyphs f.data f) ∧ Answers (f.placement i) (i < nGlyphs f.data f) ∧
    (i < nGlyphs f.data f → ∃ ops, f.maskOps i = .ok ops) ∧
    Answers (f.numDyeAlphas i) (i < nDyes f.data f) ∧ Answers (f.eachDyeAlpha i) (i < nDyes f.data f) ∧
    Answers (f.numPaletteColors i) (i < nPalettes f.data f) ∧
    Answers (f.eachPaletteColor i) (i < nPalettes f.data f) ∧
    (∃ n, f.getNumOptions i = .ok n ∧ (n = 0 ↔ nSettings f.data f ≤ i) ∧
      ∀ o, Answers (f.getOptionName predef i o) (o < n)) ∧
    Answers (f.getUtf8Rule i) (i < nUtf8Rules f.data f) ∧ Answers (f.getGlyphRule i) (i < nGlyphRules f.data f) ∧
    Answers (f.getUtf8Set i) (i < nUtf8Sets f.data f) ∧ Answers (f.getGlyphSet i) (i < nGlyphSets f.data f) ∧
    (∃ w, f.getWord predef i = .ok w) := by
  obtain ⟨o1, o2, o3, o4, _, o6, o7, o8, o9, o10⟩ := outside h i
  obtain ⟨r1, r2, r3, r4⟩ := C15.rewrites_read_partial h hI
  have hd := (C15.dyes_read_partial h hI).1 i
  have hp := (C15.palettes_read_partial h hI).1 i
  have hg := fun hi => C15.glyphs_read_partial h hI (g := i) hi
  have word : ∀ j, ∃ w, f.getWord predef j = .ok w := fun j => by
    rcases Nat.lt_or_ge j (nWords f.data f) with hj | hj
    · exact ⟨_, C15.words_read_partial h hI predef hj⟩
    · exact ⟨_, (outside h j).2.2.2.2.2.2.2.2.2 hj predef⟩
  refine ⟨⟨fun hi => ⟨_, (hg hi).1⟩, fun hi => (o1 (by omega)).1⟩, ⟨fun hi => ⟨_, (hg hi).2.1⟩, fun hi => (o1 (by omega)).2⟩,
    fun hi => ⟨_, (hg hi).2.2⟩,
    ⟨fun hi => ⟨_, (hd hi).1⟩, fun hi => (o2 (by omega)).1⟩, ⟨fun hi => ⟨_, (hd hi).2⟩, fun hi => (o2 (by omega)).2⟩,
    ⟨fun hi => ⟨_, (hp hi).1⟩, fun hi => (o3 (by omega)).1⟩, ⟨fun hi => ⟨_, (hp hi).2⟩, fun hi => (o3 (by omega)).2⟩,
    ?_, ⟨fun hi => ⟨_, r1 i hi⟩, fun hi => o6 (by omega)⟩, ⟨fun hi => ⟨_, r2 i hi⟩, fun hi => o7 (by omega)⟩,
    ⟨fun hi => ⟨_, r3 i hi⟩, fun hi => o8 (by omega)⟩, ⟨fun hi => ⟨_, r4 i hi⟩, fun hi => o9 (by omega)⟩, word i⟩
  obtain ⟨s1, s2, _⟩ := C15.settings_read_partial h hI predef
  rcases Nat.lt_or_ge i (nSettings f.data f) with hi | hi
  · have := (hI.settings i hi).1
    refine ⟨_, (s1 i hi).1, ⟨fun h => by omega, fun h => by omega⟩, fun o => ⟨fun ho => ?_, fun ho => ?_⟩⟩
    · obtain ⟨w, hw⟩ := word (byteAt f.data (f.offSettingDefs + 2 * nSettings f.data f +
        start16 f.data f.offSettingDefs i + o))
      exact ⟨w, by rw [(s1 i hi).2 o (by omega), hw]⟩
    · exact s2 i o fun _ => by omega
  · exact ⟨0, (o4 hi).1, ⟨fun _ => hi, fun _ => rfl⟩, fun o => ⟨fun ho => by omega, fun _ => (o4 hi).2 predef o⟩⟩

/-- A switch has a value exactly when the font has it and there is a value for each of its settings; then the value is
the number with the values of its settings as digits, modulo 256. -/
theorem switches_exact (i : Nat) (settings : List Nat) :
    Answers (f.evaluateSwitch i settings)
      (i < nSwitches f.data f ∧ ∀ k ∈ switchSettings f.data f i, k < settings.length) ∧
    ((i < nSwitches f.data f ∧ ∀ k ∈ switchSettings f.data f i, k < settings.length) →
      f.evaluateSwitch i settings = .ok (mixedRadix ((switchSettings f.data f i).map fun k =>
        (nOptions f.data f k, settings.getD k 0)) % 256)) := by
  have ho := C15.ordered_partial h
  have hopt : ∀ k, f.getNumOptions k = .ok (nOptions f.data f k) := by
    intro k
    unfold nOptions
    split
    · next hk => exact ((C15.settings_read_partial h hI (fun _ => [])).1 k hk).1
    · next hk => exact ((outside h k).2.2.2.1 (by omega)).1
  have rest : ∀ hi : i < nSwitches f.data f,
      ((∀ k ∈ switchSettings f.data f i, k < settings.length) →
        f.evaluateSwitch i settings = .ok (mixedRadix ((switchSettings f.data f i).map fun k =>
          (nOptions f.data f k, settings.getD k 0)) % 256)) ∧
      ((∃ k ∈ switchSettings f.data f i, settings.length ≤ k) → (f.evaluateSwitch i settings).isPanic = true) := by
    intro hi
    have hend := blocksEnd (C15.layout h).1.mapping (by unfold nSwitches at hi; omega)
    have hlast := end16_last (fun i hi => Nat.le_of_lt (hI.switches i hi)) hi
    have hsw := hI.switches i hi
    have hl : (switchSettings f.data f i).length =
        end16 f.data (f.offSwitches + 1) i - start16 f.data (f.offSwitches + 1) i := by
      simp only [switchSettings, sub, List.length_map, List.length_take, List.length_drop]
      unfold nSwitches at *
      omega
    have hks : ∀ j (hj : j < (switchSettings f.data f i).length), rd8 f.data (f.offSwitches + 1 +
        2 * nSwitches f.data f + start16 f.data (f.offSwitches + 1) i + j) = .ok (switchSettings f.data f i)[j] := by
      intro j hj
      rw [rd8_eq (by unfold nSwitches at *; omega), byteAt_eq (by unfold nSwitches at *; omega)]
      simp [switchSettings, sub]
    refine ⟨fun hk => evaluateSwitch_eq hi (by intro e; rw [e] at hl; simp at hl; omega)
      (by unfold nSwitches at *; omega) (by omega) hks hk fun k _ => hopt k, fun ⟨k, hk, hx⟩ => ?_⟩
    obtain ⟨j, hj, rfl⟩ := List.getElem_of_mem hk
    have := switchLoop_panic (f := f) (settings := settings) hks (fun k _ => hopt k)
      ((switchSettings f.data f i).length - 1) 1 0 (by omega) ⟨j, hj, by omega, hx⟩
    have hn : f.numSwitchTypes = .ok (nSwitches f.data f) := (C15.counts_read h).2.2.2.2.2.2.2.1
    rw [evaluateSwitch, hn, Res.ok_bind, if_neg (by omega)]
    simp only [shl1]
    rw [rd16_eq (by unfold nSwitches at *; omega), Res.ok_bind]
    have es : (if i > 0 then rd16 f.data (f.offSwitches + 1 + 2 * i - 2) else Res.ok 0) =
        .ok (start16 f.data (f.offSwitches + 1) i) := by
      split
      · rename_i h0
        rw [rd16_eq (by unfold nSwitches at *; omega), start16_succ _ _ _ h0, end16]
        congr 2; omega
      · obtain rfl : i = 0 := by omega
        rfl
    rw [es, Res.ok_bind]
    have ee : u16At f.data (f.offSwitches + 1 + 2 * i) = end16 f.data (f.offSwitches + 1) i := rfl
    rw [ee, if_neg (by omega)]
    rw [hl] at this
    rw [show end16 f.data (f.offSwitches + 1) i - 1 - start16 f.data (f.offSwitches + 1) i =
      end16 f.data (f.offSwitches + 1) i - start16 f.data (f.offSwitches + 1) i - 1 by omega,
      show end16 f.data (f.offSwitches + 1) i - 1 = start16 f.data (f.offSwitches + 1) i +
      (end16 f.data (f.offSwitches + 1) i - start16 f.data (f.offSwitches + 1) i - 1) by omega]
    exact this
  refine ⟨⟨fun ⟨h1, h2⟩ => ⟨_, (rest h1).1 h2⟩, fun hn => ?_⟩, fun ⟨h1, h2⟩ => (rest h1).1 h2⟩
  rcases Nat.lt_or_ge i (nSwitches f.data f) with hi | hi
  · refine (rest hi).2 ?_
    refine Classical.byContradiction fun hc => hn ⟨hi, fun k hk => ?_⟩
    rcases Nat.lt_or_ge k settings.length with hl | hl
    · exact hl
    · exact absurd ⟨k, hk, hl⟩ hc
  · exact (outside h i).2.2.2.2.1 hi settings

end

/-- A group of glyphs has a glyph for each choice below its size, and panics for all others. -/
theorem choices {f : Font} {g : Group} {n choice : Nat} (h : f.groupSize g = .ok n) (hc : n ≤ choice) :
    (f.groupSelect g choice).isPanic = true := by
  unfold groupSize at h
  unfold groupSelect
  split
  · next hd =>
    rw [if_pos hd] at h
    have := Res.ok.inj h
    rw [if_pos (by omega)]; rfl
  · next hd =>
    rw [if_neg hd] at h
    obtain ⟨x, h1, h2⟩ := Res.bind_eq_ok.1 h
    have := Res.ok.inj h2
    rw [h1, Res.ok_bind, if_pos (by omega)]; rfl

section
variable {env : Env} {b : Builder} {g : Font} (h : ReadBack env b g)
include h

/-- What was put into the builder is what is counted, and the end offsets are in order exactly when no dye, palette or
setting is empty. -/
theorem built : Accepted g ∧
    nGlyphs g.data g = b.glyphOrder.length ∧ nDyes g.data g = (fontDyes b).length ∧
    nPalettes g.data g = b.palettes.length ∧ nSettings g.data g = b.settings.length ∧
    nSwitches g.data g = b.switches.length ∧ nGlyphSets g.data g = b.glyphSetsOrder.length ∧
    nUtf8Rules g.data g = b.utf8Rules.length ∧ nGlyphRules g.data g = b.glyphRules.length ∧
    (InnerOk g.data g ↔ (∀ d ∈ b.dyes, d.name ≠ [] ∧ d.alphas ≠ []) ∧
      (∀ p ∈ b.palettes, p.name ≠ [] ∧ p.colors ≠ []) ∧ ∀ s ∈ b.settings, s.options ≠ []) := by
  obtain ⟨b', f, first, gz, junk, hb, hs, he, hp⟩ := h.read
  obtain ⟨b'', hb', -, -⟩ := C53.same h
  rw [hb'] at hb
  obtain ⟨rfl, rfl⟩ := Prod.mk.inj (Res.ok.inj hb)
  obtain ⟨s, w, bi, hB⟩ := build_parts hb'
  have hk := h.made.inv.toKept
  have hm := Builder.main_eq hB.main
  have hd : b''.dyes = fontDyes b := by rw [hm]; rfl
  have hpal : b''.palettes = b.palettes := by rw [hm]
  have hu : b''.utf8Rules = b.utf8Rules := by rw [hm]
  have hg : b''.glyphRules = b.glyphRules := by rw [hm]
  have hi := hB.inner_iff hk h.fair h.words hs
  rw [hd, hpal] at hi
  have hdd : (∀ d ∈ fontDyes b, d.name ≠ [] ∧ d.alphas ≠ []) ↔ ∀ d ∈ b.dyes, d.name ≠ [] ∧ d.alphas ≠ [] := by
    unfold fontDyes
    split
    · next he => rw [he.1]; simp [ascii]
    · exact Iff.rfl
  rw [hdd] at hi
  obtain ⟨r, hv, hpr⟩ := he.parse junk
  rw [hpr] at hp
  obtain ⟨_, sw, _⟩ := hB.switches_facts hk.settings hk.switches
  exact ⟨⟨_, r, junk, hB.data_len, hv, hp⟩, hB.metrics_facts.2.1, hd ▸ (hB.dyes_inner hs.dyeNames).1,
    hpal ▸ (hB.palettes_inner hs.paletteNames).1, (hB.settings_inner hk.settings).1, sw,
    (hB.glyphSets_facts hk.kern.order).1,
    hu ▸ (Built.rules_facts hB.atUtf8Rules hB.utf8Rules (fun _ _ => Built.ruleBytes_min) rfl).1,
    hg ▸ (Built.rules_facts hB.atGlyphRules hB.glyphRules (fun _ _ => Built.ruleBytes_min) rfl).1, hi⟩

/-- A font made with a builder answers exactly the queries about what was put into the builder. Missing: empty dyes,
palettes and settings (`empty_violated`), and masks (`masks_violated`). -/
theorem built_exact_partial (h1 : ∀ d ∈ b.dyes, d.name ≠ [] ∧ d.alphas ≠ [])
    (h2 : ∀ p ∈ b.palettes, p.name ≠ [] ∧ p.colors ≠ []) (h3 : ∀ s ∈ b.settings, s.options ≠ [])
    (predef : Nat → Bytes) (settings : List Nat) (i : Nat) :
    Answers (g.advance i) (i < b.glyphOrder.length) ∧ Answers (g.placement i) (i < b.glyphOrder.length) ∧
    Answers (g.numDyeAlphas i) (i < (fontDyes b).length) ∧ Answers (g.eachDyeAlpha i) (i < (fontDyes b).length) ∧
    Answers (g.numPaletteColors i) (i < b.palettes.length) ∧ Answers (g.eachPaletteColor i) (i < b.palettes.length) ∧
    g.getNumOptions i = .ok ((b.settings[i]?.map fun s => s.options.length).getD 0) ∧
    (∀ o, Answers (g.getOptionName predef i o) (o < (b.settings[i]?.map fun s => s.options.length).getD 0)) ∧
    (b.settings.length ≤ settings.length → Answers (g.evaluateSwitch i settings) (i < b.switches.length)) ∧
    Answers (g.getUtf8Rule i) (i < b.utf8Rules.length) ∧ Answers (g.getGlyphRule i) (i < b.glyphRules.length) ∧
    Answers (g.getGlyphSet i) (i < b.glyphSetsOrder.length) := by
  obtain ⟨ha, c1, c2, c3, c4, c5, c6, c7, c8, hI⟩ := built h
  have hI := hI.2 ⟨h1, h2, h3⟩
  obtain ⟨e1, e2, _, e4, e5, e6, e7, ⟨n, e8, e9, e10⟩, e11, e12, _, e14, _⟩ := exact_partial ha hI predef i
  rw [c1] at e1 e2
  rw [c2] at e4 e5
  rw [c3] at e6 e7
  rw [c7] at e11
  rw [c8] at e12
  rw [c6] at e14
  have hn : n = (b.settings[i]?.map fun s => s.options.length).getD 0 := by
    rcases Nat.lt_or_ge i b.settings.length with hi | hi
    · have := (C53.settings_partial h).2.2.1 i hi (h3 _ (List.getElem_mem hi))
      rw [e8] at this
      rw [List.getElem?_eq_getElem hi]
      exact Res.ok.inj this
    · rw [List.getElem?_eq_none hi]
      exact e9.2 (by omega)
  rw [← hn]
  refine ⟨e1, e2, e4, e5, e6, e7, e8, e10, fun hset => ⟨fun hi => ?_, fun hi => ?_⟩, e11, e12, e14⟩
  · refine ⟨_, C53.switches_partial h i hi (fun j hj => ?_) settings hset⟩
    have hj := (h.made.calls.switchSettings _ (List.getElem_mem hi)).2 j hj
    have := List.length_pos_iff.2 (h3 _ (List.getElem_mem hj))
    rw [options, List.getElem?_eq_getElem hj]
    exact Nat.pos_iff_ne_zero.1 this
  · exact (outside ha i).2.2.2.2.1 (by omega) settings

end

/-- `RasterizeMask` returns a mask for glyph 4 of a font with three glyphs, none of which has pixels: it takes the
placements for end offsets and for raster operations. -/
theorem masks_violated : ∃ env b g i m, ReadBack env b g ∧ b.glyphOrder.length = 3 ∧ i = 4 ∧
    (∀ d ∈ b.glyphData, d.2.mask.pix = []) ∧ g.maskOps i >>= Mask.rasterize = .ok (some m) ∧ m.pix = [255] :=
  ⟨_, _, _, 4, Sample.dot, lookalike_readBack, by decide +kernel, rfl, by decide +kernel, by decide +kernel,
    by decide +kernel⟩

/-- The second dye of this builder has no alphas, but it can't be asked for its number of alphas. -/
theorem empty_violated : ∃ env b g i, ReadBack env b g ∧ i < b.dyes.length ∧ (g.numDyeAlphas i).isPanic = true ∧
    (g.eachDyeAlpha i).isPanic = true :=
  ⟨_, _, _, 1, hollowDye_readBack, by decide +kernel, by decide +kernel, by decide +kernel⟩

/-- All of the above on the fonts of the examples. -/
example : Answers (richParsed.advance 2) (2 < nGlyphs richParsed.data richParsed) :=
  (exact_partial C15.rich_accepted.1 C15.rich_accepted.2 (fun _ => []) 2).1

example : nGlyphs richParsed.data richParsed = 2 ∧ (richParsed.advance 1) = .ok 6 ∧
    (richParsed.advance 2).isPanic = true ∧ nSwitches richParsed.data richParsed = 1 ∧
    switchSettings richParsed.data richParsed 0 = [0, 1] ∧ (richParsed.evaluateSwitch 0 [1]).isPanic = true := by
  decide +kernel

end C57
