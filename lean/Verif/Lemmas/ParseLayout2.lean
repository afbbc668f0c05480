import Verif.Lemmas.ParseLayout

/-! # The remaining sections, and the whole layout -/

namespace ParseModel
open Go ParseBuf ParseBuf.Prog FontModel Spec
variable {D : Bytes} {i d i' d' : Nat}

theorem parseGlyphs_flat {f f' : Font} {n : Nat} (hD : D.length ≤ maxFontDataSize)
    (hi : i ≤ D.length) (hdi : d ≤ i) (hm : f.offMetrics + 15 ≤ d)
    (hg : 0 < u16At D f.offMetrics)
    (h : (parseGlyphs f).flat D i d = .ok ((f', n), i', d')) :
    ∃ j, j = i + glyphNamesSize D i ∧ f' = { f with offGlyphNames := i, offGlyphMasks := j } ∧
      n = u16At D f.offMetrics ∧ i' = j + masksSize D n j ∧ d' = i' ∧ i' ≤ D.length ∧
      u16At D i ≤ n ∧ n ≤ u24At D (j + 3 * (n - 1)) := by
  unfold parseGlyphs at h
  simp only [flat_bind_ok, flat_here, flat_readUint16, flat_onFont] at h
  obtain ⟨_, _, _, ⟨rfl, rfl, rfl⟩, _, _, _, ⟨h1, rfl, rfl, rfl⟩, n0, _, _, ⟨hn0, rfl, rfl⟩,
    v, _, _, ⟨hv0, rfl, rfl⟩, h⟩ := h
  rw [u32_eq hD hi] at *
  simp only [Font.numGlyphs] at hn0
  rw [rd16_eq (by simp; omega)] at hn0
  simp only [Res.ok.injEq] at hn0
  rw [u16At_take (by omega)] at hn0
  subst hn0
  have hs : sub16 (u16At D f.offMetrics) 1 * 3 = 3 * (u16At D f.offMetrics - 1) := by
    have := u16At_lt D f.offMetrics
    simp only [sub16]; omega
  rw [hs] at h
  rw [flat_when] at h
  have hrest : ∃ j d1, j = i + glyphNamesSize D i ∧ j ≤ D.length ∧
      u16At D i ≤ u16At D f.offMetrics ∧
      (here >>= fun o => do
        let font := { f with offGlyphNames := i, offGlyphMasks := o }
        advanceBytes (3 * (u16At D f.offMetrics - 1))
        let masksLen ← readUint24
        let placementSize := if v then 4 else 1
        if masksLen < placementSize * u16At D f.offMetrics then
          .fail "GlyphMaskEndOffsets declares GlyphMasks to end before allowed" else
        if masksLen > (placementSize + 255) * u16At D f.offMetrics then
          .fail "GlyphMaskEndOffsets declares GlyphMasks to end beyond allowed" else
        advanceBytes masksLen
        syncData
        onFont font Font.validateGlyphs
        return (font, u16At D f.offMetrics)).flat D j d1 = .ok ((f', n), i', d') := by
    rcases h with ⟨hz, h⟩ | ⟨hz, j, d1, hp, h⟩
    · refine ⟨i + 2, _, ?_, h1, by omega, h⟩
      simp only [glyphNamesSize]; rw [if_pos hz]
    · obtain ⟨_, hle, hj, hl, _⟩ := parseGlyphNames_flat hz hp
      refine ⟨j, d1, ?_, hl, hle, h⟩
      simp only [glyphNamesSize]; rw [if_neg (by omega), hj]; omega
  obtain ⟨j, d1, hj, hjl, hnm, hr⟩ := hrest
  have hps : 1 ≤ (if v = true then 4 else 1) := by split <;> omega
  generalize (if v = true then 4 else 1) = ps at *
  simp only [flat_bind_ok, flat_here, flat_advance, flat_readUint24, flat_ite, flat_fail,
    and_false, false_or, flat_sync, flat_onFont, flat_pure, Prod.mk.injEq] at hr
  obtain ⟨_, _, _, ⟨rfl, rfl, rfl⟩, _, _, _, ⟨h2, rfl, rfl⟩, _, _, _, ⟨h3, rfl, rfl, rfl⟩, h4, h5,
    _, _, _, ⟨h6, rfl, rfl⟩, _, _, _, ⟨rfl, rfl⟩, _, _, _, ⟨hv, rfl, rfl⟩, ⟨rfl, rfl⟩, rfl, rfl⟩ := hr
  rw [u32_eq hD hjl]
  have h7 : u16At D f.offMetrics ≤ ps * u16At D f.offMetrics :=
    Nat.le_mul_of_pos_left _ (by omega)
  refine ⟨j, hj, rfl, rfl, ?_, rfl, by omega, hnm, by omega⟩
  simp only [masksSize]
  omega

theorem blocks16_flat {n : Nat} {k : Nat} (hn : 0 < n) (h : n = byteAt D i)
    (hk : k = i + 1 + 2 * n + u16At D (i + 1 + 2 * (n - 1))) : k = i + blocks16Size D i := by
  subst h
  simp only [blocks16Size]
  rw [if_neg (by omega), hk]
  omega

theorem parseSettings_flat {f f' : Font} {n : Nat} (hD : D.length ≤ maxFontDataSize)
    (hi : i ≤ D.length) (h : (parseSettings f).flat D i d = .ok ((f', n), i', d')) :
    ∃ j k, j = i + blocks16Size D i ∧ n = byteAt D j ∧ k = j + blocks16Size D j ∧
      f' = { f with offWords := i, offSettingNames := j, offSettingDefs := k } ∧
      i' = k + settingDefsSize D n k ∧ d' = i' ∧ i' ≤ D.length := by
  unfold parseSettings at h
  simp only [flat_bind_ok, flat_here, flat_readUint8] at h
  obtain ⟨_, _, _, ⟨rfl, rfl, rfl⟩, _, _, _, ⟨h1, rfl, rfl, rfl⟩, h⟩ := h
  rw [u32_eq hD hi, flat_when] at h
  have hrest : ∃ j d1, j = i + blocks16Size D i ∧ j ≤ D.length ∧
      (here >>= fun o => do
        let font := { f with offWords := i, offSettingNames := o, offSettingDefs := u32 (o + 1) }
        let numSettings ← readUint8
        let defs ← (if numSettings > 0 then parseSettingDefs numSettings
          else .ret font.offSettingDefs)
        let font := { font with offSettingDefs := defs }
        syncData
        return (font, numSettings)).flat D j d1 = .ok ((f', n), i', d') := by
    rcases h with ⟨hz, h⟩ | ⟨hz, j, d1, hp, h⟩
    · refine ⟨i + 1, _, ?_, h1, h⟩
      simp only [blocks16Size]; rw [if_pos hz]
    · obtain ⟨_, hj, hl, _⟩ := parseWords_flat hz hp
      exact ⟨j, d1, blocks16_flat hz rfl hj, hl, h⟩
  obtain ⟨j, d1, hj, hjl, hr⟩ := hrest
  simp only [flat_bind_ok, flat_here, flat_readUint8, flat_ite, flat_ret, flat_sync, flat_pure,
    Prod.mk.injEq] at hr
  obtain ⟨_, _, _, ⟨rfl, rfl, rfl⟩, _, _, _, ⟨h3, rfl, rfl, rfl⟩, defs, k, d2, h, _, _, _,
    ⟨rfl, rfl⟩, ⟨rfl, rfl⟩, rfl, rfl⟩ := hr
  rw [u32_eq hD hjl] at *
  rcases h with ⟨hz, h⟩ | ⟨hz, rfl, rfl, rfl⟩
  · obtain ⟨_, ho, _, k', hk', hi', hl, _⟩ := parseSettingDefs_flat hz h
    have hk2 : k' = j + blocks16Size D j := blocks16_flat hz rfl hk'
    refine ⟨j, k', hj, rfl, hk2, ?_, ?_, rfl, hl⟩
    · rw [ho, ← hk', u32_eq hD (by omega)]
    · simp only [settingDefsSize]
      rw [if_neg (by omega), hi']
      omega
  · refine ⟨j, j + 1, hj, rfl, ?_, ?_, ?_, rfl, h3⟩
    · simp only [blocks16Size]; rw [if_pos (by omega)]
    · rw [u32_eq hD h3]
    · simp only [settingDefsSize]; rw [if_pos (by omega)]

theorem parseMapping_flat {f f' : Font} {m : Nat} (hD : D.length ≤ maxFontDataSize)
    (hi : i ≤ D.length) (h : (parseMapping f m).flat D i d = .ok (f', i', d')) :
    ∃ j, j = i + blocks16Size D i ∧ f' = { f with offSwitches := i, offMapping := j } ∧
      i' = j + mappingSize D j ∧ d' = i' ∧ i' ≤ D.length ∧ byteAt D i ≤ 253 := by
  unfold parseMapping at h
  simp only [flat_bind_ok, flat_here, flat_readUint8] at h
  obtain ⟨_, _, _, ⟨rfl, rfl, rfl⟩, _, _, _, ⟨h1, rfl, rfl, rfl⟩, h⟩ := h
  rw [u32_eq hD hi] at h
  rw [flat_ite] at h
  rcases h with ⟨_, h⟩ | ⟨h253, h⟩
  · exact absurd h flat_fail
  rw [flat_when] at h
  have hrest : ∃ j d1, j = i + blocks16Size D i ∧ j ≤ D.length ∧
      (here >>= fun o => do
        let font := { f with offSwitches := i, offMapping := o }
        let numEntries ← readUint16
        if numEntries > 0 then parseEntries numEntries
        syncData
        return font).flat D j d1 = .ok (f', i', d') := by
    rcases h with ⟨hz, h⟩ | ⟨hz, j, d1, hp, h⟩
    · refine ⟨i + 1, _, ?_, h1, h⟩
      simp only [blocks16Size]; rw [if_pos hz]
    · obtain ⟨_, hj, hl, _⟩ := parseSwitches_flat hz hp
      exact ⟨j, d1, blocks16_flat hz rfl hj, hl, h⟩
  obtain ⟨j, d1, hj, hjl, hr⟩ := hrest
  simp only [flat_bind_ok, flat_here, flat_readUint16] at hr
  obtain ⟨_, _, _, ⟨rfl, rfl, rfl⟩, _, _, _, ⟨h3, rfl, rfl, rfl⟩, h⟩ := hr
  rw [u32_eq hD hjl, flat_when] at h
  simp only [flat_bind_ok, flat_sync, flat_pure, Prod.mk.injEq] at h
  refine ⟨j, hj, ?_⟩
  rcases h with ⟨hz, _, _, _, ⟨rfl, rfl⟩, rfl, rfl, rfl⟩ | ⟨hz, k, d2, hp, _, _, _, ⟨rfl, rfl⟩, rfl, rfl,
    rfl⟩
  · refine ⟨rfl, ?_, rfl, h3, by omega⟩
    simp only [mappingSize]; rw [if_pos hz]
  · obtain ⟨_, hi', hl, _⟩ := parseEntries_flat hz hp
    refine ⟨rfl, ?_, rfl, hl, by omega⟩
    simp only [mappingSize]; rw [if_neg (by omega), hi']; omega

/-- A section of the `count`, `end offsets`, `data` form with an 8-bit count. -/
theorem blocksStep_flat {β : Type} {least : Nat → Nat} {k : Unit → Prog β} {r : β × Nat × Nat}
    (hl : ∀ n, 0 < n → 0 < least n) (hi : i + 1 ≤ D.length)
    (h : (if byteAt D i > 0 then parseBlocks16 (byteAt D i) (least (byteAt D i)) >>= k
      else k ()).flat D (i + 1) d = .ok r) :
    ∃ j d1, j = i + blocks16Size D i ∧ j ≤ D.length ∧ (k ()).flat D j d1 = .ok r := by
  rw [flat_when] at h
  rcases h with ⟨hz, h⟩ | ⟨hz, j, d1, hp, h⟩
  · refine ⟨i + 1, d, ?_, hi, h⟩
    simp only [blocks16Size]; rw [if_pos hz]
  · obtain ⟨_, hj, hl, _⟩ := parseBlocks16_flat hz (hl _ hz) hp
    exact ⟨j, d1, blocks16_flat hz rfl hj, hl, h⟩

theorem rulesStep_flat {β : Type} {most : Nat} {k : Unit → Prog β} {r : β × Nat × Nat}
    (hi : i + 2 ≤ D.length)
    (h : (if u16At D i > 0 then parseRules (u16At D i) most >>= k
      else k ()).flat D (i + 2) d = .ok r) :
    ∃ j d1, j = i + rulesSize D i ∧ j ≤ D.length ∧ (k ()).flat D j d1 = .ok r := by
  rw [flat_when] at h
  rcases h with ⟨hz, h⟩ | ⟨hz, j, d1, hp, h⟩
  · refine ⟨i + 2, d, ?_, hi, h⟩
    simp only [rulesSize]; rw [if_pos hz]
  · obtain ⟨_, hj, hl, _⟩ := parseRules_flat hz hp
    refine ⟨j, d1, ?_, hl, h⟩
    simp only [rulesSize]; rw [if_neg (by omega), hj]; omega

theorem hereStep_flat {β : Type} {k : Nat → Prog β} {r : β × Nat × Nat}
    (hD : D.length ≤ maxFontDataSize) (hi : i ≤ D.length)
    (h : (here >>= k).flat D i d = .ok r) : (k i).flat D i d = .ok r := by
  rw [flat_bind_ok] at h
  obtain ⟨_, _, _, h1, h⟩ := h
  rw [flat_here] at h1
  obtain ⟨rfl, rfl, rfl⟩ := h1
  rwa [u32_eq hD hi] at h

theorem read8Step_flat {β : Type} {k : Nat → Prog β} {r : β × Nat × Nat}
    (h : (readUint8 >>= k).flat D i d = .ok r) :
    i + 1 ≤ D.length ∧ (k (byteAt D i)).flat D (i + 1) d = .ok r := by
  rw [flat_bind_ok] at h
  obtain ⟨_, _, _, h1, h⟩ := h
  rw [flat_readUint8] at h1
  obtain ⟨h1, rfl, rfl, rfl⟩ := h1
  exact ⟨h1, h⟩

theorem read16Step_flat {β : Type} {k : Nat → Prog β} {r : β × Nat × Nat}
    (h : (readUint16 >>= k).flat D i d = .ok r) :
    i + 2 ≤ D.length ∧ (k (u16At D i)).flat D (i + 2) d = .ok r := by
  rw [flat_bind_ok] at h
  obtain ⟨_, _, _, h1, h⟩ := h
  rw [flat_readUint16] at h1
  obtain ⟨h1, rfl, rfl, rfl⟩ := h1
  exact ⟨h1, h⟩

theorem parseRewrites_flat {f f' : Font} (hD : D.length ≤ maxFontDataSize)
    (hi : i ≤ D.length) (h : (parseRewrites f).flat D i d = .ok (f', i', d')) :
    ∃ j1 j2 j3 j4, j1 = i + blocks16Size D i ∧ j2 = j1 + blocks16Size D j1 ∧
      j3 = j2 + blocks16Size D j2 ∧ j4 = j3 + rulesSize D j3 ∧
      f' = { f with offConditions := i, offUtf8Sets := j1, offGlyphSets := j2, offUtf8Rules := j3,
                    offGlyphRules := j4 } ∧
      i' = j4 + rulesSize D j4 ∧ d' = i' ∧ i' ≤ D.length := by
  unfold parseRewrites at h
  have h := hereStep_flat hD hi h
  obtain ⟨l1, h⟩ := read8Step_flat h
  obtain ⟨j1, d1, e1, l1, h⟩ := blocksStep_flat (least := fun n => n * 2) (fun n hn => by omega) l1 h
  have h := hereStep_flat hD l1 h
  obtain ⟨l2, h⟩ := read8Step_flat h
  obtain ⟨j2, d2, e2, l2, h⟩ := blocksStep_flat (least := fun n => 1 + n * 5) (fun n hn => by omega) l2 h
  have h := hereStep_flat hD l2 h
  obtain ⟨l3, h⟩ := read8Step_flat h
  obtain ⟨j3, d3, e3, l3, h⟩ := blocksStep_flat (least := fun n => 1 + n * 3) (fun n hn => by omega) l3 h
  have h := hereStep_flat hD l3 h
  obtain ⟨l4, h⟩ := read16Step_flat h
  obtain ⟨j4, d4, e4, l4, h⟩ := rulesStep_flat l4 h
  have h := hereStep_flat hD l4 h
  obtain ⟨l5, h⟩ := read16Step_flat h
  obtain ⟨j5, d5, e5, l5, h⟩ := rulesStep_flat l5 h
  simp only [flat_bind_ok, flat_sync, flat_pure, Prod.mk.injEq] at h
  obtain ⟨_, _, _, ⟨rfl, rfl⟩, rfl, rfl, rfl⟩ := h
  exact ⟨j1, j2, j3, j4, e1, e2, e3, e4, rfl, e5, rfl, l5⟩

/-- Everything up to the kerning section. -/
theorem parseUpToKerning_flat {f : Font} {n : Nat} (hD : D.length ≤ maxFontDataSize)
    (h : parseUpToKerning.flat D 0 0 = .ok ((f, n), i', d')) :
    Layout D { f with offHorzKern := i' } ∧ Limits D f ∧ n = u16At D f.offMetrics ∧ d' = i' ∧
      i' ≤ D.length := by
  unfold parseUpToKerning at h
  simp only [flat_bind_ok, flat_pure, Prod.mk.injEq] at h
  obtain ⟨f1, i1, d1, h1, f2, i2, d2, h2, f3, i3, d3, h3, ⟨f4, n4⟩, i4, d4, h4, ⟨f5, n5⟩, i5, d5,
    h5, f6, i6, d6, h6, f7, i7, d7, h7, ⟨rfl, hn⟩, hi, hd'⟩ := h
  simp only at hn
  subst hn hi hd'
  obtain ⟨hf1, hi1, hd, l1, v1, v2⟩ := parseHeader_flat h1
  subst d1
  obtain ⟨hf2, hi2, hd, l2, v3, v4, v5, v6⟩ := parseMetrics_flat hD l1 h2
  subst d2
  obtain ⟨j3, hj3, hf3, hi3, hd, l3, v7⟩ := parseColor_flat hD l2 h3
  subst d3
  have a1 : f3.offMetrics = i1 := by rw [hf3, hf2]
  have a2 : i2 + 1 ≤ j3 := by rw [hj3]; simp only [dyesSize]; split <;> omega
  have a3 : j3 + 1 ≤ i3 := by rw [hi3]; simp only [palettesSize]; split <;> omega
  obtain ⟨j4, hj4, hf4, hn4, hi4, hd, l4, v8, v9⟩ :=
    parseGlyphs_flat hD l3 (Nat.le_refl _) (by rw [a1]; omega) (by rw [a1]; exact v3) h4
  subst d4
  obtain ⟨j5, k5, hj5, hn5, hk5, hf5, hi5, hd, l5⟩ := parseSettings_flat hD l4 h5
  subst d5
  obtain ⟨j6, hj6, hf6, hi6, hd, l6, v10⟩ := parseMapping_flat hD l5 h6
  subst d6
  obtain ⟨j7, k7, m7, o7, hj7, hk7, hm7, ho7, hf7, hi7, hd, l7⟩ := parseRewrites_flat hD l6 h7
  subst d'
  rw [a1] at hn4
  subst hf1 hf2 hf3 hf4 hf5 hf6 hf7
  refine ⟨⟨hi1, hi2, ?_, ?_, ?_, ?_, ?_, ?_, ?_, ?_, ?_, ?_, ?_, ?_, ?_, ?_, l7⟩,
    ⟨v1, v2, v3, v4, v5, v6, ?_, v10⟩, hn4, rfl, l7⟩
  all_goals (simp only; first | assumption | skip)
  · rw [hi4, hn4]
  · rw [hi5, hn5]
  · rw [← hn4]; exact v8

end ParseModel
