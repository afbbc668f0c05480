import Verif.Lemmas.ParseChecks

/-! # `Parse` accepts exactly what passes the checks: sections -/

namespace ParseModel
open Go ParseBuf ParseBuf.Prog FontModel Spec Helpers
variable {D : Bytes} {i d i' d' : Nat}

theorem readShortStr_of (h : i + 1 + byteAt D i ≤ D.length) :
    ∃ s, readShortStr.flat D i d = .ok (s, i + 1 + byteAt D i, d) := by
  unfold readShortStr
  rw [read8 (by omega)]
  split
  · rename_i hz; exact ⟨[], by rw [pureEnd, hz]⟩
  · exact ⟨_, flat_read.2 ⟨h, rfl, rfl, rfl⟩⟩

theorem readString_of (h : i + 2 + u16At D i ≤ D.length) :
    ∃ s, readString.flat D i d = .ok (s, i + 2 + u16At D i, d) := by
  unfold readString
  rw [read16 (by omega)]
  split
  · rename_i hz; exact ⟨[], by rw [pureEnd, hz]⟩
  · exact ⟨_, flat_read.2 ⟨h, rfl, rfl, rfl⟩⟩

theorem rd64_eq {D : Bytes} {o : Nat} (h : o + 8 ≤ D.length) : rd64 D o = .ok (u64At D o) := by
  rw [rd64_ok h]
  have e : u64At D o = u64At ((D.drop o).take 8) 0 := by
    simp only [u64At]
    rw [u32At_take (by omega), u32At_take (by omega), u32At_drop, u32At_drop]; rfl
  rw [e]
  have hl : ((D.drop o).take 8).length = 8 := by simp; omega
  generalize (D.drop o).take 8 = b at hl
  match b, hl with
  | [b0, b1, b2, b3, b4, b5, b6, b7], _ =>
    simp [leValue, u64At, u32At, u24At, u16At, byteAt]
    omega

theorem validateHeader_iff {f : Font} (h1 : 29 < f.data.length)
    (h2 : 29 + byteAt f.data 28 ≤ f.data.length) :
    Font.validateHeader f = .ok () ↔ HeaderChecks f.data := by
  simp only [Font.validateHeader, Font.formatVersion, Font.id, Font.name]
  rw [rd32_eq (by omega), rd64_eq (by omega), rd8_eq (by omega)]
  simp only [Res.ok_bind]
  rw [unsafeString_eq h1 h2]
  simp only [Res.ok_bind, Res.pure_eq]
  have hn : (f.data.drop 29).take (byteAt f.data 28) = [] ↔ byteAt f.data 28 = 0 := by
    constructor
    · intro h
      have := congrArg List.length h
      simp at this; omega
    · intro h; rw [h]; simp
  split_ifs with a b c
  · simp only [reduceCtorEq, false_iff]
    intro h; exact a (by simpa [FontModel.formatVersion] using h.format)
  · simp only [reduceCtorEq, false_iff]
    intro h; exact absurd h.entropy (Rat.not_le.2 b)
  · simp only [reduceCtorEq, false_iff]
    intro h; have := h.name; have := hn.1 c; omega
  · simp only [true_iff]
    refine ⟨by simpa [FontModel.formatVersion] using a, Rat.not_lt.1 b, ?_⟩
    rcases Nat.eq_zero_or_pos (byteAt f.data 28) with h0 | h0
    · exact absurd (hn.2 h0) c
    · exact h0

theorem headerChecks_take {n : Nat} (h : 29 ≤ n) : HeaderChecks (D.take n) ↔ HeaderChecks D := by
  have e1 : u32At (D.take n) 0 = u32At D 0 := u32At_take (by omega)
  have e2 : u64At (D.take n) 4 = u64At D 4 := by
    simp only [u64At]; rw [u32At_take (by omega), u32At_take (by omega)]
  have e3 : byteAt (D.take n) 28 = byteAt D 28 := byteAt_take (by omega)
  constructor
  · rintro ⟨a, b, c⟩; exact ⟨by rw [← e1]; exact a, by rw [← e2]; exact b, by rw [← e3]; exact c⟩
  · rintro ⟨a, b, c⟩; exact ⟨by rw [e1]; exact a, by rw [e2]; exact b, by rw [e3]; exact c⟩

theorem parseHeader_iff {f f' : Font} : (parseHeader f).flat D 0 0 = .ok (f', i', d') ↔
    f' = f ∧ i' = headerSize D ∧ d' = i' ∧ i' ≤ D.length ∧ HeaderChecks D := by
  have hsz : headerSize D = 33 + byteAt D 28 + byteAt D (29 + byteAt D 28) +
      byteAt D (30 + byteAt D 28 + byteAt D (29 + byteAt D 28)) +
      u16At D (31 + byteAt D 28 + byteAt D (29 + byteAt D 28) +
        byteAt D (30 + byteAt D 28 + byteAt D (29 + byteAt D 28))) := rfl
  have hv : ∀ {n : Nat}, n ≤ D.length → 30 ≤ n → 29 + byteAt D 28 ≤ n →
      (Font.validateHeader { f with data := D.take n } = .ok () ↔ HeaderChecks D) := by
    intro n h1 h2 h3
    rw [validateHeader_iff (by simp; omega)
      (by simp only [List.length_take]; rw [byteAt_take (by omega)]; omega)]
    exact headerChecks_take (by omega)
  constructor
  · intro h
    obtain ⟨a, b, c, e, _⟩ := parseHeader_flat h
    refine ⟨a, b, c, e, ?_⟩
    unfold parseHeader at h
    simp only [flat_bind_ok, flat_advance, flat_pure, flat_sync, flat_onFont, Prod.mk.injEq] at h
    obtain ⟨_, _, _, ⟨h1, rfl, rfl⟩, _, _, _, h2, _, _, _, h3, _, _, _, h4, _, _, _, h5,
      _, _, _, ⟨rfl, rfl⟩, _, _, _, ⟨hv', rfl, rfl⟩, rfl, rfl, rfl⟩ := h
    exact (hv e (by omega) (by omega)).1 hv'
  · rintro ⟨rfl, rfl, rfl, hl, hc⟩
    unfold parseHeader
    rw [adv (by omega), Nat.zero_add]
    rw [hsz] at hl
    obtain ⟨s1, h1⟩ := readShortStr_of (D := D) (i := 28) (d := 0) (by omega)
    have e1 : 28 + 1 + byteAt D 28 = 29 + byteAt D 28 := by omega
    rw [e1] at h1
    rw [bind_flat h1]
    obtain ⟨s2, h2⟩ := readShortStr_of (D := D) (i := 29 + byteAt D 28) (d := 0) (by omega)
    have e2 : 29 + byteAt D 28 + 1 + byteAt D (29 + byteAt D 28) =
      30 + byteAt D 28 + byteAt D (29 + byteAt D 28) := by omega
    rw [e2] at h2
    rw [bind_flat h2]
    obtain ⟨s3, h3⟩ := readShortStr_of (D := D)
      (i := 30 + byteAt D 28 + byteAt D (29 + byteAt D 28)) (d := 0) (by omega)
    have e3 : 30 + byteAt D 28 + byteAt D (29 + byteAt D 28) + 1 +
        byteAt D (30 + byteAt D 28 + byteAt D (29 + byteAt D 28)) =
      31 + byteAt D 28 + byteAt D (29 + byteAt D 28) +
        byteAt D (30 + byteAt D 28 + byteAt D (29 + byteAt D 28)) := by omega
    rw [e3] at h3
    rw [bind_flat h3]
    obtain ⟨s4, h4⟩ := readString_of (D := D)
      (i := 31 + byteAt D 28 + byteAt D (29 + byteAt D 28) +
        byteAt D (30 + byteAt D 28 + byteAt D (29 + byteAt D 28))) (d := 0) (by omega)
    have e4 : 31 + byteAt D 28 + byteAt D (29 + byteAt D 28) +
        byteAt D (30 + byteAt D 28 + byteAt D (29 + byteAt D 28)) + 2 +
        u16At D (31 + byteAt D 28 + byteAt D (29 + byteAt D 28) +
        byteAt D (30 + byteAt D 28 + byteAt D (29 + byteAt D 28))) = headerSize D := by omega
    rw [e4] at h4
    rw [bind_flat h4, sync', onFont' ((hv (by omega) (by omega) (by omega)).2 hc), pureEnd]

theorem validateMetrics_iff {f : Font} (h : f.offMetrics + 15 ≤ f.data.length) :
    Font.validateMetrics f = .ok () ↔ MetricsChecks f.data f.offMetrics := by
  constructor
  · intro hv
    obtain ⟨a, b, c, e⟩ := validateMetrics_ok h hv
    refine ⟨a, b, c, e, ?_⟩
    simp only [Font.validateMetrics, Font.numGlyphs, Font.ascent, Font.extraAscent,
      Font.vertInterspacing, Font.hasVertLayout] at hv
    rw [rd16_eq (by omega), rd8_eq (by omega), rd8_eq (by omega), rd8_eq (by omega),
      rd8_eq (by omega), idx_lt (by omega)] at hv
    simp only [Res.ok_bind, Res.pure_eq] at hv
    rw [if_neg (by omega), Res.bind_eq_ok] at hv
    obtain ⟨_, _, hv⟩ := hv
    rw [if_neg (by omega), if_neg (by omega)] at hv
    split at hv
    · simp at hv
    · rename_i hc
      by_cases h0 : byteAt f.data (f.offMetrics + 11) = 0
      · exact Or.inl h0
      · right
        by_cases h1 : byteAt f.data (f.offMetrics + 2) = 1
        · exact h1
        · exact absurd ⟨h0, by simpa using h1⟩ hc
  · rintro ⟨a, b, c, e, g⟩
    simp only [Font.validateMetrics, Font.numGlyphs, Font.ascent, Font.extraAscent,
      Font.vertInterspacing, Font.hasVertLayout]
    rw [rd16_eq (by omega), rd8_eq (by omega), rd8_eq (by omega), rd8_eq (by omega),
      rd8_eq (by omega), idx_lt (by omega)]
    simp only [Res.ok_bind, Res.pure_eq]
    have hb : Helpers.boolErrCheck f.data[f.offMetrics + 2] = .ok () := by
      rw [byteAt_eq (i := f.offMetrics + 2) (by omega)] at b
      unfold Helpers.boolErrCheck
      rw [if_pos]
      generalize f.data[f.offMetrics + 2] = x at b
      have : x.toNat = 0 ∨ x.toNat = 1 := by omega
      rcases this with h | h
      · left; exact UInt8.toNat_inj.1 h
      · right; exact UInt8.toNat_inj.1 h
    rw [if_neg (by omega), hb, Res.ok_bind, if_neg (by omega), if_neg (by omega), if_neg]
    rintro ⟨h0, h1⟩
    rcases g with g | g
    · exact h0 g
    · simp [g] at h1

theorem metricsChecks_take {n o : Nat} (h : o + 15 ≤ n) : MetricsChecks (D.take n) o ↔ MetricsChecks D o := by
  have e0 : u16At (D.take n) o = u16At D o := u16At_take (by omega)
  have e1 : ∀ k, k < 15 → byteAt (D.take n) (o + k) = byteAt D (o + k) := fun k hk => byteAt_take (by omega)
  have e2 := e1 2 (by omega)
  have e4 := e1 4 (by omega)
  have e5 := e1 5 (by omega)
  have e11 := e1 11 (by omega)
  constructor
  · rintro ⟨a, b, c, d, e⟩
    rw [e0] at a; rw [e2] at b e; rw [e4] at c d; rw [e5] at d; rw [e11] at e
    exact ⟨a, b, c, d, e⟩
  · rintro ⟨a, b, c, d, e⟩
    constructor
    · rw [e0]; exact a
    · rw [e2]; exact b
    · rw [e4]; exact c
    · rw [e4, e5]; exact d
    · rw [e2, e11]; exact e

theorem parseMetrics_iff {f f' : Font} (hD : D.length ≤ maxFontDataSize) (hi : i ≤ D.length) :
    (parseMetrics f).flat D i d = .ok (f', i', d') ↔
    f' = { f with offMetrics := i } ∧ i' = i + 15 ∧ d' = i' ∧ i' ≤ D.length ∧ MetricsChecks D i := by
  have hv : i + 15 ≤ D.length → (Font.validateMetrics { f with offMetrics := i, data := D.take (i + 15) } =
      .ok () ↔ MetricsChecks D i) := by
    intro h
    rw [validateMetrics_iff (by simp; omega)]
    exact metricsChecks_take (Nat.le_refl _)
  unfold parseMetrics
  rw [here' hD hi]
  constructor
  · intro h
    simp only [flat_bind_ok, flat_advance, flat_pure, flat_sync, flat_onFont, Prod.mk.injEq] at h
    obtain ⟨_, _, _, ⟨h1, rfl, rfl⟩, _, _, _, ⟨rfl, rfl⟩, _, _, _, ⟨hv', rfl, rfl⟩, rfl, rfl, rfl⟩ := h
    have : i + 15 ≤ D.length := by omega
    exact ⟨rfl, rfl, rfl, this, (hv this).1 hv'⟩
  · rintro ⟨rfl, rfl, rfl, hl, hc⟩
    rw [adv (by omega), sync', onFont' ((hv hl).2 hc), pureEnd]

theorem parseColor_iff {f f' : Font} (hD : D.length ≤ maxFontDataSize) (hi : i ≤ D.length) :
    (parseColor f).flat D i d = .ok (f', i', d') ↔
    ∃ j, j = i + dyesSize D i ∧ f' = { f with offDyes := i, offPalettes := j } ∧
      i' = j + palettesSize D j ∧ d' = i' ∧ i' ≤ D.length ∧ DyesChecks D i ∧
      PalettesChecks D j (usedColors D i) ∧ byteAt D i + byteAt D j ≤ 255 := by
  have hs : 1 ≤ dyesSize D i := by simp only [dyesSize]; split <;> omega
  have hp : ∀ j, 1 ≤ palettesSize D j := by intro j; simp only [palettesSize]; split <;> omega
  have hv : ∀ {t j : Nat}, i + 1 ≤ j → j + 1 ≤ t → t ≤ D.length →
      (Font.validateColor { f with offDyes := i, offPalettes := j, data := D.take t } = .ok () ↔
      byteAt D i + byteAt D j ≤ 255) := by
    intro t j h1 h2 h3
    simp only [Font.validateColor, Font.numDyes, Font.numPalettes]
    rw [rd8_eq (by simp; omega), rd8_eq (by simp; omega)]
    simp only [Res.ok_bind, Res.pure_eq]
    rw [byteAt_take (by omega), byteAt_take (by omega)]
    split <;> simp <;> omega
  unfold parseColor
  rw [here' hD hi, read8_iff]
  constructor
  · rintro ⟨h1, h⟩
    rw [dyes_iff h1] at h
    obtain ⟨h2, h3, h⟩ := h
    rw [here' hD h3, read8_iff] at h
    obtain ⟨h4, h⟩ := h
    replace h := (palettes_iff h4).1 h
    obtain ⟨h5, h6, h⟩ := h
    rw [sync', onFont_iff] at h
    obtain ⟨_, h7, h⟩ := h
    rw [pureEnd] at h
    simp only [Res.ok.injEq, Prod.mk.injEq] at h
    obtain ⟨rfl, rfl, rfl⟩ := h
    have := hp (i + dyesSize D i)
    exact ⟨_, rfl, rfl, rfl, rfl, h6, h2, h5, (hv (by omega) (by omega) h6).1 h7⟩
  · rintro ⟨j, rfl, rfl, rfl, rfl, h6, h2, h5, h7⟩
    have := hp (i + dyesSize D i)
    refine ⟨by omega, ?_⟩
    rw [dyes_iff (by omega)]
    refine ⟨h2, by omega, ?_⟩
    rw [here' hD (by omega), read8_iff]
    refine ⟨by omega, ?_⟩
    refine (palettes_iff (by omega)).2 ⟨h5, h6, ?_⟩
    rw [sync', onFont' ((hv (by omega) (by omega) h6).2 h7), pureEnd]

theorem parseGlyphs_iff {f f' : Font} {n : Nat} (hD : D.length ≤ maxFontDataSize)
    (hi : i ≤ D.length) (hdi : d ≤ i) (hm : f.offMetrics + 15 ≤ d) (hg : 0 < u16At D f.offMetrics) :
    (parseGlyphs f).flat D i d = .ok ((f', n), i', d') ↔
    ∃ j, j = i + glyphNamesSize D i ∧ f' = { f with offGlyphNames := i, offGlyphMasks := j } ∧
      n = u16At D f.offMetrics ∧ i' = j + masksSize D n j ∧ d' = i' ∧ i' ≤ D.length ∧
      GlyphNamesChecks D n i ∧ MasksChecks D (byteAt D (f.offMetrics + 2) == 1) n j := by
  have hs : 2 ≤ glyphNamesSize D i := by simp only [glyphNamesSize]; split <;> omega
  unfold parseGlyphs
  rw [here' hD hi, read16_iff]
  have hng : ∀ o, Font.numGlyphs { f with offGlyphNames := o, data := D.take d } = .ok (u16At D f.offMetrics) := by
    intro o
    simp only [Font.numGlyphs]
    rw [rd16_eq (by simp; omega), u16At_take (by omega)]
  have hvl : ∀ o, Font.hasVertLayout { f with offGlyphNames := o, data := D.take d } =
      .ok (byteAt D (f.offMetrics + 2) == 1) := by
    intro o
    simp only [Font.hasVertLayout]
    rw [rd8_eq (by simp; omega), byteAt_take (by omega)]; rfl
  have hsb : sub16 (u16At D f.offMetrics) 1 * 3 = 3 * (u16At D f.offMetrics - 1) := by
    have := u16At_lt D f.offMetrics
    simp only [sub16]; omega
  have hfin : ∀ {t j : Nat}, i + 2 ≤ t → t ≤ D.length → d ≤ t →
      (Font.validateGlyphs { f with offGlyphNames := i, offGlyphMasks := j, data := D.take t } = .ok () ↔
      u16At D i ≤ u16At D f.offMetrics) := by
    intro t j h1 h2 h3
    simp only [Font.validateGlyphs, Font.namedCount, Font.numGlyphs]
    rw [rd16_eq (by simp; omega), rd16_eq (by simp; omega)]
    simp only [Res.ok_bind, Res.pure_eq]
    rw [u16At_take (by omega), u16At_take (by omega)]
    split <;> simp <;> omega
  have hmz : masksSize D (u16At D f.offMetrics) (i + glyphNamesSize D i) = 3 * u16At D f.offMetrics +
    u24At D (i + glyphNamesSize D i + 3 * (u16At D f.offMetrics - 1)) := rfl
  have hps : 1 ≤ (if (byteAt D (f.offMetrics + 2) == 1) = true then 4 else 1) := by split <;> omega
  constructor
  · rintro ⟨h1, h⟩
    rw [onFont' (f := { f with offGlyphNames := i }) (hng i), onFont' (f := { f with offGlyphNames := i }) (hvl i)] at h
    replace h := (names_iff h1).1 h
    obtain ⟨h2, h3, h⟩ := h
    rw [here' hD h3, hsb] at h
    simp only [MasksChecks]
    generalize (if (byteAt D (f.offMetrics + 2) == 1) = true then 4 else 1) = ps at *
    generalize i + glyphNamesSize D i = j at *
    simp only [flat_bind_ok, flat_advance, flat_readUint24, flat_ite, flat_fail,
      and_false, false_or, flat_sync, flat_onFont, flat_pure, Prod.mk.injEq] at h
    obtain ⟨_, _, _, ⟨h4, rfl, rfl⟩, _, _, _, ⟨h5, rfl, rfl, rfl⟩, h6, h7,
      _, _, _, ⟨h8, rfl, rfl⟩, _, _, _, ⟨rfl, rfl⟩, _, _, _, ⟨hv, rfl, rfl⟩, ⟨rfl, rfl⟩, rfl, rfl⟩ := h
    exact ⟨_, rfl, rfl, rfl, by omega, rfl, by omega, h2, by omega, by omega⟩
  · rintro ⟨j, hj, rfl, rfl, rfl, rfl, h1, h2, h3⟩
    subst hj
    rw [hmz] at *
    refine ⟨by omega, ?_⟩
    rw [onFont' (f := { f with offGlyphNames := i }) (hng i), onFont' (f := { f with offGlyphNames := i }) (hvl i)]
    refine (names_iff (by omega)).2 ⟨h2, by omega, ?_⟩
    rw [here' hD (by omega), hsb]
    simp only [MasksChecks] at h3
    have hle : u16At D i ≤ u16At D f.offMetrics := by
      rcases Nat.eq_zero_or_pos (u16At D i) with h0 | h0
      · omega
      · exact (h2 h0).1
    have hfin' := fun t (h1 : i + 2 ≤ t) h2 h3 => (hfin (j := i + glyphNamesSize D i) (t := t) h1 h2 h3).2 hle
    generalize (if (byteAt D (f.offMetrics + 2) == 1) = true then 4 else 1) = ps at *
    generalize hj : i + glyphNamesSize D i = j at *
    rw [adv (by omega), read24 (by omega), if_neg (by omega), if_neg (by omega), adv (by omega), sync',
      onFont' (hfin' _ (by omega) (by omega) (by omega)), pureEnd]
    have e : j + 3 * (u16At D f.offMetrics - 1) + 3 + u24At D (j + 3 * (u16At D f.offMetrics - 1)) =
      j + (3 * u16At D f.offMetrics + u24At D (j + 3 * (u16At D f.offMetrics - 1))) := by omega
    rw [e]

theorem parseSettings_iff {f f' : Font} {n : Nat} (hD : D.length ≤ maxFontDataSize)
    (hi : i ≤ D.length) :
    (parseSettings f).flat D i d = .ok ((f', n), i', d') ↔
    ∃ j k, j = i + blocks16Size D i ∧ n = byteAt D j ∧ k = j + blocks16Size D j ∧
      f' = { f with offWords := i, offSettingNames := j, offSettingDefs := k } ∧
      i' = k + settingDefsSize D n k ∧ d' = i' ∧ i' ≤ D.length ∧
      BlocksChecks D i id (· * 32) ∧ BlocksChecks D j id (· * 32) ∧ SettingDefsChecks D n k := by
  have hb : ∀ i, 1 ≤ blocks16Size D i := by intro i; simp only [blocks16Size]; split <;> omega
  unfold parseSettings
  rw [here' hD hi, read8_iff]
  constructor
  · rintro ⟨h1, h⟩
    replace h := (words_iff h1).1 h
    obtain ⟨h2, h3, h⟩ := h
    rw [here' hD h3, read8_iff] at h
    obtain ⟨h4, h⟩ := h
    rw [settingDefs_iff hD h4] at h
    obtain ⟨k, hk, h5, h6, h7, h⟩ := h
    rw [sync', pureEnd] at h
    simp only [Res.ok.injEq, Prod.mk.injEq] at h
    obtain ⟨⟨rfl, rfl⟩, rfl, rfl⟩ := h
    exact ⟨_, k, rfl, rfl, hk, rfl, rfl, rfl, h7, h2, h5, h6⟩
  · rintro ⟨j, k, rfl, rfl, hk, rfl, rfl, rfl, h7, h2, h5, h6⟩
    have := hb i
    have := hb (i + blocks16Size D i)
    refine ⟨by omega, (words_iff (by omega)).2 ⟨h2, by omega, ?_⟩⟩
    rw [here' hD (by omega), read8_iff]
    refine ⟨by omega, ?_⟩
    rw [settingDefs_iff hD (by omega)]
    refine ⟨k, hk, h5, h6, h7, ?_⟩
    rw [sync', pureEnd]

theorem parseMapping_iff {f f' : Font} {m : Nat} (hD : D.length ≤ maxFontDataSize)
    (hi : i ≤ D.length) :
    (parseMapping f m).flat D i d = .ok (f', i', d') ↔
    ∃ j, j = i + blocks16Size D i ∧ f' = { f with offSwitches := i, offMapping := j } ∧
      i' = j + mappingSize D j ∧ d' = i' ∧ i' ≤ D.length ∧ byteAt D i ≤ 253 ∧
      BlocksChecks D i id (· * m) ∧ MappingChecks D j := by
  have hb : ∀ i, 1 ≤ blocks16Size D i := by intro i; simp only [blocks16Size]; split <;> omega
  have hm : ∀ i, 2 ≤ mappingSize D i := by intro i; simp only [mappingSize]; split <;> omega
  unfold parseMapping
  rw [here' hD hi, read8_iff]
  constructor
  · rintro ⟨h1, h⟩
    rw [flat_ite] at h
    rcases h with ⟨_, h⟩ | ⟨h253, h⟩
    · exact absurd h flat_fail
    replace h := (switches_iff h1).1 h
    obtain ⟨h2, h3, h⟩ := h
    rw [here' hD h3, read16_iff] at h
    obtain ⟨h4, h⟩ := h
    replace h := (entries_iff h4).1 h
    obtain ⟨h5, h6, h⟩ := h
    rw [sync', pureEnd] at h
    simp only [Res.ok.injEq, Prod.mk.injEq] at h
    obtain ⟨rfl, rfl, rfl⟩ := h
    exact ⟨_, rfl, rfl, rfl, rfl, h6, by omega, h2, h5⟩
  · rintro ⟨j, rfl, rfl, rfl, rfl, h6, h253, h2, h5⟩
    have := hb i
    have := hm (i + blocks16Size D i)
    refine ⟨by omega, ?_⟩
    rw [if_neg (by omega)]
    refine (switches_iff (by omega)).2 ⟨h2, by omega, ?_⟩
    rw [here' hD (by omega), read16_iff]
    refine ⟨by omega, (entries_iff (by omega)).2 ⟨h5, h6, ?_⟩⟩
    rw [sync', pureEnd]

theorem parseRewrites_iff {f f' : Font} (hD : D.length ≤ maxFontDataSize) (hi : i ≤ D.length) :
    (parseRewrites f).flat D i d = .ok (f', i', d') ↔
    ∃ j1 j2 j3 j4, j1 = i + blocks16Size D i ∧ j2 = j1 + blocks16Size D j1 ∧
      j3 = j2 + blocks16Size D j2 ∧ j4 = j3 + rulesSize D j3 ∧
      f' = { f with offConditions := i, offUtf8Sets := j1, offGlyphSets := j2, offUtf8Rules := j3,
                    offGlyphRules := j4 } ∧
      i' = j4 + rulesSize D j4 ∧ d' = i' ∧ i' ≤ D.length ∧
      BlocksChecks D i (· * 2) (fun _ => 65535) ∧ BlocksChecks D j1 (1 + · * 5) (fun _ => 65535) ∧
      BlocksChecks D j2 (1 + · * 3) (fun _ => 65535) ∧ RulesChecks D j3 1026 ∧ RulesChecks D j4 514 := by
  have hb : ∀ i, 1 ≤ blocks16Size D i := by intro i; simp only [blocks16Size]; split <;> omega
  have hm : ∀ i, 2 ≤ rulesSize D i := by intro i; simp only [rulesSize]; split <;> omega
  unfold parseRewrites
  rw [here' hD hi, read8_iff]
  constructor
  · rintro ⟨h1, h⟩
    replace h := (blocks_iff (least := fun n => n * 2) (fun n hn => by omega) h1).1 h
    obtain ⟨c1, l1, h⟩ := h
    rw [here' hD l1, read8_iff] at h
    obtain ⟨h1, h⟩ := h
    replace h := (blocks_iff (least := fun n => 1 + n * 5) (fun n hn => by omega) h1).1 h
    obtain ⟨c2, l2, h⟩ := h
    rw [here' hD l2, read8_iff] at h
    obtain ⟨h1, h⟩ := h
    replace h := (blocks_iff (least := fun n => 1 + n * 3) (fun n hn => by omega) h1).1 h
    obtain ⟨c3, l3, h⟩ := h
    rw [here' hD l3, read16_iff] at h
    obtain ⟨h1, h⟩ := h
    replace h := (rules_iff h1).1 h
    obtain ⟨c4, l4, h⟩ := h
    rw [here' hD l4, read16_iff] at h
    obtain ⟨h1, h⟩ := h
    replace h := (rules_iff h1).1 h
    obtain ⟨c5, l5, h⟩ := h
    rw [sync', pureEnd] at h
    simp only [Res.ok.injEq, Prod.mk.injEq] at h
    obtain ⟨rfl, rfl, rfl⟩ := h
    exact ⟨_, _, _, _, rfl, rfl, rfl, rfl, rfl, rfl, rfl, l5, c1, c2, c3, c4, c5⟩
  · rintro ⟨j1, j2, j3, j4, e1, e2, e3, e4, rfl, rfl, rfl, l5, c1, c2, c3, c4, c5⟩
    have := hb i
    have := hb j1
    have := hb j2
    have := hm j3
    have := hm j4
    refine ⟨by omega, (blocks_iff (least := fun n => n * 2) (fun n hn => by omega) (by omega)).2
      ⟨c1, by omega, ?_⟩⟩
    rw [← e1, here' hD (by omega), read8_iff]
    refine ⟨by omega, (blocks_iff (least := fun n => 1 + n * 5) (fun n hn => by omega) (by omega)).2
      ⟨c2, by omega, ?_⟩⟩
    rw [← e2, here' hD (by omega), read8_iff]
    refine ⟨by omega, (blocks_iff (least := fun n => 1 + n * 3) (fun n hn => by omega) (by omega)).2
      ⟨c3, by omega, ?_⟩⟩
    rw [← e3, here' hD (by omega), read16_iff]
    refine ⟨by omega, (rules_iff (by omega)).2 ⟨c4, by omega, ?_⟩⟩
    rw [← e4, here' hD (by omega), read16_iff]
    refine ⟨by omega, (rules_iff (by omega)).2 ⟨c5, by omega, ?_⟩⟩
    rw [sync', pureEnd]

end ParseModel
