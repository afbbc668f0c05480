import Verif.Lemmas.ParseIff
import Verif.Lemmas.ParseStream

/-! # `Parse` accepts exactly what passes the checks -/

namespace ParseModel
open Go ParseBuf ParseBuf.Prog FontModel Spec Helpers
variable {D : Bytes} {i d i' d' : Nat}

theorem Checks.iff {f : Font} : Checks D f ↔ ChecksUpTo D f ∧
    u24At D f.offHorzKern ≤ u16At D f.offMetrics * u16At D f.offMetrics ∧
    u24At D f.offVertKern ≤ u16At D f.offMetrics * u16At D f.offMetrics := by
  constructor
  · rintro ⟨a1, a2, a3, a4, a5, a6, a7, a8, a9, a10, a11, a12, a13, a14, a15, a16, a17, a18, a19, a20⟩
    exact ⟨⟨a1, a2, a3, a4, a5, a6, a7, a8, a9, a10, a11, a12, a13, a14, a15, a16, a17, a18⟩, a19, a20⟩
  · rintro ⟨⟨a1, a2, a3, a4, a5, a6, a7, a8, a9, a10, a11, a12, a13, a14, a15, a16, a17, a18⟩, a19, a20⟩
    exact ⟨a1, a2, a3, a4, a5, a6, a7, a8, a9, a10, a11, a12, a13, a14, a15, a16, a17, a18, a19, a20⟩

theorem parseUpToKerning_checks {f : Font} {n : Nat} (hD : D.length ≤ maxFontDataSize)
    (h : parseUpToKerning.flat D 0 0 = .ok ((f, n), i', d')) : ChecksUpTo D f := by
  unfold parseUpToKerning at h
  simp only [flat_bind_ok, flat_pure, Prod.mk.injEq] at h
  obtain ⟨f1, i1, d1, h1, f2, i2, d2, h2, f3, i3, d3, h3, ⟨f4, n4⟩, i4, d4, h4, ⟨f5, n5⟩, i5, d5,
    h5, f6, i6, d6, h6, f7, i7, d7, h7, ⟨rfl, hn⟩, hi, hd'⟩ := h
  simp only at hn
  subst hn hi hd'
  obtain ⟨hf1, hi1, hd, l1, c1⟩ := parseHeader_iff.1 h1
  subst d1
  obtain ⟨hf2, hi2, hd, l2, c2⟩ := (parseMetrics_iff hD l1).1 h2
  subst d2
  obtain ⟨j3, hj3, hf3, hi3, hd, l3, c3⟩ := (parseColor_iff hD l2).1 h3
  subst d3
  have a1 : f3.offMetrics = i1 := by rw [hf3, hf2]
  have a2 : i2 + 1 ≤ j3 := by rw [hj3]; simp only [dyesSize]; split <;> omega
  have a3 : j3 + 1 ≤ i3 := by rw [hi3]; simp only [palettesSize]; split <;> omega
  obtain ⟨j4, hj4, hf4, hn4, hi4, hd, l4, c4⟩ :=
    (parseGlyphs_iff hD l3 (Nat.le_refl _) (by rw [a1]; omega) (by rw [a1]; exact c2.glyphs)).1 h4
  subst d4
  obtain ⟨j5, k5, hj5, hn5, hk5, hf5, hi5, hd, l5, c5⟩ := (parseSettings_iff hD l4).1 h5
  subst d5
  obtain ⟨j6, hj6, hf6, hi6, hd, l6, c6⟩ := (parseMapping_iff hD l5).1 h6
  subst d6
  obtain ⟨j7, k7, m7, o7, hj7, hk7, hm7, ho7, hf7, hi7, hd, l7, c7⟩ := (parseRewrites_iff hD l6).1 h7
  rw [a1] at hn4 c4
  subst hf1 hf2 hf3 hf4 hf5 hf6 hf7
  simp only at *
  subst hn4 hn5
  exact ⟨c1, c2, c3.1, c3.2.1, c3.2.2, c4.1, c4.2, c5.1, c5.2.1, c5.2.2, c6.1, c6.2.1, c6.2.2, c7⟩

theorem parseUpToKerning_of {f : Font} (hD : D.length ≤ maxFontDataSize) (hL : Layout D f)
    (hC : ChecksUpTo D f) :
    parseUpToKerning.flat D 0 0 = .ok (({ f with data := [], offHorzKern := 0, offVertKern := 0 },
      u16At D f.offMetrics), f.offHorzKern, f.offHorzKern) := by
  obtain ⟨m1, m2, m3, m4, m5, m6, m7, m8, m9, m10, m11, m12, m13, m14, m15, m16, hfit⟩ := hL
  obtain ⟨c1, c2, c3, c3', c3'', c4, c4', c5, c5', c5'', c6, c6', c6'', c7, c8, c9, c10, c11⟩ := hC
  obtain ⟨data, oMetrics, oDyes, oPalettes, oGlyphNames, oGlyphMasks, oWords, oSettingNames, oSettingDefs,
    oSwitches, oMapping, oConditions, oUtf8Sets, oGlyphSets, oUtf8Rules, oGlyphRules, oHorzKern,
    oVertKern⟩ := f
  simp only at *
  have b : ∀ o, 1 ≤ blocks16Size D o := by intro o; simp only [blocks16Size]; split <;> omega
  have r : ∀ o, 2 ≤ rulesSize D o := by intro o; simp only [rulesSize]; split <;> omega
  have p1 : 1 ≤ dyesSize D oDyes := by simp only [dyesSize]; split <;> omega
  have p2 : 1 ≤ palettesSize D oPalettes := by simp only [palettesSize]; split <;> omega
  have p3 : 2 ≤ mappingSize D oMapping := by simp only [mappingSize]; split <;> omega
  have q1 := b oWords
  have q2 := b oSettingNames
  have q3 := b oSwitches
  have q4 := b oConditions
  have q5 := b oUtf8Sets
  have q6 := b oGlyphSets
  have q7 := r oUtf8Rules
  have q8 := r oGlyphRules
  unfold parseUpToKerning
  rw [bind_flat (parseHeader_iff.2 ⟨rfl, m1, rfl, by omega, c1⟩)]
  rw [bind_flat ((parseMetrics_iff hD (by omega)).2 ⟨rfl, m2, rfl, by omega, c2⟩)]
  rw [bind_flat ((parseColor_iff hD (by omega)).2 ⟨oPalettes, m3, rfl, m4, rfl, by omega, c3, c3', c3''⟩)]
  rw [bind_flat ((parseGlyphs_iff hD (by omega) (Nat.le_refl _) (by simp only; omega)
    (by simpa using c2.glyphs)).2 ⟨oGlyphMasks, m5, rfl, rfl, m6, rfl, by omega, c4, c4'⟩)]
  simp only
  rw [bind_flat ((parseSettings_iff hD (by omega)).2 ⟨oSettingNames, oSettingDefs, m7, rfl, m8, rfl, m9, rfl,
    by omega, c5, c5', c5''⟩)]
  simp only
  rw [bind_flat ((parseMapping_iff hD (by omega)).2 ⟨oMapping, m10, rfl, m11, rfl, by omega, c6, c6', c6''⟩)]
  rw [bind_flat ((parseRewrites_iff hD (by omega)).2 ⟨oUtf8Sets, oGlyphSets, oUtf8Rules, oGlyphRules,
    m12, m13, m14, m15, rfl, m16, rfl, by omega, c7, c8, c9, c10, c11⟩)]
  exact pureEnd

/-- The layout determines the offsets. -/
theorem Layout.unique {f f' : Font} (h : Layout D f) (h' : Layout D f') :
    { f with data := D, offVertKern := 0 } = { f' with data := D, offVertKern := 0 } := by
  obtain ⟨m1, m2, m3, m4, m5, m6, m7, m8, m9, m10, m11, m12, m13, m14, m15, m16, _⟩ := h
  obtain ⟨n1, n2, n3, n4, n5, n6, n7, n8, n9, n10, n11, n12, n13, n14, n15, n16, _⟩ := h'
  cases f
  cases f'
  simp only at *
  subst m1 n1; subst m2 n2; subst m3 n3; subst m4 n4; subst m5 n5; subst m6 n6; subst m7 n7; subst m8 n8
  subst m9 n9; subst m10 n10; subst m11 n11; subst m12 n12; subst m13 n13; subst m14 n14; subst m15 n15
  subst m16 n16
  rfl

theorem parseBody_of {f : Font} (hD : D.length ≤ maxFontDataSize) (hL : Layout D f)
    (hK : KernLayout D f D.length) (hC : Checks D f) :
    parseBody.flat D 0 0 = .ok ({ f with data := [] }, D.length, D.length) := by
  obtain ⟨k1, k2, _⟩ := hK
  have z : ∀ o, 3 ≤ kernSize D o := by intro o; simp only [kernSize]; omega
  have z1 := z f.offHorzKern
  have z2 := z f.offVertKern
  obtain ⟨hu, hh, hv⟩ := Checks.iff.1 hC
  rw [parseBody_flat_iff]
  refine ⟨_, _, _, _, parseUpToKerning_of hD hL hu, ?_⟩
  rw [parseKerning_flat]
  refine ⟨f.offVertKern, _, _, parseKernTable_flat.2 ⟨rfl, Or.inr ⟨by omega, hh, k1, by omega⟩⟩,
    parseKernTable_flat.2 ⟨rfl, Or.inr ⟨by omega, hv, k2, by omega⟩⟩, ?_, rfl⟩
  rw [u32_eq hD hL.fits, u32_eq hD (by omega)]

theorem parseBody_checks {f g : Font} (hD : D.length ≤ maxFontDataSize) (hL : Layout D f)
    (hK : KernLayout D f D.length) (h : parseBody.flat D 0 0 = .ok (g, i', d')) : Checks D f := by
  obtain ⟨k1, k2, _⟩ := hK
  have z : ∀ o, 3 ≤ kernSize D o := by intro o; simp only [kernSize]; omega
  have z1 := z f.offHorzKern
  have z2 := z f.offVertKern
  have hL' := (parseBody_flat hD h).1
  rw [parseBody_flat_iff] at h
  obtain ⟨f0, n, i, d, h1, h2⟩ := h
  have hc := parseUpToKerning_checks hD h1
  obtain ⟨hL0, _, hn, rfl, hi⟩ := parseUpToKerning_flat hD h1
  have e := Layout.unique hL hL0
  simp only [Font.mk.injEq, true_and, and_true] at e
  obtain ⟨e1, e2, e3, e4, e5, e6, e7, e8, e9, e10, e11, e12, e13, e14, e15, e16⟩ := e
  have hc' : ChecksUpTo D f := by
    unfold ChecksUpTo at hc ⊢
    rw [e1, e2, e3, e4, e5, e6, e7, e8, e9, e10, e11, e12, e13, e14, e15]
    exact hc
  rw [parseKerning_flat] at h2
  obtain ⟨j, d1, d2, h3, h4, rfl, rfl⟩ := h2
  rw [parseKernTable_flat] at h3 h4
  subst hn
  rw [← e1] at h3 h4
  have e16' : d = f.offHorzKern := e16.symm
  subst e16'
  obtain ⟨_, (h3 | h3)⟩ := h3
  · omega
  · obtain ⟨_, (h4 | h4)⟩ := h4
    · omega
    · have : j = f.offVertKern := by omega
      subst this
      exact Checks.iff.2 ⟨hc', h3.2.1, h4.2.1⟩

theorem _root_.Spec.Tolerated.setData {f : Font} {stop : Nat} (h : Tolerated D f stop) (x : Bytes) :
    Tolerated D { f with data := x } stop :=
  ⟨⟨h.layout.1, h.layout.2, h.layout.3, h.layout.4, h.layout.5, h.layout.6, h.layout.7, h.layout.8, h.layout.9,
    h.layout.10, h.layout.11, h.layout.12, h.layout.13, h.layout.14, h.layout.15, h.layout.16, h.layout.17⟩,
    h.checks, h.horzKern, h.vertKern⟩

/-- What the body makes of the data, completely. -/
theorem parseBody_iff {f : Font} (hD : D.length ≤ maxFontDataSize) :
    parseBody.flat D 0 0 = .ok (f, i', d') ↔ f.data = [] ∧ d' = i' ∧ Tolerated D f i' := by
  constructor
  · intro h
    have hL' := (parseBody_flat hD h).1
    rw [parseBody_flat_iff] at h
    obtain ⟨f0, n, i, d, h1, h2⟩ := h
    have hc := parseUpToKerning_checks hD h1
    obtain ⟨hL0, _, hn, rfl, hi⟩ := parseUpToKerning_flat hD h1
    rw [parseKerning_flat] at h2
    obtain ⟨j, d1, d2, h3, h4, rfl, rfl⟩ := h2
    have hd := parseUpToKerning_of hD hL0 (f := { f0 with offHorzKern := d }) hc
    rw [h1] at hd
    have hd0 : f0.data = [] := by
      have := congrArg Font.data (congrArg Prod.fst (congrArg Prod.fst (Res.ok.inj hd)))
      exact this
    rw [parseKernTable_flat] at h3 h4
    subst hn
    have hj : j ≤ D.length := by omega
    have e1 := u32_eq hD hi
    have e2 := u32_eq hD hj
    refine ⟨hd0, rfl, hL', hc, ?_, ?_⟩
    · show KernTable D _ (u32 d) (u32 j)
      rw [e1, e2]
      rcases h3.2 with h | h
      · exact Or.inl h
      · exact Or.inr ⟨h.2.2.1, h.2.2.2, h.2.1⟩
    · show KernTable D _ (u32 j) _
      rw [e2]
      rcases h4.2 with h | h
      · exact Or.inl h
      · exact Or.inr ⟨h.2.2.1, h.2.2.2, h.2.1⟩
  · rintro ⟨hd, rfl, hL, hC, hh, hv⟩
    have z : ∀ o, 3 ≤ kernSize D o := by intro o; simp only [kernSize]; omega
    have z1 := z f.offHorzKern
    have z2 := z f.offVertKern
    have hfit := hL.fits
    rw [parseBody_flat_iff]
    refine ⟨_, _, _, _, parseUpToKerning_of hD hL hC, ?_⟩
    rw [parseKerning_flat]
    refine ⟨f.offVertKern, _, _, parseKernTable_flat.2 ⟨rfl, ?_⟩, parseKernTable_flat.2 ⟨rfl, ?_⟩, ?_, rfl⟩
    · rcases hh with h | h
      · exact Or.inl h
      · exact Or.inr ⟨by omega, h.2.2, h.1, h.2.1⟩
    · rcases hv with h | h
      · exact Or.inl h
      · exact Or.inr ⟨by omega, h.2.2, h.1, h.2.1⟩
    · rw [u32_eq hD hL.fits, u32_eq hD (by rcases hh with h | h <;> omega)]
      cases f
      simp only at hd
      rw [hd]

/-- Data with the layout of a font is parsed exactly when the checks hold. -/
theorem parseStream_checks (junk : Nat → UInt8) {r : Reader} (hr : r.Serves D)
    (hD : D.length ≤ maxFontDataSize) {f : Font} (hf : f.data = D) (hL : Layout D f)
    (hK : KernLayout D f D.length) :
    (Checks D f → parseStream junk r = .ok f) ∧ (¬ Checks D f → ∃ m, parseStream junk r = .err m) := by
  constructor
  · intro hc
    have hb := parseBody_of hD hL hK hc
    rcases parseStream_flat junk hr hD with ⟨m, h1, _⟩ | ⟨f1, i, s, h1, h2, h3, h4⟩
    · rw [hb] at h1; simp at h1
    · rw [hb] at h1
      simp only [Res.ok.injEq, Prod.mk.injEq] at h1
      obtain ⟨rfl, rfl, _⟩ := h1
      rcases h4 with ⟨_, h4⟩ | ⟨_, _, h4⟩
      · rw [h4, FInv.data_eq h3]
        subst hf
        rfl
      · omega
  · intro hc
    rcases parseStream_flat junk hr hD with ⟨m, _, h1⟩ | ⟨f1, i, s, h1, _⟩
    · exact ⟨m, h1⟩
    · exact absurd (parseBody_checks hD hL hK h1) hc

end ParseModel
