import Verif.Model.Validate
import Verif.Spec.Valid
import Verif.Lemmas.ParseIff
import Verif.Lemmas.BuiltParse

/-! # Validation -/

namespace FontModel
open Go Spec ParseModel BuilderModel

theorem validate_default (f : Font) : f.validate false =
    (f.validateHeader >>= fun _ => f.validateMetrics >>= fun _ => f.validateGlyphs >>= fun _ => f.validateColor) := by
  unfold Font.validate
  simp only [strictChecks]
  cases f.validateHeader <;> try rfl
  cases f.validateMetrics <;> try rfl
  cases f.validateGlyphs <;> try rfl
  cases f.validateColor <;> rfl

theorem validate_strict (f : Font) : f.validate true =
    (f.validateHeader >>= fun _ => .panic "unimplemented") := by
  unfold Font.validate
  simp only [strictChecks]
  cases f.validateHeader <;> rfl

theorem validateGlyphs_iff {f : Font} (h : f.offGlyphNames + 2 ≤ f.data.length)
    (h' : f.offMetrics + 2 ≤ f.data.length) :
    f.validateGlyphs = .ok () ↔ u16At f.data f.offGlyphNames ≤ u16At f.data f.offMetrics := by
  simp only [Font.validateGlyphs, Font.namedCount, Font.numGlyphs]
  rw [rd16_eq h, rd16_eq h']
  simp only [Res.ok_bind, Res.pure_eq]
  split
  · simp; omega
  · simp; omega

theorem validateColor_iff {f : Font} (h : f.offDyes < f.data.length) (h' : f.offPalettes < f.data.length) :
    f.validateColor = .ok () ↔ byteAt f.data f.offDyes + byteAt f.data f.offPalettes ≤ 255 := by
  simp only [Font.validateColor, Font.numDyes, Font.numPalettes]
  rw [rd8_eq h, rd8_eq h']
  simp only [Res.ok_bind, Res.pure_eq]
  split
  · simp; omega
  · simp; omega

theorem validate_iff {f : Font} (hf : FieldsFit f) : f.validate false = .ok () ↔ Valid f := by
  rw [validate_default]
  have h1 := validateHeader_iff hf.name.1 hf.name.2
  have h2 := validateMetrics_iff hf.metrics
  have h3 := validateGlyphs_iff hf.glyphNames (by have := hf.metrics; omega)
  have h4 := validateColor_iff hf.dyes hf.palettes
  simp only [Res.bind_eq_ok]
  constructor
  · rintro ⟨⟨⟩, a, ⟨⟩, b, ⟨⟩, c, d⟩
    exact ⟨h1.1 a, h2.1 b, h3.1 c, h4.1 d⟩
  · rintro ⟨a, b, c, d⟩
    exact ⟨(), h1.2 a, (), h2.2 b, (), h3.2 c, h4.2 d⟩

theorem validate_noPanic {f : Font} (hf : FieldsFit f) (m : String) : f.validate false ≠ .panic m := by
  rw [validate_default]
  have h1 := validateHeader_noPanic hf.name.1 hf.name.2
  have h2 := validateMetrics_noPanic hf.metrics
  have h3 := validateGlyphs_noPanic hf.glyphNames (by have := hf.metrics; omega)
  have h4 := validateColor_noPanic hf.dyes hf.palettes
  cases e1 : f.validateHeader with
  | panic m => exact absurd e1 (h1 m)
  | err m => simp
  | ok u =>
  cases e2 : f.validateMetrics with
  | panic m => exact absurd e2 (h2 m)
  | err m => simp
  | ok u =>
  cases e3 : f.validateGlyphs with
  | panic m => exact absurd e3 (h3 m)
  | err m => simp
  | ok u => exact h4 m

theorem FieldsFit.of_layout {D : Bytes} {f : Font} {stop : Nat} (h : Layout D f) (h2 : f.offHorzKern ≤ stop)
    (h4 : D.take stop <+: f.data) : FieldsFit f ∧
    byteAt f.data f.offDyes = byteAt D f.offDyes ∧ byteAt f.data f.offPalettes = byteAt D f.offPalettes ∧
    u16At f.data f.offGlyphNames = u16At D f.offGlyphNames ∧
    (HeaderChecks f.data ↔ HeaderChecks D) ∧ (MetricsChecks f.data f.offMetrics ↔ MetricsChecks D f.offMetrics) ∧
    u16At f.data f.offMetrics = u16At D f.offMetrics := by
  obtain ⟨m1, m2, m3, m4, m5, m6, m7, m8, m9, m10, m11, m12, m13, m14, m15, m16, hfit⟩ := h
  have b : ∀ o, 1 ≤ blocks16Size D o := by intro o; simp only [blocks16Size]; split <;> omega
  have r : ∀ o, 2 ≤ rulesSize D o := by intro o; simp only [rulesSize]; split <;> omega
  have p0 : 33 + byteAt D 28 ≤ headerSize D := by simp only [headerSize]; omega
  have p1 : 1 ≤ dyesSize D f.offDyes := by simp only [dyesSize]; split <;> omega
  have p2 : 1 ≤ palettesSize D f.offPalettes := by simp only [palettesSize]; split <;> omega
  have p3 : 2 ≤ glyphNamesSize D f.offGlyphNames := by simp only [glyphNamesSize]; split <;> omega
  have p4 : f.offGlyphNames + 2 ≤ f.offHorzKern := by omega
  generalize f.offHorzKern = k at *
  obtain ⟨x, hx⟩ := h4
  have hlen : k ≤ f.data.length := by rw [← hx]; simp; omega
  have e8 : ∀ o, o < k → byteAt f.data o = byteAt D o := by
    intro o ho
    rw [← hx, byteAt_append_left (by simp; omega), byteAt_take (by omega)]
  have et : f.data.take k = D.take k := by
    rw [← hx, List.take_append_of_le_length (by simp; omega), List.take_take, Nat.min_eq_left h2]
  have e16 : ∀ o, o + 2 ≤ k → u16At f.data o = u16At D o := by
    intro o ho
    rw [← u16At_take (D := f.data) (n := k) (by omega), et, u16At_take (by omega)]
  refine ⟨⟨⟨by omega, by rw [e8 _ (by omega)]; omega⟩, by omega, by omega, by omega, by omega⟩,
    e8 _ (by omega), e8 _ (by omega), e16 _ (by omega), ?_, ?_, e16 _ (by omega)⟩
  · rw [← headerChecks_take (D := f.data) (n := k) (by omega), et, headerChecks_take (by omega)]
  · rw [← metricsChecks_take (D := f.data) (n := k) (by omega), et, metricsChecks_take (by omega)]

theorem valid_of_tolerated {D : Bytes} {f : Font} {stop : Nat} (h : Tolerated D f stop)
    (h4 : D.take stop <+: f.data) : FieldsFit f ∧ Valid f := by
  have k : f.offHorzKern ≤ stop := by
    rcases h.horzKern with ⟨_, a⟩ | ⟨a, _⟩ <;> rcases h.vertKern with ⟨_, b⟩ | ⟨b, _⟩ <;> omega
  obtain ⟨a1, a2, a3, a4, a5, a6, a7⟩ := FieldsFit.of_layout h.layout k h4
  obtain ⟨c1, c2, _, _, c5, c6, _⟩ := h.checks
  refine ⟨a1, a5.2 c1, a6.2 c2, ?_, ?_⟩
  · rw [a4, a7]
    rcases Nat.eq_zero_or_pos (u16At D f.offGlyphNames) with h0 | h0
    · omega
    · exact (c6 h0).1
  · rw [a2, a3]; exact c5

end FontModel

namespace BuilderModel.Built
open Go Spec FontModel ParseModel
variable {env : Env} {b b' : Builder} {f : FontModel.Font} {s : Parts} {w bi : GoMap Bytes Int}

theorem fieldsFit (h : Built env b b' f s w bi) (hk : Kept b) : FieldsFit f := by
  obtain ⟨o1, o2, o3, o4, o5, o6, o7, o8, o9, o10, o11, o12, o13, o14, o15, o16, o17, o18⟩ := h.offs
  obtain ⟨hd0, hd1, hd2, hd3⟩ := h.header_facts
  have hh : 33 + byteAt f.data 28 ≤ headerSize f.data := by simp only [headerSize]; omega
  have hm := h.metrics_facts.1
  have hdy := h.dyes
  simp only [Builder.dyesSection, Res.bind_eq_ok, Res.pure_eq, Res.ok.injEq] at hdy
  obtain ⟨ends, _, hdy⟩ := hdy
  have l1 : 1 ≤ s.dyes.length := by rw [← hdy]; simp
  have hp := h.palettes
  simp only [Builder.palettesSection, Res.bind_eq_ok, Res.pure_eq, Res.ok.injEq] at hp
  obtain ⟨ends, _, hp⟩ := hp
  have l2 : 1 ≤ s.palettes.length := by rw [← hp]; simp
  have l3 : 2 ≤ s.glyphNames.length := by
    obtain ⟨_, _, _, _, _, _, hg⟩ := h.glyphNames_facts hk.glyphNames
    rw [← hg]
    simp only [glyphNamesSize]
    split <;> omega
  exact ⟨⟨by omega, by omega⟩, by omega, by omega, by omega, by omega⟩

theorem valid_iff (h : Built env b b' f s w bi) (hk : Kept b) :
    Valid f ↔ b.fontName ≠ [] ∧ (b.vertInterspacing = 0 ∨ b.hasVertLayout = true) := by
  obtain ⟨_, hd1, hd2, hd3⟩ := h.header_facts
  obtain ⟨_, hm1, hm2, hm3, hm4, hm5, hm6, hm7, hm8⟩ := h.metrics_facts
  obtain ⟨gn, gt, hgn1, hgn2, _⟩ := h.glyphNames_facts hk.glyphNames
  have hsec : b'.dyes.length + b'.palettes.length ≤ 255 := by
    have := h.sections
    have e := Builder.main_eq h.main
    rw [e]
    dsimp only
    split
    · rename_i h0; rw [h0.2]; simp
    · exact this
  have hdy := h.dyes
  simp only [Builder.dyesSection, Res.bind_eq_ok, Res.pure_eq, Res.ok.injEq] at hdy
  obtain ⟨ends, _, hdy⟩ := hdy
  have hp := h.palettes
  simp only [Builder.palettesSection, Res.bind_eq_ok, Res.pure_eq, Res.ok.injEq] at hp
  obtain ⟨ends', _, hp⟩ := hp
  have a1 := h.atDyes
  have a2 := h.atPalettes
  rw [← hdy] at a1
  rw [← hp] at a2
  have a1 := a1.left.left.left.left.byte
  have a2 := a2.left.left.left.left.byte
  rw [byte_val, Nat.mod_eq_of_lt (by omega)] at a1 a2
  constructor
  · intro v
    constructor
    · have := v.header.name
      rw [hd3] at this
      exact List.length_pos_iff.1 this
    · rcases v.metrics.vertInterspacing with c | c
      · rw [hm6] at c
        exact Or.inl (UInt8.toNat_inj.1 c)
      · rw [hm3] at c
        cases hv : b.hasVertLayout
        · rw [hv] at c; simp at c
        · exact Or.inr rfl
  · rintro ⟨c1, c2⟩
    refine ⟨⟨hd1, by rw [hd2]; exact hk.id, ?_⟩, ⟨by rw [hm1]; exact hm2, by rw [hm3]; split <;> omega,
      by rw [hm4]; exact hm7, by rw [hm4, hm5]; exact hm8, ?_⟩, ?_, ?_⟩
    · rw [hd3]; exact List.length_pos_iff.2 c1
    · rw [hm6, hm3]
      rcases c2 with c2 | c2
      · left; rw [c2]; rfl
      · right; rw [c2]; rfl
    · rw [hgn1, hm1]; exact hgn2
    · rw [a1, a2]; exact hsec

end BuilderModel.Built
