import Verif.Lemmas.BuiltSizes2
import Verif.Lemmas.ParseAccept
import Verif.Lemmas.Colors
import Verif.Spec.Acceptable

/-! # Layout and checks of built fonts -/

namespace BuilderModel
open Go Helpers Spec FontModel

/-- Blocks checks from the stored values. -/
theorem blocksChecks {D : Bytes} {o n total : Nat} {least most : Nat → Nat} (h1 : byteAt D o = n)
    (h2 : 0 < n → u16At D (o + 1 + 2 * (n - 1)) = total) :
    BlocksChecks D o least most ↔ (0 < n → least n ≤ total ∧ total ≤ most n) := by
  simp only [BlocksChecks, h1]
  constructor
  · intro h hn; have := h hn; rwa [h2 hn] at this
  · intro h hn; rw [h2 hn]; exact h hn

theorem rulesChecks {D : Bytes} {o n total most : Nat} (h1 : u16At D o = n)
    (h2 : 0 < n → u24At D (o + 2 + 3 * (n - 1)) = total) :
    RulesChecks D o most ↔ (0 < n → 8 * n ≤ total ∧ total ≤ n * most) := by
  simp only [RulesChecks, h1]
  constructor
  · intro h hn; have := h hn; rwa [h2 hn] at this
  · intro h hn; rw [h2 hn]; exact h hn

theorem sub_up {w o n p : Nat} (h : w - o - n ≤ p) : w ≤ o + n + p := by omega
theorem sub_down {w o n p : Nat} (h : w ≤ o + n + p) : w - o - n ≤ p := by omega
theorem sub_low {w o n p : Nat} (h : o + n + p ≤ w) : p ≤ w - o - n := by omega
theorem sub_low' {w o n p : Nat} (h' : o + n ≤ w) (h : p ≤ w - o - n) : o + n + p ≤ w := by omega

theorem setDyes_eq {b b' : Builder} (h : (if b.dyes.length + b.palettes.length = 0 then
    b.addDye (ascii "main") [255] else .ok b) = .ok b') (hb : ColorsOk b) : ColorsOk b' := by
  split at h
  · exact (Builder.addDye_ok hb h).1
  · simp only [Res.ok.injEq] at h; subst h; exact hb

namespace Built
variable {env : Env} {b b' : Builder} {f : FontModel.Font} {s : Parts} {w bi : GoMap Bytes Int}

theorem data_len (h : Built env b b' f s w bi) : f.data.length ≤ maxFontDataSize := by
  have := h.size
  rw [h.font]; exact this

theorem layout (h : Built env b b' f s w bi) (hk : Kept b) (hf : Fair env)
    (hz : ∃ k, 0 < k ∧ k < 256 ∧ env.predef k = env.predef 0) (ht : SizesFit b' f) :
    Layout f.data f ∧ KernLayout f.data f f.data.length := by
  have e1 : b'.glyphOrder = b.glyphOrder := by rw [h.b'_eq]
  have e2 : b'.runeMapping = b.runeMapping := by rw [h.b'_eq]
  have e3 : b'.horzKern = b.horzKern := by rw [h.b'_eq]
  have e4 : b'.vertKern = b.vertKern := by rw [h.b'_eq]
  obtain ⟨o1, o2, o3, o4, o5, o6, o7, o8, o9, o10, o11, o12, o13, o14, o15, o16, o17, o18⟩ := h.offs
  have ho := order_le h
  have hd := h.header_facts
  have hm := h.metrics_facts
  have hdy := h.dyes_facts ht.dyeNames
  have hp := h.palettes_facts ht.paletteNames
  obtain ⟨_, _, _, _, _, _, hgn⟩ := h.glyphNames_facts hk.glyphNames
  have hgm := h.masks_facts (by have := ht.masks; rwa [e1] at this)
  obtain ⟨_, _, _, _, _, _, hw⟩ := h.words_facts hf hk.settings hz
  obtain ⟨_, hsn0, _, _, _, hsn⟩ := h.settingNames_facts hk.settings
  have hsd := h.settingDefs_facts hk.settings
  obtain ⟨_, _, _, _, _, hsw⟩ := h.switches_facts hk.settings hk.switches
  obtain ⟨_, _, _, _, _, hmp⟩ := h.mapping_facts (by have := ht.mapping; rwa [e2] at this)
  have hco := h.conditions_facts hk.conditions
  have hus := h.utf8Sets_facts
  have hgs := h.glyphSets_facts hk.kern.order
  have hur := rules_facts h.atUtf8Rules h.utf8Rules (fun _ _ => ruleBytes_min) o15
  have hgr := rules_facts h.atGlyphRules h.glyphRules (fun _ _ => ruleBytes_min) o16
  have hn : b'.glyphOrder.Nodup := by rw [e1]; exact hk.kern.order
  have hhk := kern_facts hn (by rw [e1]; omega) (by rw [e3]; exact hk.kern.horz) h.horzCount h.atHorzKern h.horzKern
  have hvk := kern_facts hn (by rw [e1]; omega) (by rw [e4]; exact hk.kern.vert) h.vertCount h.atVertKern h.vertKern
  constructor
  · constructor
    · rw [hd.1, o1]
    · rw [o2, hm.1]
    · rw [hdy.2.2, o3]
    · rw [hp.2.2, o4]
    · rw [hgn, o5]
    · rw [hm.2.1, hgm.2.2, o6]
    · rw [hw, o7]
    · rw [hsn, o8]
    · rw [hsn0, hsd.2, o9]
    · rw [hsw, o10]
    · rw [hmp, o11]
    · rw [hco.2, o12]
    · rw [hus.2, o13]
    · rw [hgs.2.2.2.2, o14]
    · rw [hur.2.2.2, o15]
    · rw [hgr.2.2.2, o16]
    · omega
  · constructor
    · rw [hhk.2, o17]
    · rw [hvk.2, o18]
    · omega

theorem checks_iff (h : Built env b b' f s w bi) (hk : Kept b) (hf : Fair env)
    (hz : ∃ k, 0 < k ∧ k < 256 ∧ env.predef k = env.predef 0) (ht : SizesFit b' f) :
    Checks f.data f ↔ Acceptable b' f := by
  have e0 : b'.fontName = b.fontName := by rw [h.b'_eq]
  have e1 : b'.glyphOrder = b.glyphOrder := by rw [h.b'_eq]
  have e2 : b'.runeMapping = b.runeMapping := by rw [h.b'_eq]
  have e3 : b'.horzKern = b.horzKern := by rw [h.b'_eq]
  have e4 : b'.vertKern = b.vertKern := by rw [h.b'_eq]
  have e5 : b'.settings = b.settings := by rw [h.b'_eq]
  have e6 : b'.switches = b.switches := by rw [h.b'_eq]
  have e7 : b'.glyphSetsOrder = b.glyphSetsOrder := by rw [h.b'_eq]
  have e8 : b'.hasVertLayout = b.hasVertLayout := by rw [h.b'_eq]
  have e9 : b'.vertInterspacing = b.vertInterspacing := by rw [h.b'_eq]
  have e10 : placementLen b' = placementLen b := by rw [placementLen, e8, placementLen]
  obtain ⟨o1, o2, o3, o4, o5, o6, o7, o8, o9, o10, o11, o12, o13, o14, o15, o16, o17, o18⟩ := h.offs
  have ho := order_le h
  obtain ⟨_, hd1, hd2, hd3⟩ := h.header_facts
  obtain ⟨_, hm1, hm2, hm3, hm4, hm5, hm6, hm7, hm8⟩ := h.metrics_facts
  obtain ⟨hdy1, hdy2, _⟩ := h.dyes_facts ht.dyeNames
  obtain ⟨hp1, hp2, _⟩ := h.palettes_facts ht.paletteNames
  obtain ⟨gn, gt, hgn1, hgn2, hgn3, hgn4, _⟩ := h.glyphNames_facts hk.glyphNames
  obtain ⟨hgm1, hgm2, _⟩ := h.masks_facts (by have := ht.masks; rwa [e1] at this)
  obtain ⟨wn, wt, hw1, hw2, hw3, hw4, _⟩ := h.words_facts hf hk.settings hz
  obtain ⟨snt, hsn1, hsn2, hsn3, hsn4, _⟩ := h.settingNames_facts hk.settings
  obtain ⟨hsd, _⟩ := h.settingDefs_facts hk.settings
  obtain ⟨swt, hsw1, hsw2, hsw3, hsw4, _⟩ := h.switches_facts hk.settings hk.switches
  obtain ⟨mt, hmp1, hmp2, hmp3, _, _⟩ := h.mapping_facts (by have := ht.mapping; rwa [e2] at this)
  obtain ⟨hco, _⟩ := h.conditions_facts hk.conditions
  obtain ⟨hus, _⟩ := h.utf8Sets_facts
  obtain ⟨hgs1, hgs2, hgs3, hgs4, _⟩ := h.glyphSets_facts hk.kern.order
  obtain ⟨hur1, hur2, hur3, _⟩ := rules_facts h.atUtf8Rules h.utf8Rules (fun _ _ => ruleBytes_min) o15
  obtain ⟨hgr1, hgr2, hgr3, _⟩ := rules_facts h.atGlyphRules h.glyphRules (fun _ _ => ruleBytes_min) o16
  have hn : b'.glyphOrder.Nodup := by rw [e1]; exact hk.kern.order
  obtain ⟨hhk, _⟩ := kern_facts hn (by rw [e1]; omega) (by rw [e3]; exact hk.kern.horz) h.horzCount h.atHorzKern h.horzKern
  obtain ⟨hvk, _⟩ := kern_facts hn (by rw [e1]; omega) (by rw [e4]; exact hk.kern.vert) h.vertCount h.atVertKern h.vertKern
  rw [e1] at hhk hvk
  have hcol := (setDyes_eq h.main hk.colors).total
  simp only [sectionSizes, List.sum_append_nat] at hcol
  have hsec : b'.dyes.length + b'.palettes.length ≤ 255 := by
    have := h.sections
    have e := Builder.main_eq h.main
    rw [e]
    dsimp only
    split
    · rename_i h0; rw [h0.2]; simp
    · exact this
  have cW := blocksChecks (least := id) (most := (· * 32)) hw1 hw2
  have cN := blocksChecks (least := id) (most := (· * 32)) hsn1 hsn2
  have cS := blocksChecks (least := id) (most := (· * byteAt f.data f.offSettingNames)) hsw1 hsw2
  have cC := blocksChecks (least := (· * 2)) (most := fun _ => 65535) (total := 0) hco (by simp)
  have cU := blocksChecks (least := (1 + · * 5)) (most := fun _ => 65535) (total := 0) hus (by simp)
  have cG := blocksChecks (least := (1 + · * 3)) (most := fun _ => 65535) hgs1 hgs2
  have cUR := rulesChecks (most := 1026) hur1 hur2
  have cGR := rulesChecks (most := 514) hgr1 hgr2
  have hvert : (byteAt f.data (f.offMetrics + 2) == 1) = b.hasVertLayout := by
    rw [hm3]; cases b.hasVertLayout <;> rfl
  have hmlen : u16At f.data f.offMetrics = b.glyphOrder.length := hm1
  constructor
  · rintro ⟨c1, c2, c3, c4, c5, c6, c7, c8, c9, c10, c11, c12, c13, c14, c15, c16, c17, c18, c19, c20⟩
    constructor
    · have := c1.name
      rw [hd3] at this
      rw [e0]; exact List.length_pos_iff.1 this
    · rw [e9, e8]
      rcases c2.vertInterspacing with c | c
      · rw [hm6] at c
        exact Or.inl (UInt8.toNat_inj.1 c)
      · rw [hm3] at c
        cases hv : b.hasVertLayout
        · rw [hv] at c; simp at c
        · exact Or.inr rfl
    · by_cases h0 : b'.dyes = []
      · simp [h0]
      · have h0' := List.length_pos_iff.2 h0
        simp only [DyesChecks, hdy1, (hdy2 h0).1] at c3
        exact (c3 h0').1
    · by_cases h0 : b'.dyes = []
      · simp [h0]
      · have h0' := List.length_pos_iff.2 h0
        simp only [DyesChecks, hdy1, (hdy2 h0).1, (hdy2 h0).2] at c3
        exact (c3 h0').2
    · by_cases h0 : b'.palettes = []
      · simp [h0]
      · have h0' := List.length_pos_iff.2 h0
        simp only [PalettesChecks, hp1, (hp2 h0).1] at c4
        exact (c4 h0').2.1
    · by_cases h0 : b'.palettes = []
      · simp [h0]
      · have h0' := List.length_pos_iff.2 h0
        simp only [PalettesChecks, hp1, (hp2 h0).1, (hp2 h0).2] at c4
        exact (c4 h0').2.2
    · have := c7.2
      rw [hmlen, hgm1, hvert] at this
      rw [e1, e10, placementLen]
      exact sub_up this
    · rw [e5]
      by_cases h0 : b.settings.length = 0
      · rw [h0]; exact Nat.zero_le _
      · have : 0 < byteAt f.data f.offSettingNames → byteAt f.data f.offSettingNames ≤ _ := c10
        have h0 := Nat.pos_of_ne_zero h0
        rw [hsn1, hsd h0] at this
        exact this h0
    · rw [e6, ← hsw1]; exact c11
    · rw [e7]
      intro h0
      have := (cG.1 c16 (List.length_pos_iff.2 h0)).1
      rw [Nat.mul_comm 3]
      exact sub_low' hgs3 this
    · have := cUR.1 c17
      by_cases h0 : b'.utf8Rules.length = 0
      · simp only [h0, Nat.mul_zero, Nat.add_zero]
        have := List.eq_nil_of_length_eq_zero h0
        have hx := h.utf8Rules
        rw [this] at hx
        have hx : Res.ok _ = Res.ok s.utf8Rules := hx
        rw [o15, ← Res.ok.inj hx]
        simp [appendUint16LE, ends24]
      · have := (this (Nat.pos_of_ne_zero h0)).2
        rw [Nat.mul_comm 1026]
        exact sub_up this
    · have := cGR.1 c18
      by_cases h0 : b'.glyphRules.length = 0
      · simp only [h0, Nat.mul_zero, Nat.add_zero]
        have := List.eq_nil_of_length_eq_zero h0
        have hx := h.glyphRules
        rw [this] at hx
        have hx : Res.ok _ = Res.ok s.glyphRules := hx
        rw [o16, ← Res.ok.inj hx]
        simp [appendUint16LE, ends24]
      · have := (this (Nat.pos_of_ne_zero h0)).2
        rw [Nat.mul_comm 514]
        exact sub_up this
    · rw [e2, ← hmp3]
      refine Nat.add_le_add_left ?_ _
      by_cases h0 : b.runeMapping.length = 0
      · rw [h0]; exact Nat.zero_le _
      · have h0 := Nat.pos_of_ne_zero h0
        simp only [MappingChecks, hmp1] at c13
        have := c13 h0
        rw [hmp2 h0] at this
        exact this
  · rintro ⟨a1, a2, a3, a4, a5, a6, a7, a8, a9, a10, a11, a12, a13⟩
    rw [e0] at a1
    rw [e9, e8] at a2
    rw [e1, e10, placementLen] at a7
    rw [e5] at a8
    rw [e6] at a9
    rw [e7] at a10
    constructor
    · refine ⟨hd1, by rw [hd2]; exact hk.id, ?_⟩
      rw [hd3]; exact List.length_pos_iff.2 a1
    · refine ⟨by rw [hm1]; exact hm2, by rw [hm3]; split <;> omega, by rw [hm4]; exact hm7,
        by rw [hm4, hm5]; exact hm8, ?_⟩
      rw [hm6, hm3]
      rcases a2 with a2 | a2
      · left; rw [a2]; rfl
      · right; rw [a2]; rfl
    · simp only [DyesChecks, hdy1]
      intro h0
      have h0 := List.length_pos_iff.1 h0
      rw [(hdy2 h0).1, (hdy2 h0).2]
      exact ⟨a3, a4⟩
    · simp only [PalettesChecks, hp1]
      intro h0
      have h0 := List.length_pos_iff.1 h0
      rw [(hp2 h0).1, (hp2 h0).2]
      refine ⟨?_, a5, a6⟩
      rw [usedColors, hdy1]
      split
      · exact Nat.le_trans (Nat.add_le_add_right (Nat.zero_le _) _) hcol
      · rename_i hne
        rw [(hdy2 (by intro e; rw [e] at hne; simp at hne)).1]
        exact hcol
    · rw [hdy1, hp1]; exact hsec
    · simp only [GlyphNamesChecks, hgn1, hmlen]
      intro h0
      rw [hgn3 h0]
      exact ⟨hgn2, hgn4⟩
    · rw [hmlen, hvert]
      simp only [MasksChecks, hgm1]
      rw [placementLen] at hgm2
      exact ⟨sub_low hgm2, sub_down a7⟩
    · exact cW.2 fun _ => ⟨hw3, hw4⟩
    · exact cN.2 fun _ => ⟨hsn3, hsn4⟩
    · rw [hsn1]
      intro h0
      rw [hsd h0]
      exact a8
    · rw [hsw1]; exact a9
    · exact cS.2 fun _ => ⟨hsw3, by rw [hsn1]; exact hsw4⟩
    · simp only [MappingChecks, hmp1]
      intro h0
      rw [hmp2 h0]
      rw [e2] at a13
      exact Nat.le_of_add_le_add_left (hmp3 ▸ a13)
    · exact cC.2 fun h0 => absurd h0 (Nat.lt_irrefl _)
    · exact cU.2 fun h0 => absurd h0 (Nat.lt_irrefl _)
    · refine cG.2 fun h0 => ⟨?_, sub_down hgs4⟩
      have := a10 (List.length_pos_iff.1 h0)
      rw [Nat.mul_comm 3] at this
      exact sub_low this
    · rw [Nat.mul_comm 1026] at a11
      exact cUR.2 fun _ => ⟨sub_low hur3, sub_down a11⟩
    · rw [Nat.mul_comm 514] at a12
      exact cGR.2 fun _ => ⟨sub_low hgr3, sub_down a12⟩
    · rw [hmlen]; exact hhk
    · rw [hmlen]; exact hvk

end Built
end BuilderModel
