import Verif.Lemmas.Unbounded
import Verif.Spec.SampleLarge

/-! # Fonts with many glyphs -/

namespace Sample
open Go BuilderModel Spec

theorem small_of {r : Res Bytes} (h : (match r with
    | .ok x => decide (x.length ≤ 1000)
    | _ => false) = true) : ∃ x, r = .ok x ∧ x.length ≤ 1000 := by
  cases r with
  | ok x => exact ⟨x, rfl, by simpa using h⟩
  | err m => cases h
  | panic m => cases h

theorem wide_block : ∃ x, Mask.appendRasterOps id [50] wide = .ok x ∧ x.length = 304 := by
  have h : (match Mask.appendRasterOps id [50] wide with
    | .ok x => x.length == 304
    | _ => false) = true := by decide +kernel
  cases e : Mask.appendRasterOps id [50] wide with
  | ok x => rw [e] at h; exact ⟨x, rfl, by simpa using h⟩
  | err m => rw [e] at h; cases h
  | panic m => rw [e] at h; cases h

theorem many_glyphs : ∀ n, n ≤ 56789 → ∃ d o, Reachable (withGlyphs d o) ∧ d.length = n ∧ o.length = n ∧
    (∀ u ∈ o, d.get u = some wideGlyph) ∧ ∀ e ∈ d, e.1 < 100000 + n ∧ e.2 = wideGlyph
  | 0, _ => ⟨[], [], fresh_reachable, rfl, rfl, by simp, by simp⟩
  | n + 1, hn => by
    obtain ⟨d, o, hr, h1, h2, h3, h4⟩ := many_glyphs n (by omega)
    have hnone : d.get (100000 + n) = none := by
      cases hd : d.get (100000 + n) with
      | none => rfl
      | some g => have := (h4 _ (GoMap.mem_of_get hd)).1; simp at this
    have hc : (withGlyphs d o).checkMask wide = .ok () := by
      have : (withGlyphs d o).checkMask wide = fresh.checkMask wide := rfl
      rw [this]; decide +kernel
    have e : (withGlyphs d o).addGlyph [100000 + n] wide =
        .ok (withGlyphs (d.set (100000 + n) wideGlyph) (o ++ [100000 + n]), 100000 + n) := by
      unfold Builder.addGlyph
      rw [if_neg (by show ¬ d.length ≥ 56789; omega), hc, Res.ok_bind]
      have hf : ((([100000 + n].take 4).find? fun u => ((withGlyphs d o).glyphData.get u).isNone &&
          u != FontModel.glyphMissing)) = some (100000 + n) := by
        have h5 : (100000 + n != FontModel.glyphMissing) = true := by
          simp only [FontModel.glyphMissing, bne_iff_ne]; omega
        have h6 : ((withGlyphs d o).glyphData.get (100000 + n)).isNone = true := by
          show (d.get (100000 + n)).isNone = true
          rw [hnone]; rfl
        simp only [List.take, List.find?, h5, h6, Bool.and_self]
      rw [hf]
      rfl
    refine ⟨_, _, hr.call (.addGlyph e), ?_, by simp [h2], ?_, ?_⟩
    · rw [GoMap.length_set_new _ fun e he => by have := (h4 e he).1; omega, h1]
    · intro u hu
      by_cases hu' : u = 100000 + n
      · rw [hu']; exact GoMap.get_set_self ..
      · rw [GoMap.get_set_ne _ _ hu']
        rcases List.mem_append.1 hu with hu | hu
        · exact h3 u hu
        · exact absurd (List.mem_singleton.1 hu) hu'
    · intro e he
      rcases GoMap.mem_set he with he | rfl
      · have := h4 e he; exact ⟨by omega, this.2⟩
      · exact ⟨by simp, rfl⟩

/-- The builder after the dye `main` has been added. -/
abbrev withDye (d : GoMap Nat GlyphData) (o : List Nat) : Builder :=
  { withGlyphs d o with dyes := [⟨ascii "main", [255]⟩] }

theorem withDye_masks {d : GoMap Nat GlyphData} : ∀ {o l : List Nat}, (∀ u ∈ l, d.get u = some wideGlyph) →
    ∃ blocks, mapRes ((withDye d o).glyphBlock env) l = .ok blocks ∧ (blocks.map List.length).sum = 304 * l.length
  | _, [], _ => ⟨[], rfl, rfl⟩
  | o, u :: l, h => by
    obtain ⟨blocks, h1, h2⟩ := withDye_masks (o := o) (l := l) fun v hv => h v (by simp [hv])
    obtain ⟨x, hx, hl⟩ := wide_block
    have e : (withDye d o).glyphBlock env u = .ok x := by
      have hg : (withDye d o).glyphData.get u = some wideGlyph := h u (by simp)
      have hp : (withDye d o).placementBytes wideGlyph.placement = [50] := rfl
      rw [Builder.glyphBlock, Builder.glyph, hg]
      simp only [Res.ok_bind]
      rw [hp]
      exact hx
    refine ⟨x :: blocks, by rw [mapRes, e, Res.ok_bind, h1]; rfl, ?_⟩
    simp only [List.map_cons, List.sum_cons, h2, hl, List.length_cons]
    omega

theorem withDye_named {d : GoMap Nat GlyphData} : ∀ {o l : List Nat}, (∀ u ∈ l, d.get u = some wideGlyph) →
    (withDye d o).namedLoop l = .ok []
  | _, [], _ => rfl
  | o, u :: l, h => by
    have hg : (withDye d o).glyphData.get u = some wideGlyph := h u (by simp)
    rw [Builder.namedLoop, withDye_named (l := l) fun v hv => h v (by simp [hv]), Builder.glyph, hg]
    rfl

theorem kernSection_nil (b : Builder) : b.kernSection [] [] = .ok [0, 0, 0] := by
  simp [Builder.kernSection, mapRes, GoMap.keys, isort]
  rfl

theorem sec_hh (d : GoMap Nat GlyphData) (o : List Nat) : ∃ x, (withGlyphs d o).headerSection = .ok x ∧ x.length ≤ 1000 :=
  small_of (r := (withGlyphs [] []).headerSection) (by decide +kernel)

theorem sec_h1 (d : GoMap Nat GlyphData) (o : List Nat) : ∃ x, (withDye d o).dyesSection = .ok x ∧ x.length ≤ 1000 :=
  small_of (r := (withDye [] []).dyesSection) (by decide +kernel)

theorem sec_h2 (d : GoMap Nat GlyphData) (o : List Nat) : ∃ x, (withDye d o).palettesSection = .ok x ∧ x.length ≤ 1000 :=
  small_of (r := (withDye [] []).palettesSection) (by decide +kernel)

theorem sec_h5 (d : GoMap Nat GlyphData) (o : List Nat) : ∃ x, Builder.wordsSection env [] = .ok x ∧ x.length ≤ 1000 :=
  small_of (by decide +kernel)

theorem sec_h6 (d : GoMap Nat GlyphData) (o : List Nat) : ∃ x, (withDye d o).settingNamesSection = .ok x ∧ x.length ≤ 1000 :=
  small_of (r := (withDye [] []).settingNamesSection) (by decide +kernel)

theorem sec_h7 (d : GoMap Nat GlyphData) (o : List Nat) : ∃ x, (withDye d o).settingDefsSection [] [] = .ok x ∧ x.length ≤ 1000 :=
  small_of (r := (withDye [] []).settingDefsSection [] []) (by decide +kernel)

theorem sec_h8 (d : GoMap Nat GlyphData) (o : List Nat) : ∃ x, (withDye d o).switchesSection = .ok x ∧ x.length ≤ 1000 :=
  small_of (r := (withDye [] []).switchesSection) (by decide +kernel)

theorem sec_h9 (d : GoMap Nat GlyphData) (o : List Nat) : ∃ x, (∀ n, (withDye d o).mappingSection n = .ok x) ∧ x.length ≤ 1000 :=
  ⟨[0, 0], fun n => by
      have hr : (withDye d o).runeMapping = [] := rfl
      unfold Builder.mappingSection
      rw [hr]
      simp [GoMap.keys, isort, Builder.entriesLoop, ends24, FontModel.maxGlyphs]
      rfl, by decide⟩

theorem sec_h10 (d : GoMap Nat GlyphData) (o : List Nat) : ∃ x, (withDye d o).conditionsSection = .ok x ∧ x.length ≤ 1000 :=
  small_of (r := (withDye [] []).conditionsSection) (by decide +kernel)

theorem sec_h11 (d : GoMap Nat GlyphData) (o : List Nat) : ∃ x, (withDye d o).utf8SetsSection = .ok x ∧ x.length ≤ 1000 :=
  small_of (r := (withDye [] []).utf8SetsSection) (by decide +kernel)

theorem sec_h12 (d : GoMap Nat GlyphData) (o : List Nat) : ∃ x, (withDye d o).glyphSetsSection = .ok x ∧ x.length ≤ 1000 :=
  small_of (r := (withDye [] []).glyphSetsSection) (by decide +kernel)

theorem sec_h13 (d : GoMap Nat GlyphData) (o : List Nat) : ∃ x, Builder.rulesSection (Builder.ruleBytes Builder.noGroup Builder.runeElem) (withDye d o).utf8Rules = .ok x ∧
    x.length ≤ 1000 :=
  small_of (r := Builder.rulesSection (Builder.ruleBytes Builder.noGroup Builder.runeElem) []) (by decide +kernel)

theorem sec_h14 (d : GoMap Nat GlyphData) (o : List Nat) : ∃ x, Builder.rulesSection (Builder.ruleBytes (withDye d o).groupRef (withDye d o).glyphElem)
    (withDye d o).glyphRules = .ok x ∧ x.length ≤ 1000 :=
  by
    have hr : (withDye d o).glyphRules = [] := rfl
    refine ⟨[0, 0], ?_, by decide⟩
    rw [hr]
    simp [Builder.rulesSection, Builder.rulesLoop, ends24]
    rfl

theorem sec_h15 (d : GoMap Nat GlyphData) (o : List Nat) : ∃ x, (withDye d o).kernSection (withDye d o).horzKern (withDye d o).horzKern = .ok x ∧
    x.length ≤ 1000 :=
  ⟨_, kernSection_nil _, by decide⟩

theorem sec_h16 (d : GoMap Nat GlyphData) (o : List Nat) : ∃ x, (withDye d o).kernSection (withDye d o).vertKern (withDye d o).horzKern = .ok x ∧
    x.length ≤ 1000 :=
  ⟨_, kernSection_nil _, by decide⟩

theorem sec_hm (d : GoMap Nat GlyphData) (o : List Nat) : (withGlyphs d o).metricsStatus = .ok () := rfl

theorem sec_hdye (d : GoMap Nat GlyphData) (o : List Nat) :
    (withGlyphs d o).addDye (ascii "main") [255] = .ok (withDye d o) := rfl

theorem sec_h5' (d : GoMap Nat GlyphData) (o : List Nat) : (withDye d o).settingWords env = .ok ([], []) := rfl

theorem sec_h3 {d : GoMap Nat GlyphData} {o : List Nat} (h : ∀ u ∈ o, d.get u = some wideGlyph) :
    ∃ x, (withDye d o).glyphNamesSection = .ok x ∧ x.length ≤ 1000 := by
    refine ⟨[0, 0], ?_, by decide⟩
    have e := withDye_named (o := o) h
    rw [Builder.glyphNamesSection]
    show ((withDye d o).namedLoop o >>= _) = _
    rw [e, Res.ok_bind, if_pos rfl]
    rfl

theorem sec_h4 {d : GoMap Nat GlyphData} {o : List Nat} (h : ∀ u ∈ o, d.get u = some wideGlyph) :
    ∃ x, (withDye d o).glyphMasksSection env = .ok x ∧ x.length = 307 * o.length := by
    obtain ⟨blocks, hb, hs⟩ := withDye_masks (o := o) h
    refine ⟨_, by rw [Builder.glyphMasksSection]; show (mapRes _ o >>= _) = _; rw [hb, Res.ok_bind]; rfl, ?_⟩
    rw [List.length_append, ends24_length, flatten_length, hs, List.length_map, (mapRes_ok hb).1]
    omega

/-- `Build` from its sections. -/
theorem build_of {b b1 : Builder} {words bi : GoMap Bytes Int}
    {header dyes pal nam mas wo sn sd sw ma co us gs ur gr hk vk : Bytes} {K : Nat}
    (c1 : b.glyphData.length ≤ 56789) (c2 : b.glyphData.length = b.glyphOrder.length) (c3 : b.glyphData.length ≠ 0)
    (hh : b.headerSection = .ok header) (hm : b.metricsStatus = .ok ()) (c4 : b.dyes.length + b.palettes.length = 0)
    (hdye : b.addDye (ascii "main") [255] = .ok b1)
    (h1 : b1.dyesSection = .ok dyes) (h2 : b1.palettesSection = .ok pal) (h3 : b1.glyphNamesSection = .ok nam)
    (h4 : b1.glyphMasksSection env = .ok mas) (h5' : b1.settingWords env = .ok (words, bi))
    (h5 : Builder.wordsSection env words = .ok wo) (h6 : b1.settingNamesSection = .ok sn)
    (h7 : b1.settingDefsSection bi words = .ok sd) (h8 : b1.switchesSection = .ok sw)
    (h9 : ∀ n, n ≤ K → b1.mappingSection n = .ok ma) (h10 : b1.conditionsSection = .ok co)
    (h11 : b1.utf8SetsSection = .ok us) (h12 : b1.glyphSetsSection = .ok gs)
    (h13 : Builder.rulesSection (Builder.ruleBytes Builder.noGroup Builder.runeElem) b1.utf8Rules = .ok ur)
    (h14 : Builder.rulesSection (Builder.ruleBytes b1.groupRef b1.glyphElem) b1.glyphRules = .ok gr)
    (c5 : b1.horzKern = []) (c6 : b1.vertKern = [])
    (h15 : b1.kernSection b1.horzKern b1.horzKern = .ok hk) (h16 : b1.kernSection b1.vertKern b1.horzKern = .ok vk)
    (hme : b1.metricsSection.length = 15)
    (hK : header.length + 15 + dyes.length + pal.length + nam.length + mas.length + wo.length + sn.length +
      sd.length + sw.length ≤ K)
    (hs : header.length + 15 + dyes.length + pal.length + nam.length + mas.length + wo.length + sn.length +
      sd.length + sw.length + ma.length + co.length + us.length + gs.length + ur.length + gr.length + hk.length +
      vk.length ≤ 33554432) :
    ∃ r, b.build env = .ok r ∧ r.2.offWords = r.2.offGlyphMasks + mas.length ∧
      r.2.offConditions = r.2.offMapping + ma.length := by
  unfold Builder.build
  rw [if_neg (by rw [FontModel.maxGlyphs]; omega), if_neg (by omega), if_neg (by omega), hh, Res.ok_bind, hm,
    Res.ok_bind, if_neg (by omega), if_pos c4, hdye]
  simp only [Res.ok_bind, h1, h2, h3, h4, h5, h5', h6, h7, h8]
  rw [h9 _ ?_]
  simp only [Res.ok_bind, h10, h11, h12, h13, h14, h15, h16]
  rw [c5, c6, if_neg (by simp), if_neg (by simp), if_neg ?_]
  · exact ⟨_, rfl, by simp only [List.length_append], by simp only [List.length_append]⟩
  · simp only [List.length_append, show FontModel.maxFontDataSize = 33554432 from rfl]
    omega
  · simp only [List.length_append]
    omega

theorem many_built {d : GoMap Nat GlyphData} {o : List Nat} (hd : d.length = o.length) (h0 : o ≠ [])
    (hl : o.length ≤ 56789) (h : ∀ u ∈ o, d.get u = some wideGlyph) :
    ∃ r, (withGlyphs d o).build env = .ok r ∧
      r.2.offWords - (r.2.offGlyphMasks + 3 * o.length) = 304 * o.length := by
  have hpos : 0 < o.length := List.length_pos_iff.2 h0
  obtain ⟨header, hh, hhl⟩ := sec_hh d o
  have hm := sec_hm d o
  have hdye := sec_hdye d o
  obtain ⟨dyes, h1, h1l⟩ := sec_h1 d o
  obtain ⟨pal, h2, h2l⟩ := sec_h2 d o
  obtain ⟨nam, h3, h3l⟩ := sec_h3 h
  obtain ⟨mas, h4, h4l⟩ := sec_h4 h
  obtain ⟨wo, h5, h5l⟩ := sec_h5 d o
  have h5' := sec_h5' d o
  obtain ⟨sn, h6, h6l⟩ := sec_h6 d o
  obtain ⟨sd, h7, h7l⟩ := sec_h7 d o
  obtain ⟨sw, h8, h8l⟩ := sec_h8 d o
  obtain ⟨ma, h9, h9l⟩ := sec_h9 d o
  obtain ⟨co, h10, h10l⟩ := sec_h10 d o
  obtain ⟨us, h11, h11l⟩ := sec_h11 d o
  obtain ⟨gs, h12, h12l⟩ := sec_h12 d o
  obtain ⟨ur, h13, h13l⟩ := sec_h13 d o
  obtain ⟨gr, h14, h14l⟩ := sec_h14 d o
  obtain ⟨hk, h15, h15l⟩ := sec_h15 d o
  obtain ⟨vk, h16, h16l⟩ := sec_h16 d o
  obtain ⟨r, hr, he, _⟩ := build_of (b := withGlyphs d o) (K := 33554432) (by show d.length ≤ 56789; omega) hd
    (by show d.length ≠ 0; omega) hh hm rfl hdye h1 h2 h3 h4 h5' h5 h6 h7 h8 (fun n _ => h9 n) h10 h11 h12 h13 h14 rfl rfl h15 h16
    (by simp [Builder.metricsSection, Helpers.appendUint16LE]) (by omega) (by omega)
  exact ⟨r, hr, by omega⟩

end Sample
