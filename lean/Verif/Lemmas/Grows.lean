import Verif.Lemmas.BuildNeeds

/-! # What the methods never take back -/

namespace Spec
open Go BuilderModel EditionModel

/-- Lists that only grow. -/
structure Grows (b b' : Builder) : Prop where
  dyes : b.dyes <+: b'.dyes
  palettes : b.palettes <+: b'.palettes
  utf8Rules : b.utf8Rules <+: b'.utf8Rules
  glyphRules : b.glyphRules <+: b'.glyphRules
  sets : b'.glyphSets.length + b.glyphSetsOrder.length ≤ b.glyphSets.length + b'.glyphSetsOrder.length
  glyphs : b.glyphOrder <+: b'.glyphOrder
  setOrder : b.glyphSetsOrder <+: b'.glyphSetsOrder

theorem Grows.refl (b : Builder) : Grows b b :=
  ⟨List.prefix_refl _, List.prefix_refl _, List.prefix_refl _, List.prefix_refl _, Nat.le_refl _, List.prefix_refl _, List.prefix_refl _⟩

theorem Grows.trans {b c d : Builder} (h : Grows b c) (h' : Grows c d) : Grows b d :=
  ⟨h.1.trans h'.1, h.2.trans h'.2, h.3.trans h'.3, h.4.trans h'.4, by have := h.5; have := h'.5; omega,
    h.6.trans h'.6, h.7.trans h'.7⟩

local macro "grows" : tactic => `(tactic|
  exact ⟨List.prefix_refl _, List.prefix_refl _, List.prefix_refl _, List.prefix_refl _, Nat.le_refl _, List.prefix_refl _, List.prefix_refl _⟩)

theorem Grows.setSet {b : Builder} {uid : Nat} {gs gs' : GlyphSet} (hg : b.glyphSets.get uid = some gs) :
    Grows b { b with glyphSets := b.glyphSets.set uid gs' } :=
  ⟨List.prefix_refl _, List.prefix_refl _, List.prefix_refl _, List.prefix_refl _, by
    rw [GoMap.length_set_mem hg], List.prefix_refl _, List.prefix_refl _⟩

theorem Call.grows {b b' : Builder} (h : Calls b) (hc : Call b b') : Grows b b' := by
  cases hc with
  | setFirstVerDate hc => obtain rfl := isValid_ok (b := b) hc; grows
  | setMajorVerDate hc => obtain rfl := isValid_ok (b := b) hc; grows
  | setMinorVerDate hc => obtain rfl := isValid_ok (b := b) hc; grows
  | raiseMajorVersion => grows
  | raiseMinorVersion => grows
  | setVersion => grows
  | setName hc =>
    simp only [Builder.setName, ite_err, Res.bind_eq_ok, Res.pure_eq, Res.ok.injEq] at hc
    obtain ⟨hl, _, _, rfl⟩ := hc
    grows
  | setFamily hc =>
    simp only [Builder.setFamily, ite_err, Res.bind_eq_ok, Res.pure_eq, Res.ok.injEq] at hc
    obtain ⟨hl, _, _, rfl⟩ := hc
    grows
  | setAuthor hc =>
    simp only [Builder.setAuthor, ite_err, Res.bind_eq_ok, Res.pure_eq, Res.ok.injEq] at hc
    obtain ⟨hl, _, _, rfl⟩ := hc
    grows
  | setAbout hc =>
    simp only [Builder.setAbout, ite_err, Res.bind_eq_ok, Res.pure_eq, Res.ok.injEq] at hc
    obtain ⟨hl, _, _, rfl⟩ := hc
    grows
  | setVertLayoutUsed => grows
  | setMonoWidth => grows
  | setAscent => grows
  | setExtraAscent => grows
  | setDescent => grows
  | setExtraDescent => grows
  | setMidlineAscent => grows
  | setUppercaseAscent => grows
  | setHorzInterspacing => grows
  | setVertInterspacing => grows
  | setLineGap => grows
  | setVertLineWidth hc =>
    simp only [Builder.setVertLineWidth, ite_err, Res.ok.injEq] at hc
    obtain ⟨_, _, rfl⟩ := hc; grows
  | setVertLineGap hc =>
    simp only [Builder.setVertLineGap, ite_err, Res.ok.injEq] at hc
    obtain ⟨_, rfl⟩ := hc; grows
  | addGlyph hc =>
    simp only [Builder.addGlyph, Res.bind_eq_ok, ite_err] at hc
    obtain ⟨_, _, _, hc⟩ := hc
    split at hc
    · cases hc
    · simp only [Res.pure_eq, Res.ok.injEq, Prod.mk.injEq] at hc
      obtain ⟨rfl, _⟩ := hc
      exact ⟨List.prefix_refl _, List.prefix_refl _, List.prefix_refl _, List.prefix_refl _, Nat.le_refl _, List.prefix_append _ _, List.prefix_refl _⟩
  | setGlyphPlacement hc =>
    rw [Builder.setGlyphPlacement] at hc
    split at hc
    · cases hc
    · rename_i g hg
      rw [← Res.ok.inj hc]
      grows
  | setGlyphName hc =>
    rw [Builder.setGlyphName] at hc
    split at hc
    · cases hc
    · rename_i g hg
      simp only [Res.bind_eq_ok, Res.pure_eq, Res.ok.injEq] at hc
      obtain ⟨_, hv, rfl⟩ := hc
      grows
  | setKerningPair prev next hv => unfold Builder.setKerningPair; split <;> grows
  | addDye hc =>
    simp only [Builder.addDye, ite_err, Res.bind_eq_ok, Res.pure_eq, Res.ok.injEq] at hc
    obtain ⟨_, _, _, rfl⟩ := hc
    exact ⟨List.prefix_append _ _, List.prefix_refl _, List.prefix_refl _, List.prefix_refl _, Nat.le_refl _, List.prefix_refl _, List.prefix_refl _⟩
  | addPalette hc =>
    simp only [Builder.addPalette, ite_err, Res.bind_eq_ok, Res.pure_eq, Res.ok.injEq] at hc
    obtain ⟨_, _, _, rfl⟩ := hc
    exact ⟨List.prefix_refl _, List.prefix_append _ _, List.prefix_refl _, List.prefix_refl _, Nat.le_refl _, List.prefix_refl _, List.prefix_refl _⟩
  | addSetting hc =>
    simp only [Builder.addSetting, ite_err, Res.bind_eq_ok, Res.pure_eq, Res.ok.injEq, Prod.mk.injEq] at hc
    obtain ⟨_, _, _, _, _, _, _, rfl, _⟩ := hc
    grows
  | addSwitch hc =>
    simp only [Builder.addSwitch, ite_err, Res.bind_eq_ok, Res.pure_eq, Res.ok.injEq, Prod.mk.injEq] at hc
    obtain ⟨_, hl, _, hs, rfl, _⟩ := hc
    grows
  | map hr hc =>
    simp only [Builder.map, ite_err, Res.ok.injEq] at hc
    obtain ⟨h1, _, rfl⟩ := hc
    grows
  | mapGroup hr hc =>
    simp only [Builder.mapGroup, ite_err, Res.ok.injEq] at hc
    obtain ⟨h1, h2, _, _, rfl⟩ := hc
    grows
  | mapWithSwitchSingles hr hc =>
    simp only [Builder.mapWithSwitchSingles, ite_err, ite_panic, Res.bind_eq_ok, Res.pure_eq, Res.ok.injEq] at hc
    obtain ⟨h1, h2, _, n, h4, h5, rfl⟩ := hc
    grows
  | mapWithSwitch hr hc =>
    simp only [Builder.mapWithSwitch, ite_err, ite_panic, Res.bind_eq_ok, Res.pure_eq, Res.ok.injEq] at hc
    obtain ⟨h1, h2, _, n, h4, h5, ⟨_, _⟩, h6, hc⟩ := hc
    simp only [ite_err, Res.bind_eq_ok, Res.pure_eq, Res.ok.injEq] at hc
    obtain ⟨_, cases, h7, rfl⟩ := hc
    grows
  | createGlyphSet hc =>
    simp only [Builder.createGlyphSet, ite_err, Res.ok.injEq, Prod.mk.injEq] at hc
    obtain ⟨hl, _, rfl, _⟩ := hc
    refine ⟨List.prefix_refl _, List.prefix_refl _, List.prefix_refl _, List.prefix_refl _, ?_, List.prefix_refl _, List.prefix_append _ _⟩
    have := GoMap.length_set_le b.glyphSets
    simp only [List.length_append, List.length_singleton]
    refine Nat.le_trans (Nat.add_le_add_right (this _ _) _) ?_
    omega
  | removeGlyphSet uid =>
    unfold Builder.removeGlyphSet
    split
    · grows
    · exact ⟨List.prefix_refl _, List.prefix_refl _, List.prefix_refl _, List.prefix_refl _, Nat.add_le_add_right (List.length_filter_le _ _) _, List.prefix_refl _, List.prefix_refl _⟩
  | addGlyphSetRange hc =>
    rw [Builder.addGlyphSetRange] at hc
    split at hc
    · cases hc
    · rename_i gs hg
      simp only [ite_err, Res.ok.injEq] at hc
      obtain ⟨_, _, _, _, rfl⟩ := hc
      exact Grows.setSet hg
  | removeGlyphSetRange uid first last =>
    unfold Builder.removeGlyphSetRange
    split
    · grows
    · rename_i gs hg
      split
      · grows
      · exact Grows.setSet hg
  | addGlyphSetListGlyph hc =>
    rw [Builder.addGlyphSetListGlyph] at hc
    split at hc
    · cases hc
    · rename_i gs hg
      simp only [ite_err, Res.ok.injEq] at hc
      obtain ⟨_, _, _, rfl⟩ := hc
      exact Grows.setSet hg
  | removeGlyphSetListGlyph uid g =>
    unfold Builder.removeGlyphSetListGlyph
    split
    · grows
    · rename_i gs hg
      split
      · grows
      · exact Grows.setSet hg
  | createRuneSet hc =>
    simp only [Builder.createRuneSet, ite_err] at hc
    cases hc.2.2
  | removeRuneSet uid =>
    rw [Builder.removeRuneSet, h.runeSets]; grows
  | addRuneSetRange hc =>
    rw [Builder.addRuneSetRange, h.runeSets] at hc
    cases hc
  | removeRuneSetRange uid first last =>
    rw [Builder.removeRuneSetRange, h.runeSets]; grows
  | addRuneSetListRune hc =>
    rw [Builder.addRuneSetListRune, h.runeSets] at hc
    cases hc
  | removeRuneSetListRune uid c =>
    rw [Builder.removeRuneSetListRune, h.runeSets]; grows
  | addSimpleUtf8RewriteRule _ _ hc =>
    simp only [Builder.addSimpleUtf8Rule, ite_err, Res.bind_eq_ok, Res.pure_eq, Res.ok.injEq] at hc
    obtain ⟨h0, _, l, hl, rfl⟩ := hc
    exact ⟨List.prefix_refl _, List.prefix_refl _, List.prefix_append _ _, List.prefix_refl _, Nat.le_refl _, List.prefix_refl _, List.prefix_refl _⟩
  | addGlyphRewriteRule hc =>
    simp only [Builder.addGlyphRule, ite_err, Res.bind_eq_ok] at hc
    obtain ⟨h1, h2, _, ⟨l, gs, hs⟩, hi, hc⟩ := hc
    simp only [Res.pure_eq, Res.ok.injEq] at hc
    obtain rfl := hc
    exact ⟨List.prefix_refl _, List.prefix_refl _, List.prefix_refl _, List.prefix_append _ _, Nat.le_refl _, List.prefix_refl _, List.prefix_refl _⟩
  | build hc =>
    obtain ⟨s, w, bi, hb⟩ := build_parts hc
    have hm := hb.main
    split at hm
    · simp only [Builder.addDye, ite_err, Res.bind_eq_ok, Res.pure_eq, Res.ok.injEq] at hm
      obtain ⟨_, _, _, rfl⟩ := hm
      exact ⟨List.prefix_append _ _, List.prefix_refl _, List.prefix_refl _, List.prefix_refl _, Nat.le_refl _, List.prefix_refl _, List.prefix_refl _⟩
    · rw [← Res.ok.inj hm]; grows

theorem Grows.setKern {b0 b : Builder} (h : Grows b0 b) {hp vp : GoMap (Nat × Nat) KernPair} {cl : List Int} :
    Grows b0 { b with horzKern := hp, vertKern := vp, kernClasses := cl } :=
  ⟨h.1, h.2, h.3, h.4, h.5, h.6, h.7⟩

theorem Later.edits {e e' : Editor} (he : Edits e) (h : Later e e') : Edits e' := by
  induction h with
  | refl => exact he
  | call _ hc ih => exact .call ih hc
  | clear _ ih => exact .clear ih
  | parse _ hp ih => exact .parse ih hp

theorem Later.grows {e e' : Editor} (he : Edits e) (h : Later e e') : Grows e.builder e'.builder := by
  induction h with
  | refl => exact .refl _
  | call hl hc ih => exact ih.trans (hc.grows (hl.edits he).calls)
  | clear _ ih => exact ih.setKern
  | parse _ hp ih =>
    refine parseEditionData_keeps (I := fun e' => Grows e.builder e'.builder) (fun _ h => h.setKern) ?_ ih hp
    refine editionBody_keeps (fun _ _ h => h) (fun _ _ h => h) (fun _ _ _ h => h) ?_ ?_ ?_ ?_
    · exact fun e h => h.setKern
    · exact fun e i v h _ _ => h.setKern
    · exact fun e u v cls h _ _ => h.setKern
    · exact fun e u v cls h _ _ => h.setKern

theorem Grows.spoiled {b b' : Builder} (h : Grows b b') (hs : Spoiled b) : Spoiled b' := by
  have h1 := h.dyes.length_le
  have h2 := h.palettes.length_le
  have h3 := h.utf8Rules.length_le
  have h4 := h.glyphRules.length_le
  have h5 := h.sets
  rcases hs with hs | hs | hs | hs | ⟨r, hr, hs⟩
  · exact .inl (by omega)
  · exact .inr (.inl (by omega))
  · exact .inr (.inr (.inl (by omega)))
  · exact .inr (.inr (.inr (.inl (by omega))))
  · exact .inr (.inr (.inr (.inr ⟨r, h.glyphRules.subset hr, hs⟩)))

theorem Orderly.not_spoiled {b : Builder} (h : Orderly b) : ¬ Spoiled b := by
  have := h.sections; have := h.sets; have := h.utf8Rules; have := h.glyphRules
  rintro (hs | hs | hs | hs | ⟨r, hr, hs⟩)
  · omega
  · omega
  · omega
  · omega
  · have := h.bodies r hr
    have := h.outputs r hr
    omega

/-- Removing a set that exists spoils the builder. -/
theorem removed_spoiled {b : Builder} (h : Calls b) {uid : Nat} (hr : (b.removeGlyphSet uid).2 = true) :
    Spoiled (b.removeGlyphSet uid).1 := by
  have hp : b.glyphSets.keys.Subperm b.glyphSetsOrder := by
    refine List.subperm_of_subset h.setKeys fun u hu => ?_
    obtain ⟨e, he, rfl⟩ := List.mem_map.1 hu
    exact h.setOrder e he
  have hl := hp.length_le
  simp only [GoMap.keys, List.length_map] at hl
  unfold Builder.removeGlyphSet at hr ⊢
  split at hr
  · cases hr
  · rename_i s hs
    refine .inr (.inl ?_)
    have hm := GoMap.mem_of_get hs
    have : (b.glyphSets.delete uid).length < b.glyphSets.length := by
      rw [GoMap.delete]
      exact List.length_filter_lt_length_iff_exists.2 ⟨_, hm, by simp⟩
    simp only
    omega

end Spec
