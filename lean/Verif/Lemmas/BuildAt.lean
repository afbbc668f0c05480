import Verif.Lemmas.Header
import Verif.Lemmas.GoMap

/-! # Where the sections of a built font are -/

namespace BuilderModel
open Go Helpers Spec FontModel

namespace Builder

/-- `b'` is `b`, with the main dye when there was no color. -/
theorem main_eq {b b' : Builder}
    (h : (if b.dyes.length + b.palettes.length = 0 then b.addDye (ascii "main") [255] else .ok b)
      = .ok b') :
    b' = { b with dyes := if b.dyes = [] ∧ b.palettes = [] then [⟨ascii "main", [255]⟩] else b.dyes } := by
  split at h
  · rename_i h0
    have h1 : b.dyes = [] := by apply List.eq_nil_of_length_eq_zero; omega
    have h2 : b.palettes = [] := by apply List.eq_nil_of_length_eq_zero; omega
    simp only [addDye, Res.bind_eq_ok, ite_err, Res.pure_eq, Res.ok.injEq] at h
    obtain ⟨_, _, _, rfl⟩ := h
    simp [h1, h2]
  · rename_i h0
    have : ¬ (b.dyes = [] ∧ b.palettes = []) := by
      rintro ⟨h1, h2⟩; simp [h1, h2] at h0
    simp only [Res.ok.injEq] at h
    rw [if_neg this, ← h]

end Builder

namespace Built
variable {env : Env} {b b' : Builder} {f : FontModel.Font} {s : Parts} {w bi : GoMap Bytes Int}

theorem b'_eq (h : Built env b b' f s w bi) : b' = { b with dyes := b'.dyes } := by
  have := Builder.main_eq h.main
  rw [this]

theorem at_ (h : Built env b b' f s w bi) (k : Nat) (x : Bytes)
    (hx : s.list.drop k = x :: s.list.drop (k + 1)) : At f.data (s.pre k).length x := by
  rw [h.font]
  show At s.list.flatten _ _
  rw [s.flatten_split k x hx]
  exact At.intro _ _ _

theorem atMetrics (h : Built env b b' f s w bi) : At f.data f.offMetrics s.metrics := by
  have := h.at_ 1 s.metrics rfl
  rw [h.font] at this ⊢; exact this
theorem atDyes (h : Built env b b' f s w bi) : At f.data f.offDyes s.dyes := by
  have := h.at_ 2 s.dyes rfl
  rw [h.font] at this ⊢; exact this
theorem atPalettes (h : Built env b b' f s w bi) : At f.data f.offPalettes s.palettes := by
  have := h.at_ 3 s.palettes rfl
  rw [h.font] at this ⊢; exact this
theorem atGlyphNames (h : Built env b b' f s w bi) : At f.data f.offGlyphNames s.glyphNames := by
  have := h.at_ 4 s.glyphNames rfl
  rw [h.font] at this ⊢; exact this
theorem atGlyphMasks (h : Built env b b' f s w bi) : At f.data f.offGlyphMasks s.glyphMasks := by
  have := h.at_ 5 s.glyphMasks rfl
  rw [h.font] at this ⊢; exact this
theorem atWords (h : Built env b b' f s w bi) : At f.data f.offWords s.words := by
  have := h.at_ 6 s.words rfl
  rw [h.font] at this ⊢; exact this
theorem atSettingNames (h : Built env b b' f s w bi) : At f.data f.offSettingNames s.settingNames := by
  have := h.at_ 7 s.settingNames rfl
  rw [h.font] at this ⊢; exact this
theorem atSettingDefs (h : Built env b b' f s w bi) : At f.data f.offSettingDefs s.settingDefs := by
  have := h.at_ 8 s.settingDefs rfl
  rw [h.font] at this ⊢; exact this
theorem atSwitches (h : Built env b b' f s w bi) : At f.data f.offSwitches s.switches := by
  have := h.at_ 9 s.switches rfl
  rw [h.font] at this ⊢; exact this
theorem atMapping (h : Built env b b' f s w bi) : At f.data f.offMapping s.mapping := by
  have := h.at_ 10 s.mapping rfl
  rw [h.font] at this ⊢; exact this
theorem atConditions (h : Built env b b' f s w bi) : At f.data f.offConditions s.conditions := by
  have := h.at_ 11 s.conditions rfl
  rw [h.font] at this ⊢; exact this
theorem atUtf8Sets (h : Built env b b' f s w bi) : At f.data f.offUtf8Sets s.utf8Sets := by
  have := h.at_ 12 s.utf8Sets rfl
  rw [h.font] at this ⊢; exact this
theorem atGlyphSets (h : Built env b b' f s w bi) : At f.data f.offGlyphSets s.glyphSets := by
  have := h.at_ 13 s.glyphSets rfl
  rw [h.font] at this ⊢; exact this
theorem atUtf8Rules (h : Built env b b' f s w bi) : At f.data f.offUtf8Rules s.utf8Rules := by
  have := h.at_ 14 s.utf8Rules rfl
  rw [h.font] at this ⊢; exact this
theorem atGlyphRules (h : Built env b b' f s w bi) : At f.data f.offGlyphRules s.glyphRules := by
  have := h.at_ 15 s.glyphRules rfl
  rw [h.font] at this ⊢; exact this
theorem atHorzKern (h : Built env b b' f s w bi) : At f.data f.offHorzKern s.horzKern := by
  have := h.at_ 16 s.horzKern rfl
  rw [h.font] at this ⊢; exact this
theorem atVertKern (h : Built env b b' f s w bi) : At f.data f.offVertKern s.vertKern := by
  have := h.at_ 17 s.vertKern rfl
  rw [h.font] at this ⊢; exact this

/-- Metrics, byte by byte. -/
theorem metric (h : Built env b b' f s w bi) {i : Nat} (hi : i < 15) :
    FontModel.rd8 f.data (f.offMetrics + i) =
      .ok (b'.metricsSection[i]'(by simpa [Builder.metricsSection, appendUint16LE] using hi)).toNat := by
  have ha := h.atMetrics
  rw [h.metrics] at ha
  have hl : b'.metricsSection.length = 15 := by simp [Builder.metricsSection, appendUint16LE]
  rw [rd8_eq (by have := ha.len; omega), ha.get (by omega)]

theorem numGlyphs (h : Built env b b' f s w bi) : f.numGlyphs = .ok b.glyphOrder.length := by
  have ha := h.atMetrics
  rw [h.metrics, Builder.metricsSection] at ha
  have hb : b'.glyphData = b.glyphData := by rw [h.b'_eq]
  rw [FontModel.Font.numGlyphs, ha.left.rd16, hb, h.order]
  have := h.count
  have := h.order
  rw [FontModel.maxGlyphs] at *
  congr 1; omega

theorem hasVertLayout (h : Built env b b' f s w bi) : f.hasVertLayout = .ok b.hasVertLayout := by
  have hb : b'.hasVertLayout = b.hasVertLayout := by rw [h.b'_eq]
  rw [FontModel.Font.hasVertLayout, h.metric (i := 2) (by omega), ← hb]
  simp only [Builder.metricsSection, appendUint16LE, Res.ok_bind, Res.pure_eq, List.nil_append,
    List.cons_append, List.getElem_cons_succ, List.getElem_cons_zero]
  cases b'.hasVertLayout <;> rfl

/-- The end of a section is the start of the next. -/
theorem offWords (h : Built env b b' f s w bi) : f.offWords = f.offGlyphMasks + s.glyphMasks.length := by
  rw [h.font]
  simp only [Parts.font, Parts.pre, Parts.list, List.take, List.flatten_cons, List.flatten_nil,
    List.length_append, List.length_nil]
  omega

theorem glyphMasks_eq (h : Built env b b' f s w bi) :
    ∃ blocks, mapRes (b.glyphBlock env) b.glyphOrder = .ok blocks ∧
      s.glyphMasks = ends24 0 (blocks.map List.length) ++ blocks.flatten := by
  have hg := h.glyphMasks
  simp only [Builder.glyphMasksSection, Res.bind_eq_ok, Res.pure_eq, Res.ok.injEq] at hg
  obtain ⟨blocks, hb, he⟩ := hg
  refine ⟨blocks, ?_, he.symm⟩
  have e1 : b'.glyphOrder = b.glyphOrder := by rw [h.b'_eq]
  have e2 : Builder.glyphBlock env b' = Builder.glyphBlock env b := by rw [h.b'_eq]; rfl
  rw [← e1, ← e2]; exact hb

theorem masks_at (h : Built env b b' f s w bi) {blocks : List Bytes}
    (he : s.glyphMasks = ends24 0 (blocks.map List.length) ++ blocks.flatten)
    (hl : blocks.length = b.glyphOrder.length)
    (hsize : f.offWords - (f.offGlyphMasks + 3 * b.glyphOrder.length) ≤ 16777215) {i : Nat} (hi : i < blocks.length) :
    start24 f.data f.offGlyphMasks i = psum (blocks.map List.length) i ∧
    end24 f.data f.offGlyphMasks i = psum (blocks.map List.length) (i + 1) ∧
    At f.data (f.offGlyphMasks + 3 * b.glyphOrder.length + psum (blocks.map List.length) i) blocks[i] := by
  have ha := h.atGlyphMasks
  rw [he] at ha
  have hw := h.offWords
  rw [he, List.length_append, ends24_length, flatten_length, List.length_map] at hw
  have hb := bounds24 ha.left (by omega) (i := i) (by simpa using hi)
  refine ⟨hb.1, hb.2, ?_⟩
  have := ha.right.block hi
  rw [ends24_length, List.length_map, hl] at this
  exact this

end Built
end BuilderModel
