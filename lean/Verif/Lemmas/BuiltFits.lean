import Verif.Lemmas.BuiltAccept
import Verif.Lemmas.Mapping

/-! # Fonts whose sections are where their counts and end offsets put them -/

namespace BuilderModel
open Go Helpers Spec FontModel

/-- Counts of colors. -/
theorem colors_counts {D : Bytes} {o : Nat} {l : List Nat} {ends rest : Bytes}
    (h : At D o ([byte l.length] ++ (ends ++ rest))) (he : ends8 0 l = .ok ends) (hn : l.length ≤ 255) :
    byteAt D o = l.length ∧ (l ≠ [] → byteAt D (o + l.length) = l.sum) := by
  obtain ⟨e1, e2, e3⟩ := ends8_ok he
  refine ⟨?_, fun h0 => ?_⟩
  · have := h.left.byte
    rw [byte_val] at this; omega
  · have hl : 0 < l.length := List.length_pos_iff.2 h0
    have := h.right.left.get (i := l.length - 1) (by omega)
    rw [e3 _ (by omega), Nat.sub_add_cancel hl, psum_all] at this
    rw [show o + l.length = o + [byte l.length].length + (l.length - 1) by simp; omega, this]
    omega

namespace Built
variable {env : Env} {b b' : Builder} {f : FontModel.Font} {s : Parts} {w bi : GoMap Bytes Int}

theorem dyes_fit (h : Built env b b' f s w bi) (hL : f.offPalettes = f.offDyes + dyesSize f.data f.offDyes) :
    (b'.dyes.map fun d => d.name.length).sum ≤ 65535 := by
  obtain ⟨-, -, o3, -⟩ := h.offs
  have hx := h.dyes
  simp only [Builder.dyesSection, Res.bind_eq_ok, Res.pure_eq, Res.ok.injEq] at hx
  obtain ⟨ends, he, hx⟩ := hx
  have ha := h.atDyes
  have hlen := congrArg List.length hx
  rw [← hx] at ha
  have hn : b'.dyes.length ≤ 255 := by
    have := h.sections
    have := Builder.main_eq h.main
    rw [this]
    simp only
    split
    · simp
    · omega
  have hl : (b'.dyes.map fun d => d.alphas.length).length = b'.dyes.length := by simp
  have hd : (b'.dyes.map fun d => d.alphas).flatten.length = (b'.dyes.map fun d => d.alphas.length).sum := by
    rw [List.length_flatten, List.map_map]; rfl
  have hnl : (b'.dyes.map fun d => d.name).flatten.length = (b'.dyes.map fun d => d.name.length).sum := by
    rw [List.length_flatten, List.map_map]; rfl
  obtain ⟨c1, c2⟩ := colors_counts (l := b'.dyes.map fun d => d.alphas.length)
    (by simpa only [hl, List.append_assoc] using ha) he (by omega)
  rw [hl] at c1 c2
  have hel := (ends8_ok he).1
  simp only [List.length_append, List.length_singleton, ends16_length, hel, hd, hnl, hl, List.length_map] at hlen
  by_cases h0 : b'.dyes = []
  · simp [h0]
  · rw [dyesSize] at hL
    simp only [c1, if_neg (show ¬ b'.dyes.length = 0 by simpa using h0), c2 (by simpa using h0)] at hL
    have := u16At_lt f.data (f.offDyes + 1 + b'.dyes.length + (b'.dyes.map fun d => d.alphas.length).sum +
      2 * (b'.dyes.length - 1))
    omega

theorem palettes_fit (h : Built env b b' f s w bi)
    (hL : f.offGlyphNames = f.offPalettes + palettesSize f.data f.offPalettes) :
    (b'.palettes.map fun p => p.name.length).sum ≤ 65535 := by
  obtain ⟨-, -, -, o4, -⟩ := h.offs
  have hx := h.palettes
  simp only [Builder.palettesSection, Res.bind_eq_ok, Res.pure_eq, Res.ok.injEq] at hx
  obtain ⟨ends, he, hx⟩ := hx
  have ha := h.atPalettes
  have hlen := congrArg List.length hx
  rw [← hx] at ha
  have hn : b'.palettes.length ≤ 255 := by
    have := h.sections
    rw [h.b'_eq]
    simp only
    omega
  have hl : (b'.palettes.map fun p => p.colors.length).length = b'.palettes.length := by simp
  have hd : (b'.palettes.map fun p => (p.colors.map Builder.rgbaBytes).flatten).flatten.length =
      4 * (b'.palettes.map fun p => p.colors.length).sum := by
    rw [List.length_flatten, List.map_map, ← sum_mul, List.map_map]
    congr 1
    apply List.map_congr_left
    intro p _
    exact (rgba_length p).trans (by simp [Nat.mul_comm])
  have hnl : (b'.palettes.map fun p => p.name).flatten.length = (b'.palettes.map fun p => p.name.length).sum := by
    rw [List.length_flatten, List.map_map]; rfl
  obtain ⟨c1, c2⟩ := colors_counts (l := b'.palettes.map fun p => p.colors.length)
    (by simpa only [hl, List.append_assoc] using ha) he (by omega)
  rw [hl] at c1 c2
  have hel := (ends8_ok he).1
  simp only [List.length_append, List.length_singleton, ends16_length, hel, hd, hnl, hl, List.length_map] at hlen
  by_cases h0 : b'.palettes = []
  · simp [h0]
  · rw [palettesSize] at hL
    simp only [c1, if_neg (show ¬ b'.palettes.length = 0 by simpa using h0), c2 (by simpa using h0)] at hL
    have := u16At_lt f.data (f.offPalettes + 1 + b'.palettes.length + 4 * (b'.palettes.map fun p => p.colors.length).sum +
      2 * (b'.palettes.length - 1))
    omega

/-- When the sections are where their counts and end offsets put them, these offsets have not wrapped around. -/
theorem fits_of_layout (h : Built env b b' f s w bi) (hk : Kept b) (hL : Layout f.data f) : SizesFit b' f := by
  have e1 : b'.glyphOrder = b.glyphOrder := by rw [h.b'_eq]
  have e2 : b'.runeMapping = b.runeMapping := by rw [h.b'_eq]
  refine ⟨h.dyes_fit hL.palettes, h.palettes_fit hL.glyphNames, ?_, ?_⟩
  · have := hL.words
    rw [h.metrics_facts.2.1, masksSize] at this
    have := u24At_lt f.data (f.offGlyphMasks + 3 * (b.glyphOrder.length - 1))
    rw [e1]
    omega
  · have hr : ∀ c ∈ b.runeMapping.keys, c < 2147483648 := by
      intro c hc
      obtain ⟨e, he, rfl⟩ := List.mem_map.1 hc
      exact hk.mapping.runes e he
    obtain ⟨cs, blocks, t⟩ := built_table h hk.mapping.keys hr
    have hn := t.num
    rw [nEntries, t.count] at hn
    have hc := hL.conditions
    rw [mappingSize] at hc
    simp only [hn] at hc
    have := u24At_lt f.data (f.offMapping + 2 + 4 * b.runeMapping.length + 3 * (b.runeMapping.length - 1))
    rw [e2]
    split at hc <;> omega

end Built
end BuilderModel
