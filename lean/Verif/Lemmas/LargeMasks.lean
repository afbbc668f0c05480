import Verif.Lemmas.BuildAt

/-! # Masks of more than 16 MiB -/

namespace BuilderModel
open Go Spec FontModel

/-- The first end offset that does not fit 24 bits. -/
theorem exists_wrap {l : List Nat} (h : 16777215 < l.sum) :
    ∃ i, ∃ hi : i < l.length, psum l i ≤ 16777215 ∧ 16777215 < psum l (i + 1) := by
  have key : ∀ n, n ≤ l.length → 16777215 < psum l n →
      ∃ i, i < n ∧ psum l i ≤ 16777215 ∧ 16777215 < psum l (i + 1) := by
    intro n
    induction n with
    | zero => intro _ h0; rw [psum_zero] at h0; omega
    | succ n ih =>
      intro hn h1
      by_cases h2 : 16777215 < psum l n
      · obtain ⟨i, hi, h⟩ := ih (by omega) h2
        exact ⟨i, by omega, h⟩
      · exact ⟨n, by omega, by omega, h1⟩
  obtain ⟨i, hi, h1, h2⟩ := key l.length (Nat.le_refl _) (by rw [psum_all]; exact h)
  exact ⟨i, hi, h1, h2⟩

namespace Built
variable {env : Env} {b b' : Builder} {f : Font} {s : Parts} {w bi : GoMap Bytes Int}

/-- What is read for a glyph has the length between its end offsets. -/
theorem maskOps_length (h : Built env b b' f s w bi) {i : Nat} {ops : Bytes}
    (hb : f.offGlyphMasks + 3 * i + 3 ≤ f.data.length) (ho : f.maskOps i = .ok ops) :
    start24 f.data f.offGlyphMasks i + (if b.hasVertLayout then 4 else 1) + ops.length =
      end24 f.data f.offGlyphMasks i := by
  have hoffs : ∃ p, f.glyphDataOffsets i = .ok p ∧ p = (start24 f.data f.offGlyphMasks i, end24 f.data f.offGlyphMasks i) := by
    unfold Font.maskOps at ho
    rw [Res.bind_eq_ok] at ho
    obtain ⟨p, hp, _⟩ := ho
    refine ⟨p, hp, ?_⟩
    unfold Font.glyphDataOffsets at hp
    simp only [Font.shl1] at hp
    have e0 : 2 * i + i = 3 * i := by omega
    rw [e0, rd24_eq (by omega), Res.ok_bind] at hp
    by_cases hg : i = 0
    · subst hg
      rw [if_pos rfl] at hp
      exact (Res.ok.inj hp).symm
    · rw [if_neg (by omega), rd24_eq (by omega), Res.ok_bind] at hp
      split at hp
      · cases hp
      · rw [← Res.ok.inj hp, start24_succ _ _ _ (by omega), end24, end24]
        congr 2
        omega
  obtain ⟨p, hp, rfl⟩ := hoffs
  unfold Font.maskOps at ho
  rw [hp, Res.ok_bind, h.hasVertLayout] at ho
  simp only [Res.ok_bind, h.numGlyphs] at ho
  have e : (if b.hasVertLayout = true then start24 f.data f.offGlyphMasks i + 4
      else start24 f.data f.offGlyphMasks i + 1) =
      start24 f.data f.offGlyphMasks i + (if b.hasVertLayout = true then 4 else 1) := by
    split <;> rfl
  rw [e] at ho
  generalize (if b.hasVertLayout = true then 4 else 1) = k at ho ⊢
  unfold slice at ho
  split at ho
  · rename_i hc
    have := congrArg List.length (Res.ok.inj ho)
    rw [List.length_drop, List.length_take] at this
    omega
  · cases ho

/-- The operations of a glyph, when all glyphs fit. -/
theorem maskOps_eq (h : Built env b b' f s w bi) {blocks : List Bytes}
    (he : s.glyphMasks = ends24 0 (blocks.map List.length) ++ blocks.flatten)
    (hl : blocks.length = b.glyphOrder.length)
    (hsize : f.offWords - (f.offGlyphMasks + 3 * b.glyphOrder.length) ≤ 16777215) {i : Nat}
    (hi : i < b.glyphOrder.length) {p : Placement} {ops : Bytes}
    (hops : blocks[i]'(by omega) = b.placementBytes p ++ ops) : f.maskOps i = .ok ops := by
  have hi' : i < blocks.length := by omega
  obtain ⟨hs, hen, hat⟩ := h.masks_at he hl hsize hi'
  rw [hops] at hat
  have hlen : (blocks.map List.length)[i]'(by simpa using hi') =
      (b.placementBytes p).length + ops.length := by
    rw [List.getElem_map, hops, List.length_append]
  have hsucc := psum_succ (l := blocks.map List.length) (i := i) (by simpa using hi')
  rw [hlen] at hsucc
  have hpos := hat.len
  rw [List.length_append] at hpos
  have hn := h.numGlyphs
  have hmd : f.offGlyphMasks + 2 * b.glyphOrder.length + b.glyphOrder.length =
    f.offGlyphMasks + 3 * b.glyphOrder.length := by omega
  have hpl1 : 1 ≤ (b.placementBytes p).length := by
    unfold Builder.placementBytes; split <;> simp
  have hoffs : f.glyphDataOffsets i = .ok (psum (blocks.map List.length) i,
      psum (blocks.map List.length) (i + 1)) := by
    rw [Font.glyphDataOffsets_eq (by omega) (by omega), hs, hen]
  have hv := h.hasVertLayout
  have ho := hat.right
  unfold Font.maskOps
  rw [hoffs, Res.ok_bind]
  simp only
  rw [hv, Res.ok_bind, hn, Res.ok_bind]
  simp only [Font.shl1]
  rw [hmd]
  have hps : (if b.hasVertLayout = true then psum (blocks.map List.length) i + 4
      else psum (blocks.map List.length) i + 1) =
      psum (blocks.map List.length) i + (b.placementBytes p).length := by
    unfold Builder.placementBytes
    cases b.hasVertLayout <;> simp
  rw [hps, slice_sub (by omega) (by omega)]
  have := ho.sub
  rw [← this]
  congr 2 <;> omega

/-- Every place has a glyph. -/
theorem glyph_of (h : Built env b b' f s w bi) {i : Nat} (hi : i < b.glyphOrder.length) :
    ∃ g, b.glyphData.get b.glyphOrder[i] = Option.some g := by
  obtain ⟨blocks, hbl, _⟩ := h.glyphMasks_eq
  obtain ⟨hl, hblk⟩ := mapRes_ok hbl
  have := hblk i hi (by omega)
  rw [Builder.glyphBlock, Builder.glyph] at this
  cases hg : b.glyphData.get b.glyphOrder[i] with
  | some g => exact ⟨g, rfl⟩
  | none => rw [hg] at this; cases this

end Built
end BuilderModel
