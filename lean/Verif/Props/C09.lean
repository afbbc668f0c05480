import Verif.Lemmas.RasterLoop

/-!
# C09 — Rasterizing arbitrary bytes is safe

The specification (`Spec.Raster`) gives the commands, their byte encoding and the pixels they draw.
Hypothesis used throughout: less than 16 MiB of data, so that the bounds fit an `int` and the pixel
count does not overflow. Exhausting memory when the mask is allocated is not modelled.
-/

open Go Mask Spec.Raster

namespace C09

theorem empty_of_sentinel : (⟨maxInt, maxInt, minInt, minInt⟩ : Rect).empty = true := by decide

/-- What `Rasterize` returns for a sequence of valid commands. -/
theorem rasterize_commands (cmds : List Cmd) (hv : ∀ c ∈ cmds, c.Valid)
    (hl : (encode cmds).length < 2 ^ 24) :
    (writes .start cmds = [] → rasterize (encode cmds) = .ok none) ∧
    (writes .start cmds ≠ [] → ∃ m, rasterize (encode cmds) = .ok (some m) ∧
      TightBox ((writes .start cmds).map fun w => (w.1, w.2.1)) m.rect.x0 m.rect.y0 m.rect.x1 m.rect.y1 ∧
      (m.pix.length : Int) = (m.rect.x1 - m.rect.x0) * (m.rect.y1 - m.rect.y0) ∧
      m.stride = m.rect.x1 - m.rect.x0 ∧
      ∀ x y, m.alphaAt x y = colorAt (writes .start cmds) x y) := by
  by_cases hc : cmds = []
  · subst hc
    refine ⟨fun _ => by decide, fun h => absurd rfl h⟩
  have hne : encode cmds ≠ [] := by
    obtain ⟨c', cs', rfl⟩ := List.exists_cons_of_ne_nil hc
    simp [encode, Cmd.bytes]
  have hl0 : (encode cmds).length ≠ 0 := by simpa using hne
  have hcl := cmds_length_le cmds
  have hrect : computeRasterOpsRect (encode cmds) =
      .ok (growAll ⟨maxInt, maxInt, minInt, minInt⟩ .start cmds) := by
    unfold computeRasterOpsRect
    simp only [if_neg hl0]
    exact rectLoop_cmds (encode cmds) cmds _ 0 .start _ hc hv (by omega) (by simp)
  have hg := growAll_spec cmds .start ⟨maxInt, maxInt, minInt, minInt⟩ [] 0 hv (by omega)
    (by simp [Cursor.start]) (by simp [Cursor.start]) (by simp [Cursor.start]) (by simp [Cursor.start])
    (Or.inl ⟨rfl, rfl⟩)
  simp only [List.nil_append] at hg
  rcases hg with ⟨h1, h2⟩ | ⟨h1, h2, h3, h4, h5, h6⟩
  · refine ⟨fun _ => ?_, fun h => absurd (by simpa using h1) h⟩
    unfold rasterize
    rw [hrect, h2]
    simp only [Res.ok_bind, empty_of_sentinel]
    rfl
  · refine ⟨fun h => absurd (by simp [h]) h1, fun _ => ?_⟩
    generalize hr : growAll ⟨maxInt, maxInt, minInt, minInt⟩ .start cmds = r at *
    have hx : r.x0 < r.x1 ∧ r.y0 < r.y1 := by
      obtain ⟨a, ⟨p, hp, _⟩, _⟩ := h2
      have := a p hp
      omega
    have hemp : r.empty = false := by simp [Rect.empty]; omega
    have hprod : (r.x1 - r.x0) * (r.y1 - r.y0) < 2 ^ 63 := by
      have hw : r.x1 - r.x0 ≤ 3 * 2 ^ 30 := by push_cast at h3 h4; omega
      have hh : r.y1 - r.y0 ≤ 9 * 2 ^ 28 := by push_cast at h5 h6; omega
      calc (r.x1 - r.x0) * (r.y1 - r.y0) ≤ (3 * 2 ^ 30) * (9 * 2 ^ 28) :=
            Int.mul_le_mul hw hh (by omega) (by omega)
        _ < 2 ^ 63 := by norm_num
    obtain ⟨m0, e0, p0, r0, a0⟩ := newAlpha_ok (r := r) (by omega) (by omega) hprod
    have hdraw := drawLoop_cmds (encode cmds) cmds ((encode cmds).length + 1) 0 .start m0 hc hv
      (by omega) (by simp)
    obtain ⟨m1, e1, p1, r1, a1⟩ := paint_ok (writes .start cmds) m0 p0 (by
      intro w hw
      rw [r0]
      exact h2.1 (w.1, w.2.1) (List.mem_map.mpr ⟨w, hw, rfl⟩))
    refine ⟨m1, ?_, ?_, ?_, p1.stride, ?_⟩
    · unfold rasterize
      rw [hrect]
      simp only [Res.ok_bind, hemp, e0, Bool.false_eq_true, if_false]
      have : drawLoop (encode cmds) ((encode cmds).length + 1) ⟨0, 255, 0, 0, m0⟩ = .ok m1 := by
        rw [← e1, ← hdraw]; rfl
      rw [this]; rfl
    · rw [r1, r0]; exact h2
    · have := p1.len
      rw [r1, r0] at this ⊢
      exact this
    · intro x y
      rw [a1, a0]; rfl

/-- `Rasterize` fails, with an error and not a panic, exactly on the data that is not a sequence of
valid commands. -/
theorem rasterize_error_iff (ops : Bytes) (hl : ops.length < 2 ^ 24) :
    (∃ e, rasterize ops = .err e) ↔ ¬ ∃ cmds, (∀ c ∈ cmds, c.Valid) ∧ ops = encode cmds := by
  constructor
  · rintro ⟨e, he⟩ ⟨cmds, hv, rfl⟩
    have h := rasterize_commands cmds hv hl
    by_cases hw : writes .start cmds = []
    · rw [h.1 hw] at he; simp at he
    · obtain ⟨m, hm, _⟩ := h.2 hw
      rw [hm] at he; simp at he
  · intro hn
    by_cases h0 : ops.length = 0
    · exact absurd ⟨[], by simp, by simpa [encode] using h0⟩ hn
    have hs := rectLoop_sound ops (ops.length + 1) ⟨0, 0, 0, ⟨maxInt, maxInt, minInt, minInt⟩⟩
      (by simp only; omega) (by simp only; omega)
    unfold rasterize computeRasterOpsRect
    simp only [if_neg h0]
    cases hr : rectLoop ops (ops.length + 1) ⟨0, 0, 0, ⟨maxInt, maxInt, minInt, minInt⟩⟩ with
    | panic e => rw [hr] at hs; simp at hs
    | err e => exact ⟨e, rfl⟩
    | ok r =>
      obtain ⟨cmds, hv, hc⟩ := hs.2 r hr
      exact absurd ⟨cmds, hv, by simpa using hc⟩ hn

/-- `Rasterize` never panics. -/
theorem rasterize_total (ops : Bytes) (hl : ops.length < 2 ^ 24) :
    (∃ m, rasterize ops = .ok m) ∨ (∃ e, rasterize ops = .err e) := by
  by_cases h : ∃ cmds, (∀ c ∈ cmds, Cmd.Valid c) ∧ ops = encode cmds
  · obtain ⟨cmds, hv, rfl⟩ := h
    have h := rasterize_commands cmds hv hl
    by_cases hw : writes .start cmds = []
    · exact Or.inl ⟨_, h.1 hw⟩
    · obtain ⟨m, hm, _⟩ := h.2 hw
      exact Or.inl ⟨_, hm⟩
  · exact Or.inr ((rasterize_error_iff ops hl).mpr h)

/-- A triangle-like shape: rectangle 3x2 at (-2, 1), then with palette index 7 an ascending diagonal
of length 3 overlapping it. -/
def sample : List Cmd :=
  [⟨none, some (-2), .row, .rect 3 2⟩, ⟨some 7, some (-2), .move (-1), .diag true 3⟩]

example : (∀ c ∈ sample, c.Valid) ∧ (encode sample).length < 2 ^ 24 ∧ writes .start sample ≠ [] := by
  refine ⟨?_, by decide, by decide⟩
  intro c hc
  simp [sample] at hc
  rcases hc with rfl | rfl <;>
    simp [Cmd.Valid, Vert.Valid, Draw.Valid, ValidMove, ValidLen]

example : (match rasterize (encode sample) with
    | .ok (some m) => some (m.rect, m.pix)
    | _ => none) =
    some (⟨-2, 0, 2, 3⟩, [0, 0, 0, 7,  255, 255, 7, 0,  255, 7, 255, 0]) := by decide +kernel

/-- Truncated data is not an encoding. -/
example : (∃ e, rasterize [0b0010_0010, 5] = .err e) := ⟨_, by rfl⟩

end C09
