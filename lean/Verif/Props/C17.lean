import Verif.Lemmas.BuildAt
import Verif.Spec.SampleBuilder

/-! # C17: metrics survive the build (for dates see C16) -/

namespace C17
open Go Spec FontModel BuilderModel

/-- A built font returns all metrics of the builder. -/
theorem metrics_read (env : Env) (b b' : Builder) (f : Font) (h : b.build env = .ok (b', f)) :
    f.numGlyphs = .ok b.glyphOrder.length ∧ f.hasVertLayout = .ok b.hasVertLayout ∧
    f.monoWidth = .ok b.monoWidth.toNat ∧ f.monospaced = .ok (b.monoWidth != 0) ∧
    f.ascent = .ok b.ascent.toNat ∧ f.extraAscent = .ok b.extraAscent.toNat ∧
    f.descent = .ok b.descent.toNat ∧ f.extraDescent = .ok b.extraDescent.toNat ∧
    f.uppercaseAscent = .ok b.uppercaseAscent.toNat ∧ f.midlineAscent = .ok b.midlineAscent.toNat ∧
    f.horzInterspacing = .ok b.horzInterspacing.toNat ∧
    f.vertInterspacing = .ok b.vertInterspacing.toNat ∧ f.lineGap = .ok b.lineGap.toNat ∧
    f.vertLineWidth = .ok b.vertLineWidth.toNat ∧ f.vertLineGap = .ok b.vertLineGap.toNat ∧
    f.lineHeight = .ok (b.ascent.toNat + b.descent.toNat + b.lineGap.toNat) ∧
    f.vertLineFullWidth = .ok (b.vertLineWidth.toNat + b.vertLineGap.toNat) := by
  obtain ⟨s, w, bi, hb⟩ := build_parts h
  have he := hb.b'_eq
  have m := fun i hi => hb.metric (i := i) hi
  have m3 := m 3 (by omega)
  have m4 := m 4 (by omega)
  have m5 := m 5 (by omega)
  have m6 := m 6 (by omega)
  have m7 := m 7 (by omega)
  have m8 := m 8 (by omega)
  have m9 := m 9 (by omega)
  have m10 := m 10 (by omega)
  have m11 := m 11 (by omega)
  have m12 := m 12 (by omega)
  have m13 := m 13 (by omega)
  have m14 := m 14 (by omega)
  simp only [Builder.metricsSection, Helpers.appendUint16LE, List.nil_append, List.cons_append,
    List.getElem_cons_succ, List.getElem_cons_zero] at m3 m4 m5 m6 m7 m8 m9 m10 m11 m12 m13 m14
  have e3 : b'.monoWidth = b.monoWidth := by rw [he]
  have e4 : b'.ascent = b.ascent := by rw [he]
  have e5 : b'.extraAscent = b.extraAscent := by rw [he]
  have e6 : b'.descent = b.descent := by rw [he]
  have e7 : b'.extraDescent = b.extraDescent := by rw [he]
  have e8 : b'.uppercaseAscent = b.uppercaseAscent := by rw [he]
  have e9 : b'.midlineAscent = b.midlineAscent := by rw [he]
  have e10 : b'.horzInterspacing = b.horzInterspacing := by rw [he]
  have e11 : b'.vertInterspacing = b.vertInterspacing := by rw [he]
  have e12 : b'.lineGap = b.lineGap := by rw [he]
  have e13 : b'.vertLineWidth = b.vertLineWidth := by rw [he]
  have e14 : b'.vertLineGap = b.vertLineGap := by rw [he]
  rw [e3] at m3; rw [e4] at m4; rw [e5] at m5; rw [e6] at m6; rw [e7] at m7; rw [e8] at m8
  rw [e9] at m9; rw [e10] at m10; rw [e11] at m11; rw [e12] at m12; rw [e13] at m13; rw [e14] at m14
  have a4 : f.ascent = .ok b.ascent.toNat := m4
  have a6 : f.descent = .ok b.descent.toNat := m6
  have a12 : f.lineGap = .ok b.lineGap.toNat := m12
  have a13 : f.vertLineWidth = .ok b.vertLineWidth.toNat := m13
  have a14 : f.vertLineGap = .ok b.vertLineGap.toNat := m14
  have a3 : f.monoWidth = .ok b.monoWidth.toNat := m3
  refine ⟨hb.numGlyphs, hb.hasVertLayout, a3, ?_, a4, m5, a6, m7, m8, m9, m10, m11, a12, a13, a14, ?_, ?_⟩
  · rw [Font.monospaced, a3, Res.ok_bind, Res.pure_eq]
    congr 1
    rw [Bool.eq_iff_iff, bne_iff_ne, bne_iff_ne, ne_eq, ne_eq, ← UInt8.toNat_inj]
    rfl
  · simp [Font.lineHeight, a4, a6, a12]
  · simp [Font.vertLineFullWidth, a13, a14]

/-- The setters store the value they are given and change nothing else. -/
theorem setters (b : Builder) (v : UInt8) :
    b.setMonoWidth v = { b with monoWidth := v } ∧ b.setAscent v = { b with ascent := v } ∧
    b.setExtraAscent v = { b with extraAscent := v } ∧ b.setDescent v = { b with descent := v } ∧
    b.setExtraDescent v = { b with extraDescent := v } ∧
    b.setMidlineAscent v = { b with midlineAscent := v } ∧
    b.setUppercaseAscent v = { b with uppercaseAscent := v } ∧
    b.setHorzInterspacing v = { b with horzInterspacing := v } ∧
    b.setVertInterspacing v = { b with vertInterspacing := v } ∧
    b.setLineGap v = { b with lineGap := v } :=
  ⟨rfl, rfl, rfl, rfl, rfl, rfl, rfl, rfl, rfl, rfl⟩

/-- The vertical metrics are accepted exactly when they agree with the vertical layout. -/
theorem vertical_setters (b : Builder) (v : UInt8) :
    ((b.setVertLineWidth v).isOk ↔ (v ≠ 0 ↔ b.hasVertLayout = true)) ∧
    ((b.setVertLineGap v).isOk ↔ (v ≠ 0 → b.hasVertLayout = true)) ∧
    (∀ b', b.setVertLineWidth v = .ok b' → b' = { b with vertLineWidth := v }) ∧
    (∀ b', b.setVertLineGap v = .ok b' → b' = { b with vertLineGap := v }) := by
  unfold Builder.setVertLineWidth Builder.setVertLineGap
  refine ⟨?_, ?_, ?_, ?_⟩
  · by_cases h0 : v = 0 <;> cases h : b.hasVertLayout <;> simp [h0]
  · by_cases h0 : v = 0 <;> cases h : b.hasVertLayout <;> simp [h0]
  · intro b' h
    rw [ite_err, ite_err] at h
    exact (Res.ok.inj h.2.2).symm
  · intro b' h
    rw [ite_err] at h
    exact (Res.ok.inj h.2).symm

/-- `Build` refuses metrics with an ascent of zero, an extra ascent that is not smaller, or ascents
that are out of order; no other metric is looked at. -/
theorem status (b : Builder) :
    b.metricsStatus = .ok () ↔
      b.ascent ≠ 0 ∧ b.extraAscent < b.ascent ∧ b.midlineAscent ≤ b.uppercaseAscent ∧
      b.uppercaseAscent ≤ b.ascent := by
  unfold Builder.metricsStatus
  simp only [ite_err, and_true, UInt8.le_iff_toNat_le, UInt8.lt_iff_toNat_lt, ne_eq, ← UInt8.toNat_inj, gt_iff_lt]
  constructor
  · rintro ⟨h1, h2, h3, h4, h5⟩
    exact ⟨h1, by omega, by omega, by omega⟩
  · rintro ⟨h1, h2, h3, h4⟩
    exact ⟨h1, by omega, by omega, by omega, by omega⟩

/-- A builder with vertical layout and other than default metrics is built. -/
example : ∃ b' f, (Sample.vertical.build Sample.env = .ok (b', f)) ∧
    f.vertLineWidth = .ok 7 ∧ f.ascent = .ok 12 ∧ f.hasVertLayout = .ok true := by
  refine ⟨(Sample.result Sample.vertical).1, (Sample.result Sample.vertical).2, ?_, ?_, ?_, ?_⟩ <;>
    decide +kernel

end C17
