import Verif.Lemmas.BuildAt
import Verif.Lemmas.Kern
import Verif.Lemmas.KernVert
import Verif.Spec.SampleBuilder

/-!
# C20: kerning pairs read back exactly

Holds for horizontal kerning. The values of vertical pairs are looked up in the horizontal table.
-/

namespace C20
open Go Spec FontModel BuilderModel

/-- Horizontal kerning: the number of pairs, the kerning of every pair that was set, zero for every
other pair of indices. -/
theorem horz_read (env : Env) (b b' : Builder) (f : Font) (h : b.build env = .ok (b', f))
    (hb : KernOk b) :
    f.numPairs = .ok b.horzKern.length ∧
    ∀ i j, i < 65536 → j < 65536 → f.kernGet i j = .ok (kernAtOf b b.horzKern i j) := by
  obtain ⟨s, w, bi, hB⟩ := build_parts h
  have e := hB.b'_eq
  have hs := hB.horzKern
  have hlen : b.glyphOrder.length ≤ 65536 := by
    have := hB.count; have := hB.order
    rw [maxGlyphs] at *; omega
  have hs' : b.kernSection b.horzKern b.horzKern = .ok s.horzKern := by
    rw [e] at hs; exact hs
  have hc : b.horzKern.length ≤ 16777215 := by
    have := hB.horzCount; rw [e] at this; exact this
  obtain ⟨h1, h2⟩ := Builder.kernAt_eq (f := f) hb.order hlen hb.horz hb.horzVal hb.classes hc hs'
    hB.atHorzKern
  refine ⟨h1, fun i j hi hj => ?_⟩
  rw [Font.kernGet, h2 i j hi hj, kernAtOf]
  cases b.glyphOrder[i]? with
  | none => rfl
  | some u =>
    cases b.glyphOrder[j]? with
    | none => rfl
    | some v =>
      simp only [Res.ok.injEq]
      split
      · rfl
      · rename_i hm
        rw [kernOf, ← get_eq_lookup, GoMap.get_eq_none.2 hm]

/-- Vertical kerning, when every vertical pair has the same entry in the horizontal table. -/
theorem vert_read_partial (env : Env) (b b' : Builder) (f : Font) (h : b.build env = .ok (b', f))
    (hb : KernOk b) (hsame : ∀ p ∈ b.vertKern.keys, b.vertKern.get p = b.horzKern.get p) :
    f.numVertPairs = .ok b.vertKern.length ∧
    ∀ i j, i < 65536 → j < 65536 → f.kernGetVert i j = .ok (kernAtOf b b.vertKern i j) := by
  obtain ⟨s, w, bi, hB⟩ := build_parts h
  have e := hB.b'_eq
  have hs := hB.vertKern
  have hlen : b.glyphOrder.length ≤ 65536 := by
    have := hB.count; have := hB.order
    rw [maxGlyphs] at *; omega
  have hs' : b.kernSection b.vertKern b.horzKern = .ok s.vertKern := by
    rw [e] at hs; exact hs
  have hc : b.vertKern.length ≤ 16777215 := by
    have := hB.vertCount; rw [e] at this; exact this
  obtain ⟨h1, h2⟩ := Builder.kernAt_eq (f := f) hb.order hlen hb.vert hb.horzVal hb.classes hc hs'
    hB.atVertKern
  refine ⟨h1, fun i j hi hj => ?_⟩
  rw [Font.kernGetVert, h2 i j hi hj, kernAtOf]
  cases b.glyphOrder[i]? with
  | none => rfl
  | some u =>
    cases b.glyphOrder[j]? with
    | none => rfl
    | some v =>
      simp only [Res.ok.injEq]
      split
      · rename_i hm
        rw [kernOf, kernOf, ← get_eq_lookup, ← get_eq_lookup, hsame _ hm]
      · rename_i hm
        rw [kernOf, ← get_eq_lookup, GoMap.get_eq_none.2 hm]

/-- What is read of the vertical table, for every builder: its pairs, with their *horizontal* kerning. Every
vertical pair of a builder that can be built has a horizontal one. -/
theorem vert_exact (env : Env) (b b' : Builder) (f : Font) (h : b.build env = .ok (b', f)) (hb : KernOk b) :
    f.numVertPairs = .ok b.vertKern.length ∧ (∀ p ∈ b.vertKern.keys, p ∈ b.horzKern.keys) ∧
    ∀ i j, i < 65536 → j < 65536 → f.kernGetVert i j = .ok (
      match b.glyphOrder[i]?, b.glyphOrder[j]? with
      | some u, some v => if (u, v) ∈ b.vertKern.keys then kernOf b.kernClasses b.horzKern (u, v) else 0
      | _, _ => 0) := by
  obtain ⟨s, w, bi, hB⟩ := build_parts h
  have e := hB.b'_eq
  have hs := hB.vertKern
  have hlen : b.glyphOrder.length ≤ 65536 := by
    have := hB.count; have := hB.order
    rw [maxGlyphs] at *; omega
  have hs' : b.kernSection b.vertKern b.horzKern = .ok s.vertKern := by
    rw [e] at hs; exact hs
  have hc : b.vertKern.length ≤ 16777215 := by
    have := hB.vertCount; rw [e] at this; exact this
  obtain ⟨h1, h2⟩ := Builder.kernAt_eq (f := f) hb.order hlen hb.vert hb.horzVal hb.classes hc hs'
    hB.atVertKern
  exact ⟨h1, fun p hp => (Builder.kernSection_glyphs hb.order hlen hs' hp).2, h2⟩

/-- Vertical kerning reads back exactly when every vertical pair has the kerning of the horizontal pair. -/
theorem vert_read_iff (env : Env) (b b' : Builder) (f : Font) (h : b.build env = .ok (b', f)) (hb : KernOk b) :
    (∀ i j, i < 65536 → j < 65536 → f.kernGetVert i j = .ok (kernAtOf b b.vertKern i j)) ↔
      ∀ p ∈ b.vertKern.keys, kernOf b.kernClasses b.vertKern p = kernOf b.kernClasses b.horzKern p := by
  have hx := (vert_exact env b b' f h hb).2.2
  obtain ⟨s, w, bi, hB⟩ := build_parts h
  have e := hB.b'_eq
  have hs := hB.vertKern
  have hlen : b.glyphOrder.length ≤ 65536 := by
    have := hB.count; have := hB.order
    rw [maxGlyphs] at *; omega
  have hs' : b.kernSection b.vertKern b.horzKern = .ok s.vertKern := by
    rw [e] at hs; exact hs
  constructor
  · intro hr p hp
    obtain ⟨⟨i, j, hi, hj⟩, _⟩ := Builder.kernSection_glyphs hb.order hlen hs' hp
    have hi' := (List.getElem?_eq_some_iff.1 hi).1
    have hj' := (List.getElem?_eq_some_iff.1 hj).1
    have := (hr i j (by omega) (by omega)).symm.trans (hx i j (by omega) (by omega))
    rw [kernAtOf, hi, hj] at this
    simp only [Res.ok.injEq] at this
    rw [if_pos hp] at this
    exact this
  · intro hr i j hi hj
    rw [hx i j hi hj, kernAtOf]
    cases b.glyphOrder[i]? with
    | none => rfl
    | some u =>
      cases b.glyphOrder[j]? with
      | none => rfl
      | some v =>
        simp only [Res.ok.injEq]
        split
        · rename_i hm
          exact (hr _ hm).symm
        · rename_i hm
          rw [kernOf, ← get_eq_lookup, GoMap.get_eq_none.2 hm]

/-- In general vertical kerning does not read back: `Build` panics for a vertical pair without
horizontal pair, and otherwise stores the horizontal value. -/
theorem vert_violated :
    (∃ m, (Sample.vertKerned Sample.twoGlyphs).build Sample.env = .panic m) ∧
    ∃ b b' f, b.build Sample.env = .ok (b', f) ∧ KernOk b ∧
      kernAtOf b b.vertKern 0 0 = 5 ∧ f.kernGetVert 0 0 = .ok 7 := by
  refine ⟨⟨"invalid internal state", by decide +kernel⟩, Sample.vertKerned Sample.kerned,
    (Sample.result (Sample.vertKerned Sample.kerned)).1,
    (Sample.result (Sample.vertKerned Sample.kerned)).2, by decide +kernel, ?_, by decide +kernel,
    by decide +kernel⟩
  constructor
  · decide +kernel
  · decide +kernel
  · decide +kernel
  · simp only [Sample.vertKerned, IsInt8]; decide +kernel
  · simp only [Sample.vertKerned, IsInt8]; decide +kernel
  · simp only [Sample.vertKerned, IsInt8]; decide +kernel

/-- `SetKerningPair` does not check the glyphs; `Build` panics for a pair of an unknown glyph. -/
theorem unknown_glyph_violated :
    ∃ m, (Sample.oneGlyph.setKerningPair 1001 77 4).build Sample.env = .panic m :=
  ⟨"invalid internal state", by decide +kernel⟩

/-- Kerning tables never make `Build` fail otherwise: the horizontal section is always written when
the glyphs of all pairs exist and classes are in range. -/
theorem horz_section_ok (b : Builder) (hb : KernOk b) (hl : b.glyphOrder.length ≤ 65536)
    (hg : ∀ p ∈ b.horzKern.keys, p.1 ∈ b.glyphOrder ∧ p.2 ∈ b.glyphOrder)
    (hc : ∀ e ∈ b.horzKern, e.2.cls ≤ b.kernClasses.length) :
    ∃ x, b.kernSection b.horzKern b.horzKern = .ok x :=
  Builder.kernSection_ok hb.order hl hb.horz hg hc

/-- After any history of calls of `SetKerningPair` the table is well-formed and has the last value of
every pair (zero when there was none). -/
theorem history (calls : List ((Nat × Nat) × Int)) (hv : ∀ c ∈ calls, IsInt8 c.2) (b : Builder)
    (hb : KernOk b) :
    KernOk (calls.foldl (fun b c => b.setKerningPair c.1.1 c.1.2 c.2) b) ∧
    ∀ p, kernOf b.kernClasses (calls.foldl (fun b c => b.setKerningPair c.1.1 c.1.2 c.2) b).horzKern p =
      lastKern (kernOf b.kernClasses b.horzKern p) p calls := by
  induction calls generalizing b with
  | nil => exact ⟨hb, fun _ => rfl⟩
  | cons c calls ih =>
    obtain ⟨⟨u, v⟩, k⟩ := c
    have hk : IsInt8 k := hv ((u, v), k) (by simp)
    obtain ⟨h1, h2⟩ := Builder.setKerningPair_ok hb u v hk
    obtain ⟨i1, i2⟩ := ih (fun c hc => hv c (by simp [hc])) (b.setKerningPair u v k) h1
    refine ⟨i1, fun p => ?_⟩
    have e : (b.setKerningPair u v k).kernClasses = b.kernClasses := by
      unfold Builder.setKerningPair; split <;> rfl
    rw [e] at i2
    rw [List.foldl_cons, i2 p, lastKern, h2 p]

/-- A fresh builder is well-formed and adding glyphs keeps it so. -/
theorem fresh_ok (rolls : List UInt64) (d : DateModel.Date) (b : Builder) (h : new rolls d = .ok b) :
    KernOk b := new_kernOk h

theorem addGlyph_ok (b b' : Builder) (rolls : List Nat) (mask : Mask.Img) (uid : Nat) (hb : KernOk b)
    (hsync : ∀ u ∈ b.glyphOrder, b.glyphData.get u ≠ none)
    (h : b.addGlyph rolls mask = .ok (b', uid)) :
    KernOk b' ∧ ∀ u ∈ b'.glyphOrder, b'.glyphData.get u ≠ none :=
  Builder.addGlyph_kernOk hb hsync h

/-- A font with kerning for two pairs. -/
example : ∃ b' f, Sample.kerned.build Sample.env = .ok (b', f) ∧
    f.kernGet 1 0 = .ok (-3) ∧ f.kernGet 0 0 = .ok 7 ∧ f.kernGet 0 1 = .ok 0 ∧ f.numPairs = .ok 2 := by
  refine ⟨(Sample.result Sample.kerned).1, (Sample.result Sample.kerned).2, ?_, ?_, ?_, ?_, ?_⟩ <;>
    decide +kernel

end C20
