import Verif.Lemmas.Colors
import Verif.Spec.SampleBuilder

/-!
# C39: the builder's color table

Limits and names hold for all histories, and the colors read back from built fonts unless a section
or a name is empty. The iteration functions of the builder always return an error.
-/

namespace C39
open Go Spec FontModel BuilderModel

/-- For every history: names unique, at most 255 colors, and the table only grows at its ends. -/
theorem history (ops : List ColorOp) (b : Builder) (hb : ColorsOk b) :
    ColorsOk (runColors b ops) ∧ b.dyes <+: (runColors b ops).dyes ∧
    b.palettes <+: (runColors b ops).palettes := by
  induction ops generalizing b with
  | nil => exact ⟨hb, List.prefix_refl _, List.prefix_refl _⟩
  | cons op ops ih =>
    cases op with
    | dye n a =>
      simp only [runColors]
      cases h : b.addDye n a with
      | ok b1 =>
        obtain ⟨h1, h2⟩ := Builder.addDye_ok hb h
        obtain ⟨i1, i2, i3⟩ := ih b1 h1
        refine ⟨i1, List.IsPrefix.trans ?_ i2, List.IsPrefix.trans ?_ i3⟩
        · rw [h2]; exact List.prefix_append _ _
        · rw [h2]; exact List.prefix_refl _
      | err m => exact ih b hb
      | panic m => exact ih b hb
    | palette n a =>
      simp only [runColors]
      cases h : b.addPalette n a with
      | ok b1 =>
        obtain ⟨h1, h2⟩ := Builder.addPalette_ok hb h
        obtain ⟨i1, i2, i3⟩ := ih b1 h1
        refine ⟨i1, List.IsPrefix.trans ?_ i2, List.IsPrefix.trans ?_ i3⟩
        · rw [h2]; exact List.prefix_refl _
        · rw [h2]; exact List.prefix_append _ _
      | err m => exact ih b hb
      | panic m => exact ih b hb

/-- A call succeeds exactly when the name is new and the colors fit; it appends the section. -/
theorem addDye_exact (b : Builder) (n : Bytes) (a : List UInt8) :
    (n ∉ sectionNames b ∧ (sectionSizes b).sum + a.length ≤ 255 →
      b.addDye n a = .ok { b with dyes := b.dyes ++ [⟨n, a⟩] }) ∧
    (¬ (n ∉ sectionNames b ∧ (sectionSizes b).sum + a.length ≤ 255) →
      ∃ m, b.addDye n a = .err m) := by
  have hs : (sectionSizes b).sum = b.colorCount := by
    simp [sectionSizes, Builder.colorCount, List.sum_append]
  have hany : n ∈ sectionNames b ↔ (b.dyes.any fun d => d.name = n) = true ∨
      (b.palettes.any fun p => p.name = n) = true := by
    simp [sectionNames]
  rw [hs, hany]
  unfold Builder.addDye Builder.checkColorName
  cases (b.dyes.any fun d => d.name = n) <;> cases (b.palettes.any fun p => p.name = n) <;> simp
  intro h
  rw [if_pos h]
  exact ⟨_, rfl⟩

theorem addPalette_exact (b : Builder) (n : Bytes) (a : List RGBA) :
    (n ∉ sectionNames b ∧ (sectionSizes b).sum + a.length ≤ 255 →
      b.addPalette n a = .ok { b with palettes := b.palettes ++ [⟨n, a⟩] }) ∧
    (¬ (n ∉ sectionNames b ∧ (sectionSizes b).sum + a.length ≤ 255) →
      ∃ m, b.addPalette n a = .err m) := by
  have hs : (sectionSizes b).sum = b.colorCount := by
    simp [sectionSizes, Builder.colorCount, List.sum_append]
  have hany : n ∈ sectionNames b ↔ (b.dyes.any fun d => d.name = n) = true ∨
      (b.palettes.any fun p => p.name = n) = true := by
    simp [sectionNames]
  rw [hs, hany]
  unfold Builder.addPalette Builder.checkColorName
  cases (b.dyes.any fun d => d.name = n) <;> cases (b.palettes.any fun p => p.name = n) <;> simp
  intro h
  rw [if_pos h]
  exact ⟨_, rfl⟩

/-- Colors of a built font: counts, names and values of all dyes and palettes; a builder without
colors gets the dye `main`. -/
theorem built_partial (env : Env) (b b' : Builder) (f : Font) (h : b.build env = .ok (b', f))
    (hs : ColorsStorable b) :
    b'.dyes = (if b.dyes = [] ∧ b.palettes = [] then [⟨ascii "main", [255]⟩] else b.dyes) ∧
    f.numDyes = .ok b'.dyes.length ∧ f.numPalettes = .ok b.palettes.length ∧
    f.numDyeIndices = .ok (b'.dyes.map fun d => d.alphas.length).sum ∧
    f.numPaletteIndices = .ok (b.palettes.map fun p => p.colors.length).sum ∧
    f.eachDye = .ok (b'.dyes.map Dye.name) ∧ f.eachPalette = .ok (b.palettes.map Palette.name) ∧
    (∀ i (hi : i < b'.dyes.length), f.numDyeAlphas i = .ok b'.dyes[i].alphas.length ∧
      f.eachDyeAlpha i = .ok (b'.dyes[i].alphas.map UInt8.toNat)) ∧
    (∀ i (hi : i < b.palettes.length), f.numPaletteColors i = .ok b.palettes[i].colors.length ∧
      f.eachPaletteColor i = .ok (b.palettes[i].colors.map rgbaValues)) := by
  obtain ⟨s, w, bi, hB⟩ := build_parts h
  have hm := Builder.main_eq hB.main
  have hd : b'.dyes = (if b.dyes = [] ∧ b.palettes = [] then [⟨ascii "main", [255]⟩] else b.dyes) := by
    rw [hm]
  obtain ⟨d1, d2, d3, d4⟩ := built_dyes hB
  obtain ⟨p1, p2, p3, p4⟩ := built_palettes hB
  have hs1 : ∀ d ∈ b'.dyes, d.alphas ≠ [] := by
    rw [hd]; split
    · simp
    · exact hs.alphas
  have hs2 : ∀ d ∈ b'.dyes, d.name ≠ [] := by
    rw [hd]; split
    · simp only [List.mem_singleton]; rintro d rfl; decide
    · exact hs.dyeNames
  have hs3 : (b'.dyes.map fun d => d.name.length).sum ≤ 65535 := by
    rw [hd]; split
    · decide
    · exact hs.dyeNamesSize
  exact ⟨hd, d1, p1, d2, p2, d4 hs2 hs3, p4 hs.paletteNames hs.paletteNamesSize,
    fun i hi => d3 i hi (hs1 _ (List.getElem_mem hi)),
    fun i hi => p3 i hi (hs.colors _ (List.getElem_mem hi))⟩

/-- The builder accepts dyes without alphas and empty names; the accessors of the built font panic. -/
theorem built_violated :
    (∃ b b' f, Sample.oneGlyph.addDye (ascii "none") [] = .ok b ∧ b.build Sample.env = .ok (b', f) ∧
      (f.numDyeAlphas 0).isPanic = true) ∧
    (∃ b b' f, Sample.oneGlyph.addDye [] [255] = .ok b ∧ b.build Sample.env = .ok (b', f) ∧
      f.eachDye.isPanic = true) := by
  refine ⟨⟨Sample.val Sample.fresh (Sample.oneGlyph.addDye (ascii "none") []),
    (Sample.result (Sample.val Sample.fresh (Sample.oneGlyph.addDye (ascii "none") []))).1,
    (Sample.result (Sample.val Sample.fresh (Sample.oneGlyph.addDye (ascii "none") []))).2, ?_⟩,
    ⟨Sample.val Sample.fresh (Sample.oneGlyph.addDye [] [255]),
    (Sample.result (Sample.val Sample.fresh (Sample.oneGlyph.addDye [] [255]))).1,
    (Sample.result (Sample.val Sample.fresh (Sample.oneGlyph.addDye [] [255]))).2, ?_⟩⟩ <;>
    decide +kernel

/-- `EachDyeAlpha` of the builder: the alphas of the dye with their color indices, which count down
from 255 less the alphas of the dyes before (so the indices of different dyes are disjoint). -/
theorem eachDyeAlpha_calls (b : Builder) (hb : ColorsOk b) (i : Nat) (hi : i < b.dyes.length) :
    (b.eachDyeAlpha b.dyes[i].name).1 =
      countDown (255 - ((b.dyes.take i).map fun d => d.alphas.length).sum) b.dyes[i].alphas := by
  have hsplit : b.dyes = b.dyes.take i ++ b.dyes[i] :: b.dyes.drop (i + 1) := by simp
  have hnd : (b.dyes.map Dye.name).Nodup := (List.nodup_append.1 hb.names).1
  have hp := List.pairwise_iff_getElem.1 (List.nodup_iff_pairwise_ne.1 hnd)
  have htot : (b.dyes.map fun d => d.alphas.length).sum ≤ 255 := by
    have := hb.total
    simp only [sectionSizes, List.sum_append] at this
    omega
  have key := Builder.eachDyeAlphaLoop_eq b.dyes[i].name b.dyes[i] rfl (b.dyes.take i)
    (b.dyes.drop (i + 1)) 255 (by omega) [] ?_ ?_ ?_
  · rw [← hsplit] at key
    exact key
  · intro x hx
    obtain ⟨j, hj, rfl⟩ := List.getElem_of_mem hx
    simp only [List.length_take] at hj
    rw [List.getElem_take]
    have := hp j i (by simp; omega) (by simpa using hi) (by omega)
    simpa using this
  · intro x hx
    obtain ⟨j, hj, rfl⟩ := List.getElem_of_mem hx
    simp only [List.length_drop] at hj
    rw [List.getElem_drop]
    have := hp i (i + 1 + j) (by simpa using hi) (by simp; omega) (by omega)
    simp only [List.getElem_map] at this
    exact fun e => this e.symm
  · rw [hsplit] at htot
    simp only [List.map_append, List.map_cons, List.sum_append, List.sum_cons] at htot
    omega

/-- But it always returns an error, also for the dyes that it found. -/
theorem eachDyeAlpha_violated (b : Builder) (name : Bytes) : (b.eachDyeAlpha name).2 ≠ "" :=
  Builder.eachDyeAlphaLoop_err name b.dyes 255 []

/-- `EachPaletteColor` of the builder counts the colors of dyes instead of those of palettes. With
dyes of 1 and 3 alphas and palettes of 2, 1 and 1 colors, the third palette gets 247 instead of 248,
and the first two make it panic for there is no third dye. Without dyes it panics. -/
theorem eachPaletteColor_violated :
    (Sample.palettes.eachPaletteColor (ascii "red")).isPanic = true ∧
    (Sample.palettes.eachPaletteColor (ascii "blue")).isPanic = true ∧
    (Sample.palettes.eachPaletteColor (ascii "green")) =
      .ok ([(⟨0, 255, 0, 255⟩, 247)], "palette section not found") ∧
    (do let b ← Sample.oneGlyph.addPalette (ascii "red") [⟨255, 0, 0, 255⟩]
        let b ← b.addPalette (ascii "blue") [⟨0, 0, 255, 255⟩]
        b.eachPaletteColor (ascii "blue")).isPanic = true := by
  decide +kernel

/-- Two dyes and two palettes, built and read. -/
example : ∃ b' f, Sample.colored.build Sample.env = .ok (b', f) ∧
    f.eachDye = .ok [ascii "main", ascii "shadow"] ∧ f.eachPalette = .ok [ascii "red", ascii "blue"] ∧
    f.eachDyeAlpha 0 = .ok [255, 128] ∧ f.eachDyeAlpha 1 = .ok [90] ∧
    f.eachPaletteColor 1 = .ok [(0, 0, 255, 255)] := by
  refine ⟨(Sample.result Sample.colored).1, (Sample.result Sample.colored).2, ?_⟩
  decide +kernel

example : ColorsOk Sample.colored ∧ ColorsStorable Sample.colored := by
  refine ⟨⟨by decide +kernel, by decide +kernel⟩, ?_, ?_, ?_, ?_, ?_, ?_⟩ <;> decide +kernel

end C39
