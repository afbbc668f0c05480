import Verif.Lemmas.BuiltPalette
import Verif.Spec.SamplePalette
import Verif.Props.C45

/-!
# C51: the color palette of a font lists its colors by index

Index zero is transparent; then come the alphas of the dyes and the colors of the palettes, in order. This holds
exactly when no dye and no palette is empty; otherwise `GoColorPalette` panics.
-/

namespace C51
open Go Spec FontModel BuilderModel ParseBuf ParseModel

/-- For all fonts with their color data: the table of colors, or a panic when section ends are not rising. -/
theorem palette_exact {f : Font} (hf : ColorsFit f) :
    (Rising f.data f.offDyes ∧ Rising f.data f.offPalettes → f.goColorPalette = .ok (colorTable f)) ∧
    (¬ (Rising f.data f.offDyes ∧ Rising f.data f.offPalettes) → ∃ m, f.goColorPalette = .panic m) :=
  ⟨fun h => goColorPalette_ok hf h.1 h.2, goColorPalette_panic hf⟩

/-- One color for each index, at most 256. -/
theorem palette_length {f : Font} (hf : ColorsFit f) :
    (colorTable f).length = 1 + usedColors f.data f.offDyes + usedColors f.data f.offPalettes ∧
    (colorTable f).length ≤ 256 ∧ ∀ i (hi : i < (colorTable f).length), (colorTable f)[i] = colorAt f i := by
  have := hf.total
  refine ⟨by simp [colorTable], by simp [colorTable]; omega, fun i hi => ?_⟩
  simp [colorTable]

/-- Fonts returned by `Parse` have their color data. Missing: their sections should not be empty. -/
theorem parsed_partial (junk : Nat → UInt8) {D : Bytes} {r : Reader} (hr : r.Serves D)
    (hD : D.length ≤ maxFontDataSize) {f : Font} (h : parseStream junk r = .ok f) : ColorsFit f := by
  obtain ⟨stop, t, _, h4⟩ := C45.accepted_partial junk hr hD h
  exact colorsFit_of_tolerated t h4

/-- Built fonts without empty sections give back all colors that were added (or the alpha of the dye `main`);
with an empty section there is a panic. -/
theorem built_partial {env : Env} {b b' : Builder} {f : Font} (hr : Reachable b)
    (h : b.build env = .ok (b', f)) :
    ((∀ d ∈ b.dyes, d.alphas ≠ []) ∧ (∀ p ∈ b.palettes, p.colors ≠ []) →
      f.goColorPalette = .ok ((0, 0, 0, 0) ::
        (((if b.dyes = [] ∧ b.palettes = [] then [⟨ascii "main", [255]⟩] else b.dyes).map
          fun d => d.alphas).flatten.map fun a => (a.toNat, a.toNat, a.toNat, a.toNat)) ++
        (b.palettes.map fun p => p.colors).flatten.map rgbaValues)) ∧
    (¬ ((∀ d ∈ b.dyes, d.alphas ≠ []) ∧ (∀ p ∈ b.palettes, p.colors ≠ [])) →
      ∃ m, f.goColorPalette = .panic m) := by
  obtain ⟨s, w, bi, hb⟩ := build_parts h
  have hk := hr.inv.toKept
  have hd : b'.dyes = (if b.dyes = [] ∧ b.palettes = [] then [⟨ascii "main", [255]⟩] else b.dyes) := by
    rw [Builder.main_eq hb.main]
  have hiff : (∀ d ∈ b'.dyes, d.alphas ≠ []) ↔ ∀ d ∈ b.dyes, d.alphas ≠ [] := by
    rw [hd]
    split
    · rename_i h0; rw [h0.1]; simp
    · rfl
  obtain ⟨c1, c2, c3⟩ := hb.colorsFit hk
  rw [hiff] at c2
  constructor
  · rintro ⟨h1, h2⟩
    rw [← hd]
    exact hb.goColorPalette hk (hiff.2 h1) h2
  · intro hn
    exact goColorPalette_panic c1 (by rw [c2, c3]; exact hn)

/-- `Parse` accepts a font whose second dye has no alphas; its colors cannot be listed. -/
theorem parsed_violated : ∃ f r, r.Serves emptySecond ∧ parseStream (fun _ => 0) r = .ok f ∧
    f.goColorPalette = .panic "invalid font data" := by
  refine ⟨{ tinyParsed with
    data := emptySecond, offPalettes := 60, offGlyphNames := 61,
    offGlyphMasks := 63, offWords := 67, offSettingNames := 68, offSettingDefs := 69,
    offSwitches := 69, offMapping := 70, offConditions := 72, offUtf8Sets := 73, offGlyphSets := 74,
    offUtf8Rules := 75, offGlyphRules := 77, offHorzKern := 79, offVertKern := 82 },
    ⟨[⟨emptySecond, .nil⟩], .eof⟩,
    ⟨by decide +kernel, rfl, ⟨[], by simp, rfl⟩, by simp [StallFree, emptySecond, tinyFont]⟩, ?_, ?_⟩ <;> decide +kernel

/-- The indices that the builder reports for the alphas of its dyes are not those of the colors of the font. -/
theorem index_violated : ¬ ∀ (env : Env) (b b' : Builder) (f : Font) (name : Bytes) (a i : UInt8), Reachable b →
    b.build env = .ok (b', f) → (a, i) ∈ (b.eachDyeAlpha name).1 →
    colorAt f i.toNat = (a.toNat, a.toNat, a.toNat, a.toNat) := by
  intro h
  have hr : Reachable (Sample.val Sample.fresh (Sample.oneGlyph.addDye (ascii "main") [255, 128])) :=
    oneGlyph_reachable.call (.addDye (name := ascii "main") (alphas := [255, 128]) (by decide +kernel))
  have := h Sample.env _ (Sample.result (Sample.val Sample.fresh (Sample.oneGlyph.addDye (ascii "main") [255, 128]))).1
    (Sample.result (Sample.val Sample.fresh (Sample.oneGlyph.addDye (ascii "main") [255, 128]))).2
    (ascii "main") 255 255 hr (by decide +kernel) (by decide +kernel)
  revert this
  decide +kernel

/-- The colors of a built font with two dyes and two palettes. -/
example : Reachable Sample.colored ∧ ∃ b' f, Sample.colored.build Sample.env = .ok (b', f) ∧ ColorsFit f ∧
    Rising f.data f.offDyes ∧ Rising f.data f.offPalettes ∧ f.goColorPalette = .ok [(0, 0, 0, 0),
      (255, 255, 255, 255), (128, 128, 128, 128), (90, 90, 90, 90), (255, 0, 0, 255), (128, 0, 0, 255),
      (0, 0, 255, 255)] := by
  have hr : Reachable Sample.colored :=
    (((oneGlyph_reachable.call (.addDye (name := ascii "main") (alphas := [255, 128])
      (b' := Sample.val Sample.fresh (Sample.oneGlyph.addDye (ascii "main") [255, 128])) (by decide +kernel))).call
      (.addPalette (name := ascii "red") (colors := [⟨255, 0, 0, 255⟩, ⟨128, 0, 0, 255⟩])
        (b' := Sample.val Sample.fresh (do
          let b ← Sample.oneGlyph.addDye (ascii "main") [255, 128]
          b.addPalette (ascii "red") [⟨255, 0, 0, 255⟩, ⟨128, 0, 0, 255⟩])) (by decide +kernel))).call
      (.addDye (name := ascii "shadow") (alphas := [90])
        (b' := Sample.val Sample.fresh (do
          let b ← Sample.oneGlyph.addDye (ascii "main") [255, 128]
          let b ← b.addPalette (ascii "red") [⟨255, 0, 0, 255⟩, ⟨128, 0, 0, 255⟩]
          b.addDye (ascii "shadow") [90])) (by decide +kernel))).call
      (.addPalette (name := ascii "blue") (colors := [⟨0, 0, 255, 255⟩]) (by decide +kernel))
  refine ⟨hr, (Sample.result Sample.colored).1, (Sample.result Sample.colored).2, by decide +kernel,
    ⟨by decide +kernel, by decide +kernel, by decide +kernel⟩, ?_, ?_, by decide +kernel⟩
  · unfold Rising; decide +kernel
  · unfold Rising; decide +kernel

end C51
