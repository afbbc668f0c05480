import Verif.Lemmas.Validate
import Verif.Props.C45
import Verif.Props.C18

/-!
# C50: `Validate` accepts the fonts that can be used

Default validation accepts all fonts that `Parse` returns, and of the fonts that `Build` returns those with a name and
without misplaced interspacing. It also accepts fonts that `Parse` would reject. Strict validation never succeeds.
-/

namespace C50
open Go Spec FontModel BuilderModel ParseBuf ParseModel

/-- What default validation accepts; everything else is an error. -/
theorem default_exact {f : Font} (hf : FieldsFit f) :
    (f.validate false = .ok () ↔ Valid f) ∧ (¬ Valid f → ∃ m, f.validate false = .err m) := by
  refine ⟨validate_iff hf, fun hv => ?_⟩
  cases h : f.validate false with
  | ok u => exact absurd ((validate_iff hf).1 h) hv
  | err m => exact ⟨m, rfl⟩
  | panic m => exact absurd h (validate_noPanic hf m)

/-- Every font returned by `Parse` is valid. -/
theorem parsed (junk : Nat → UInt8) {D : Bytes} {r : Reader} (hr : r.Serves D)
    (hD : D.length ≤ maxFontDataSize) {f : Font} (h : parseStream junk r = .ok f) :
    FieldsFit f ∧ f.validate false = .ok () := by
  obtain ⟨stop, t, _, h4⟩ := C45.accepted_partial junk hr hD h
  obtain ⟨a, b⟩ := valid_of_tolerated t h4
  exact ⟨a, (validate_iff a).2 b⟩

/-- A font returned by `Build` is valid exactly when it has a name, and vertical interspacing only with vertical layout.
Missing: the others should not be built. -/
theorem built_partial {env : Env} {b b' : Builder} {f : Font} (hr : Reachable b)
    (h : b.build env = .ok (b', f)) : FieldsFit f ∧
    (f.validate false = .ok () ↔ b.fontName ≠ [] ∧ (b.vertInterspacing = 0 ∨ b.hasVertLayout = true)) := by
  obtain ⟨s, w, bi, hb⟩ := build_parts h
  have hk := hr.inv.toKept
  exact ⟨hb.fieldsFit hk, by rw [validate_iff (hb.fieldsFit hk), hb.valid_iff hk]⟩

/-- `Build` returns fonts that are not valid. -/
theorem built_violated : ¬ ∀ (env : Env) (b b' : Builder) (f : Font), Reachable b →
    b.build env = .ok (b', f) → f.validate false = .ok () := by
  intro h
  obtain ⟨hr, b', f, hb, _⟩ := C18.name_rejected
  have := ((built_partial hr hb).2.1 (h _ _ _ _ hr hb)).1
  exact this (by decide +kernel)

/-- Valid fonts can be exported, but not all of them can be parsed again: here a dye has no alphas. -/
theorem accepted_violated : ¬ ∀ (env : Env) (b b' : Builder) (f : Font) (first : Ev) (gz : Res Reader)
    (junk : Nat → UInt8), Reachable b → b.build env = .ok (b', f) → f.validate false = .ok () →
    Exported f first gz → parse junk first gz = .ok f := by
  intro h
  obtain ⟨hr, b', f, hb, _, _, ⟨first, gz, he⟩, hp⟩ := C18.dyeAlphas_rejected
  obtain ⟨m, hm⟩ := hp first gz (fun _ => 0) he
  have hv := (built_partial hr hb).2.2 (by decide +kernel)
  rw [h _ _ _ _ first gz (fun _ => 0) hr hb hv he] at hm
  cases hm

/-- Strict validation fails in the same way when the header is wrong, and otherwise panics: it never succeeds. -/
theorem strict_partial {f : Font} (hf : FieldsFit f) :
    (HeaderChecks f.data → f.validate true = .panic "unimplemented") ∧
    (¬ HeaderChecks f.data → ∃ m, f.validate true = .err m ∧ f.validate false = .err m) := by
  rw [validate_strict, validate_default]
  have h1 := validateHeader_iff hf.name.1 hf.name.2
  cases h : f.validateHeader with
  | ok u => exact ⟨fun _ => rfl, fun hn => absurd (h1.1 h) hn⟩
  | err m => exact ⟨fun hc => (by rw [h1.2 hc] at h; cases h), fun _ => ⟨m, rfl, rfl⟩⟩
  | panic m => exact absurd h (validateHeader_noPanic hf.name.1 hf.name.2 m)

/-- No font at all passes strict validation. -/
theorem strict_violated (f : Font) : f.validate true ≠ .ok () := by
  rw [validate_strict]
  cases f.validateHeader <;> simp

/-- The limit of dyes and palettes together: 255, not 256. -/
example :
    let f (d p : UInt8) : Font := { richParsed with
      data := (richParsed.data.set richParsed.offDyes d).set richParsed.offPalettes p }
    (f 200 55).validate false = .ok () ∧ (f 255 0).validate false = .ok () ∧
    (f 200 56).validate false = .err "NumDyes + NumPalettes can't exceed 255" := by decide +kernel

/-- A sample font: valid, and strict validation panics. -/
example : FieldsFit richParsed ∧ Valid richParsed ∧ HeaderChecks richParsed.data ∧
    richParsed.validate false = .ok () ∧ richParsed.validate true = .panic "unimplemented" := by
  have hf : FieldsFit richParsed := ⟨by decide +kernel, by decide +kernel, by decide +kernel, by decide +kernel,
    by decide +kernel⟩
  have hv : richParsed.validate false = .ok () := by decide +kernel
  have h := (default_exact hf).1.1 hv
  exact ⟨hf, h, h.header, hv, (strict_partial hf).1 h.header⟩

end C50
