import Verif.Lemmas.Overflow
import Verif.Lemmas.SameData

/-!
# C18: fonts made by the builder are accepted by `Parse`

The builder makes fonts that `Parse` rejects: `Acceptable` lists what is checked by `Parse` only. When it
holds (and the data fits the end offsets, `SizesFit`), `Parse` returns the font that was built; when it does not,
`Parse` returns an error.
-/

namespace C18
open Go Spec FontModel BuilderModel ParseBuf ParseModel

/-- A font that was built and exported is parsed back, with the same data and offsets, if it is acceptable;
otherwise `Parse` returns an error. Missing: data that does not fit the end offsets. -/
theorem parse_built_partial {env : Env} {b b' : Builder} {f : Font} {first : Ev} {gz : Res Reader}
    (junk : Nat → UInt8) (hf : Fair env) (hz : ∃ k, 0 < k ∧ k < 256 ∧ env.predef k = env.predef 0)
    (hr : Reachable b) (h : b.build env = .ok (b', f)) (he : Exported f first gz) (ht : SizesFit b' f) :
    (Acceptable b' f → parse junk first gz = .ok f) ∧
    (¬ Acceptable b' f → ∃ m, parse junk first gz = .err m) :=
  Spec.parse_built junk hf hz hr h he ht

/-- Without any hypothesis on sizes: the font is parsed back exactly when its data fits the end offsets and it is
acceptable. -/
theorem parse_exact {env : Env} {b b' : Builder} {f : Font} {first : Ev} {gz : Res Reader}
    (junk : Nat → UInt8) (hf : Fair env) (hz : ∃ k, 0 < k ∧ k < 256 ∧ env.predef k = env.predef 0)
    (hr : Reachable b) (h : b.build env = .ok (b', f)) (he : Exported f first gz) :
    parse junk first gz = .ok f ↔ SizesFit b' f ∧ Acceptable b' f :=
  Spec.parse_exact junk hf hz hr h he

/-- Every font can be exported and read. -/
theorem exported (f : Font) : ∃ first gz, Exported f first gz := exists_exported f

/-- No name. -/
theorem name_rejected : Rejected Sample.noName fun b _ => b.fontName ≠ [] := by
  rejects (oneGlyph_reachable.call (.setName (valid := fun _ => true) (name := []) (by decide +kernel))) (·.name)

/-- Vertical interspacing without vertical layout. -/
theorem vertInterspacing_rejected :
    Rejected Sample.interspaced fun b _ => b.vertInterspacing = 0 ∨ b.hasVertLayout = true := by
  rejects (oneGlyph_reachable.call (.setVertInterspacing 1)) (·.vertInterspacing)

/-- A dye without alphas. -/
theorem dyeAlphas_rejected :
    Rejected Sample.emptyDye fun b _ => b.dyes.length ≤ (b.dyes.map fun d => d.alphas.length).sum := by
  rejects (oneGlyph_reachable.call (.addDye (name := ascii "main") (alphas := []) (by decide +kernel))) (·.dyeAlphas)

/-- A dye without name. -/
theorem dyeNames_rejected :
    Rejected Sample.namelessDye fun b _ => b.dyes.length ≤ (b.dyes.map fun d => d.name.length).sum := by
  rejects (oneGlyph_reachable.call (.addDye (name := []) (alphas := [255]) (by decide +kernel))) (·.dyeNames)

/-- A palette without colors. -/
theorem paletteColors_rejected :
    Rejected Sample.emptyPalette fun b _ => b.palettes.length ≤ (b.palettes.map fun p => p.colors.length).sum := by
  rejects (oneGlyph_reachable.call (.addPalette (name := ascii "red") (colors := []) (by decide +kernel)))
    (·.paletteColors)

/-- A palette without name. -/
theorem paletteNames_rejected :
    Rejected Sample.namelessPalette fun b _ => b.palettes.length ≤ (b.palettes.map fun p => p.name.length).sum := by
  rejects (oneGlyph_reachable.call (.addPalette (name := []) (colors := [⟨255, 0, 0, 255⟩]) (by decide +kernel)))
    (·.paletteNames)

/-- A mask that takes more than 255 bytes. -/
theorem masks_rejected : Rejected Sample.longMask fun b f => f.offWords ≤
    f.offGlyphMasks + 3 * b.glyphOrder.length + (placementLen b + 255) * b.glyphOrder.length := by
  rejects (fresh_reachable.call (.addGlyph (rolls := [1001]) (mask := Sample.gradient) (uid := 1001)
    (by decide +kernel))) (·.masks)

/-- A setting without options. -/
theorem options_rejected :
    Rejected Sample.noOptions fun b _ => b.settings.length ≤ (b.settings.map fun s => s.options.length).sum := by
  rejects (oneGlyph_reachable.call (.addSetting (name := ascii "style") (options := []) (key := 0)
    (by decide +kernel))) (·.options)

/-- 254 switches, as many as the builder allows. -/
theorem switches_rejected : Rejected Sample.manySwitches fun b _ => b.switches.length ≤ 253 := by
  rejects (Reachable.fold (step := fun b s => do return (← b.addSwitch s).1) (l := List.replicate 254 [0])
    (b := (Sample.val (Sample.fresh, 0) (Sample.oneGlyph.addSetting (ascii "style") [ascii "on"])).1)
    (fun b x b' h => by
      obtain ⟨⟨c, i⟩, h1, h2⟩ := Res.bind_eq_ok.1 h
      rw [← Res.ok.inj h2]
      exact .addSwitch h1) (by decide +kernel)
    (oneGlyph_reachable.call (.addSetting (name := ascii "style") (options := [ascii "on"]) (key := 0)
      (by decide +kernel)))) (·.switches)

/-- A glyph set without glyphs. -/
theorem glyphSets_rejected : Rejected Sample.emptySet fun b f => b.glyphSetsOrder ≠ [] →
    f.offGlyphSets + (1 + 2 * b.glyphSetsOrder.length) + (1 + 3 * b.glyphSetsOrder.length) ≤ f.offUtf8Rules := by
  rejects (oneGlyph_reachable.call (.createGlyphSet (uid := 5) (i := 5) (by decide +kernel))) (·.glyphSets)

/-- A rewrite rule for a sequence of 250 runes (the builder allows 255). -/
theorem utf8Rules_rejected : Rejected Sample.longUtf8Rule fun b f => f.offGlyphRules ≤
    f.offUtf8Rules + (2 + 3 * b.utf8Rules.length) + 1026 * b.utf8Rules.length := by
  rejects (oneGlyph_reachable.call (.addSimpleUtf8RewriteRule (c := 65) (sequence := List.replicate 250 66)
    (by decide) (by decide +kernel) (by decide +kernel))) (·.utf8Rules)

/-- A rewrite rule from 255 glyphs to 255 glyphs. -/
theorem glyphRules_rejected : Rejected Sample.longGlyphRule fun b f => f.offHorzKern ≤
    f.offGlyphRules + (2 + 3 * b.glyphRules.length) + 514 * b.glyphRules.length := by
  rejects (oneGlyph_reachable.call (.addGlyphRewriteRule (headLen := 0) (bodyLen := 255) (tailLen := 0)
    (input := List.replicate 255 1001) (out := List.replicate 255 1001) (by decide +kernel))) (·.glyphRules)

/-- A code point mapped to no glyph for each of 2^64 combinations. -/
theorem mapping_rejected : Rejected Sample.noCases fun b f =>
    f.offMapping + (2 + 7 * b.runeMapping.length) + 3 * b.runeMapping.length ≤ f.offConditions := by
  rejects noCases_reachable (·.mapping)

/-- This is the only way: the condition for the mapping holds if no switch has 2^64 combinations or more. -/
theorem mapping_accepted {env : Env} {b b' : Builder} {f : Font} (hr : Reachable b) (h : b.build env = .ok (b', f))
    (hs : ∀ sw ∈ b.switches, combinations (sw.map (options b)) < 18446744073709551616)
    (hm : f.offConditions ≤ f.offMapping + (2 + 7 * b.runeMapping.length) + 16777215) :
    f.offMapping + (2 + 7 * b'.runeMapping.length) + 3 * b'.runeMapping.length ≤ f.offConditions :=
  mapping_least hr h hs hm

/-- The statement does not hold. -/
theorem parse_built_violated :
    ¬ ∀ (env : Env) (b b' : Builder) (f : Font) (first : Ev) (gz : Res Reader) (junk : Nat → UInt8), Fair env →
      (∃ k, 0 < k ∧ k < 256 ∧ env.predef k = env.predef 0) → Reachable b → b.build env = .ok (b', f) →
      Exported f first gz → parse junk first gz = .ok f := by
  intro h
  obtain ⟨hr, b', f, hb, _, _, ⟨first, gz, he⟩, hp⟩ := name_rejected
  obtain ⟨m, hm⟩ := hp first gz (fun _ => 0) he
  rw [h _ _ _ _ first gz (fun _ => 0) env_fair env_zero hr hb he] at hm
  cases hm

/-- `AddDye` and `AddPalette` accept names of any length, but the end offsets of names have 16 bits. For every
builder without colors whose font is parsed back (and is not close to the limit): with a dye that has a name of 65540
bytes, the font that is read is not the one that was built, but the font of a builder with another dye and a palette.
No error is returned. -/
theorem misread {env : Env} {b b' : Builder} {f : Font} (hf : Fair env)
    (hz : ∃ k, 0 < k ∧ k < 256 ∧ env.predef k = env.predef 0) (hr : Reachable b) (h : b.build env = .ok (b', f))
    (h1 : b.dyes = []) (h2 : b.palettes = []) (hs : f.data.length + 65546 ≤ maxFontDataSize)
    (hp : ∃ first gz junk, Exported f first gz ∧ parse junk first gz = .ok f) {filler : Bytes}
    (hl : filler.length = 65528) :
    Reachable (Sample.longDye b filler) ∧ Reachable (Sample.trueColors b filler) ∧
    ∃ g g', (Sample.longDye b filler).build env = .ok (Sample.longDye b filler, g) ∧
      (Sample.trueColors b filler).build env = .ok (Sample.trueColors b filler, g') ∧
      g.numPalettes = .ok 0 ∧ g'.numPalettes = .ok 1 ∧
      ∀ first gz junk, Exported g first gz → parse junk first gz = .ok g' := by
  obtain ⟨first, gz, junk, he, hp⟩ := hp
  obtain ⟨ht, ha⟩ := (parse_exact junk hf hz hr h he).1 hp
  obtain ⟨r1, r2, g, g', b1, b2, hd, n1, n2, hfit⟩ := same_data hr h hl h1 h2 hs
  obtain ⟨ht', ha'⟩ := hfit ht ha
  refine ⟨r1, r2, g, g', b1, b2, n1, n2, fun first gz junk he => ?_⟩
  obtain ⟨s, w, bi, hb⟩ := build_parts b2
  have hk := r2.inv.toKept
  obtain ⟨hL, hK⟩ := hb.layout hk hf hz ht'
  obtain ⟨r, hv, hp⟩ := he.parse junk
  rw [hp]
  rw [← hd] at hv
  exact (parseStream_checks junk hv hb.data_len rfl hL hK).1 ((hb.checks_iff hk hf hz ht').2 ha')

/-- A font is read as another one. -/
theorem misread_violated :
    ¬ ∀ (env : Env) (b b' : Builder) (f f' : Font) (first : Ev) (gz : Res Reader) (junk : Nat → UInt8), Fair env →
      (∃ k, 0 < k ∧ k < 256 ∧ env.predef k = env.predef 0) → Reachable b → b.build env = .ok (b', f) →
      Exported f first gz → parse junk first gz = .ok f' → f' = f := by
  intro h
  have hb : Sample.oneGlyph.build Sample.env =
      .ok ((Sample.result Sample.oneGlyph).1, (Sample.result Sample.oneGlyph).2) := by decide +kernel
  have hp : ∃ first gz junk, Exported (Sample.result Sample.oneGlyph).2 first gz ∧
      parse junk first gz = .ok (Sample.result Sample.oneGlyph).2 := by
    obtain ⟨first, gz, he⟩ := exported (Sample.result Sample.oneGlyph).2
    exact ⟨first, gz, fun _ => 0, he, (parse_exact _ env_fair env_zero oneGlyph_reachable hb he).2
      ⟨fits_of (by decide +kernel), ⟨by decide +kernel, by decide +kernel, by decide +kernel, by decide +kernel,
        by decide +kernel, by decide +kernel, by decide +kernel, by decide +kernel, by decide +kernel,
        by decide +kernel, by decide +kernel, by decide +kernel, by decide +kernel⟩⟩⟩
  have hlen : ∀ n, ∃ l : Bytes, l.length = n := fun n => ⟨List.replicate n 97, List.length_replicate⟩
  obtain ⟨filler, hl⟩ := hlen 65528
  obtain ⟨r1, -, g, g', b1, -, n1, n2, hg⟩ := misread env_fair env_zero oneGlyph_reachable hb (by decide +kernel)
    (by decide +kernel) (by decide +kernel) hp hl
  obtain ⟨first, gz, he⟩ := exported g
  have := h _ _ _ _ _ _ _ (fun _ => 0) env_fair env_zero r1 b1 he (hg _ _ _ he)
  rw [this, n1] at n2
  exact absurd (Res.ok.inj n2) (by decide)

/-- A builder with settings, a switch and mappings of all kinds is reachable and acceptable, and its data fits. -/
example : Reachable Sample.mapped ∧ Sample.mapped.build Sample.env = .ok (Sample.result Sample.mapped) ∧
    SizesFit (Sample.result Sample.mapped).1 (Sample.result Sample.mapped).2 ∧
    Acceptable (Sample.result Sample.mapped).1 (Sample.result Sample.mapped).2 := by
  refine ⟨?_, by decide +kernel, fits_of (by decide +kernel), ?_⟩
  · exact mapped_reachable
  · exact ⟨by decide +kernel, by decide +kernel, by decide +kernel, by decide +kernel, by decide +kernel,
      by decide +kernel, by decide +kernel, by decide +kernel, by decide +kernel, by decide +kernel,
      by decide +kernel, by decide +kernel, by decide +kernel⟩

end C18
