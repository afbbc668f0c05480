import Verif.Lemmas.Grows
import Verif.Lemmas.Unbounded
import Verif.Lemmas.Unbuildable

/-!
# C47: Build of builders made with the public methods

`Build` should give a font or an error for every builder that can be reached with the public methods. It does not:
the methods accept what `Build` takes for an invalid internal state. `Spec.Buildable` says what is enough, and
(but for the masks) necessary.
-/

namespace C47
open Go BuilderModel EditionModel Spec

variable {b : Builder} {env : Env}

/-- **C47, any masks.** The masks need not be small: it is enough that they can be encoded. -/
theorem encodable_no_panic (hr : Reachable b) (hb : Orderly b)
    (he : ∀ u g, b.glyphData.get u = some g → Encodes env g.mask) (hf : Fair env)
    (hz : ∃ k, 0 < k ∧ k < 256 ∧ env.predef k = env.predef 0) (m : String) : b.build env ≠ .panic m :=
  Calm.iff.1 (Builder.build_calm hr hb hf he hz) m

/-- **C47.** `Build` does not panic on builders that can be reached, when the tables have the sizes `Build` expects,
glyphs, sets and classes that are used exist, and masks are small. -/
theorem no_panic_partial (hr : Reachable b) (hb : Buildable b) (hf : Fair env) (ho : ∀ l, (env.fragOrder l).Perm l)
    (hz : ∃ k, 0 < k ∧ k < 256 ∧ env.predef k = env.predef 0) (m : String) : b.build env ≠ .panic m :=
  encodable_no_panic hr hb.toOrderly (fun u g hg => Builder.small_encodes ho (hb.masks u g hg)) hf hz m

/-- **C47, necessity.** When one of the conditions other than that on masks fails, there is no font. -/
theorem orderly_of_built (hr : Reachable b) {r : Builder × FontModel.Font} (h : b.build env = .ok r) : Orderly b :=
  Builder.build_needs hr h

/-- **C47, no way back.** Whatever is done later, there is no font any more. -/
theorem spoiled_forever {e e' : Editor} (he : Edits e) (hs : Spoiled e.builder) (hl : Later e e')
    (r : Builder × FontModel.Font) : e'.builder.build env ≠ .ok r :=
  fun h => (Builder.build_needs ⟨_, hl.edits he, rfl⟩ h).not_spoiled ((hl.grows he).spoiled hs)

/-- **C47, removed sets.** After a glyph set has been removed there is no font any more. -/
theorem removed_forever {e e' : Editor} (he : Edits e) {uid : Nat} (hr : (e.builder.removeGlyphSet uid).2 = true)
    (hl : Later { e with builder := (e.builder.removeGlyphSet uid).1 } e') (r : Builder × FontModel.Font) :
    e'.builder.build env ≠ .ok r :=
  spoiled_forever (he.call (.removeGlyphSet uid)) (removed_spoiled he.calls hr) hl r

/-- The conditions on sizes do not come for free. -/
theorem sizes_violated : (∃ b, Reachable b ∧ b.runeMapping.length > 56789) ∧
    (∃ b, Reachable b ∧ b.utf8Rules.length > 65535) ∧ (∃ b, Reachable b ∧ b.glyphRules.length > 65535) ∧
    ∃ b, Reachable b ∧ b.horzKern.length > 16777215 := by
  obtain ⟨b1, h1, l1⟩ := many_mapped (n := 56790) (by decide)
  obtain ⟨b2, h2, l2⟩ := many_utf8Rules 65536
  obtain ⟨b3, h3, l3, _⟩ := many_glyphRules 65536
  obtain ⟨b4, h4, l4, _⟩ := many_pairs 16777216
  exact ⟨⟨b1, h1, by omega⟩, ⟨b2, h2, by omega⟩, ⟨b3, h3, by omega⟩, ⟨b4, h4, by omega⟩⟩

/-- 256 dyes. -/
theorem dyes_violated : Reachable Sample.manyDyes ∧
    Sample.manyDyes.build Sample.env = .panic "invalid internal state" :=
  ⟨Sample.manyDyes_reachable, by decide +kernel⟩

/-- A glyph that does not exist in a mapping. -/
theorem mapping_violated : Reachable Sample.strayGlyph ∧
    Sample.strayGlyph.build Sample.env = .panic "invalid internal state" :=
  ⟨Sample.strayGlyph_reachable, by decide +kernel⟩

/-- A group of 129 glyphs. -/
theorem group_violated : Reachable Sample.wideGroup ∧
    Sample.wideGroup.build Sample.env = .panic "invalid internal state" :=
  ⟨Sample.wideGroup_reachable, by decide +kernel⟩

/-- A set that has been removed. -/
theorem removed_violated : Reachable Sample.removedSet ∧
    Sample.removedSet.build Sample.env = .panic "invalid internal state" :=
  ⟨Sample.removedSet_reachable, by decide +kernel⟩

/-- A set of 255 ranges. -/
theorem ranges_violated : Reachable Sample.manyRanges ∧
    Sample.manyRanges.build Sample.env = .panic "invalid internal state" :=
  ⟨Sample.manyRanges_reachable, by decide +kernel⟩

/-- A set of 255 glyphs. -/
theorem list_violated : Reachable Sample.longList ∧
    Sample.longList.build Sample.env = .panic "invalid internal state" :=
  ⟨Sample.longList_reachable, by decide +kernel⟩

/-- A rewrite rule without body. -/
theorem body_violated : Reachable Sample.emptyBody ∧
    Sample.emptyBody.build Sample.env = .panic "invalid internal state" :=
  ⟨Sample.emptyBody_reachable, by decide +kernel⟩

/-- A rewrite rule with 256 glyphs as output. -/
theorem output_violated : Reachable Sample.longOutput ∧
    Sample.longOutput.build Sample.env = .panic "invalid internal state" :=
  ⟨Sample.longOutput_reachable, by decide +kernel⟩

/-- Kerning for a glyph that does not exist. -/
theorem kerning_violated : Reachable Sample.strayKerning ∧
    Sample.strayKerning.build Sample.env = .panic "invalid internal state" :=
  ⟨Sample.strayKerning_reachable, by decide +kernel⟩

/-- A vertical pair that is no horizontal pair, from edition data. -/
theorem vertical_violated : Reachable Sample.loaded ∧
    Sample.loaded.build Sample.env = .panic "invalid internal state" :=
  ⟨Sample.loaded_reachable, by decide +kernel⟩

/-- A class that does not exist, from edition data. -/
theorem class_violated : Reachable Sample.misclassed ∧
    Sample.misclassed.build Sample.env = .panic "index out of range" :=
  ⟨Sample.misclassed_reachable, by decide +kernel⟩

/-- A mask far from the origin. -/
theorem mask_violated : Reachable Sample.farGlyph ∧
    Sample.farGlyph.build Sample.env = .panic "distances > 128 unimplemented" :=
  ⟨Sample.farGlyph_reachable, by decide +kernel⟩

/-- The hypotheses are met by a builder with settings, switches and mappings, which is built. -/
example : Reachable Sample.mapped ∧ Buildable Sample.mapped ∧ Fair Sample.env ∧
    (∀ l, (Sample.env.fragOrder l).Perm l) ∧
    (∃ k, 0 < k ∧ k < 256 ∧ Sample.env.predef k = Sample.env.predef 0) ∧
    (Sample.mapped.build Sample.env).isOk = true :=
  ⟨mapped_reachable, Sample.mapped_buildable, env_fair, fun _ => .refl _, env_zero, by decide +kernel⟩

/-- A set that is removed, and a glyph added later. -/
example : ∃ e e' : Editor, Edits e ∧ (e.builder.removeGlyphSet 5).2 = true ∧
    Later { e with builder := (e.builder.removeGlyphSet 5).1 } e' ∧ e'.builder.glyphOrder.length = 2 := by
  obtain ⟨e, he, hb⟩ := Sample.emptySet_reachable
  have hr : (e.builder.removeGlyphSet 5).2 = true := by rw [hb]; decide +kernel
  have h2 : Call (e.builder.removeGlyphSet 5).1
      (Sample.val (Sample.fresh, 0) ((e.builder.removeGlyphSet 5).1.addGlyph [1002] Sample.dot)).1 :=
    .addGlyph (rolls := [1002]) (mask := Sample.dot) (uid := 1002) (by rw [hb]; decide +kernel)
  exact ⟨e, _, he, hr, .call .refl h2, by simp only; rw [hb]; decide +kernel⟩

end C47
