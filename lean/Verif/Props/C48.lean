import Verif.Lemmas.Refused
import Verif.Lemmas.Size

/-!
# C48: When Build gives a font

For builders made with the public methods on which `Build` does not panic (C47): there is a font exactly when the
conditions of `Spec.WellMade` hold and the limits on the size of the data are respected. Some builders can not be
repaired.
-/

namespace C48
open Go BuilderModel EditionModel Spec Spec.Size

variable {b : Builder} {env : Env}

/-- **C48, necessity.** -/
theorem wellMade_of_built (hr : Reachable b) {r : Builder × FontModel.Font} (h : b.build env = .ok r) :
    WellMade b :=
  Builder.build_wellMade hr h

/-- **C48.** Without panics, `Build` fails for `WellMade` builders only when the data is too large. -/
theorem built_or_large (hr : Reachable b) (hb : Buildable b) (hw : WellMade b) (hf : Fair env)
    (ho : ∀ l, (env.fragOrder l).Perm l) (hz : ∃ k, 0 < k ∧ k < 256 ∧ env.predef k = env.predef 0) :
    (∃ r, b.build env = .ok r) ∨ ∃ m, b.build env = .err m ∧ TooLarge m := by
  have he := fun u g hg => Builder.small_encodes ho (hb.masks u g hg)
  have h1 := Builder.build_calm hr hb.toOrderly hf he hz
  have h2 := Builder.build_errs hr hw he hf hz
  cases h : b.build env with
  | ok r => exact .inl ⟨r, rfl⟩
  | err m => exact .inr ⟨m, rfl, h2 m h⟩
  | panic m => rw [h] at h1; cases h1

/-- **C48, both ways.** There is a font exactly when the tables and references are as `Build` expects them (C47), the
conditions hold, all masks can be encoded (C10), and the data is not too large. The size is exact
(`Spec.Size.fontSize`). -/
theorem built_exactly (hr : Reachable b) (hf : Fair env)
    (hz : ∃ k, 0 < k ∧ k < 256 ∧ env.predef k = env.predef 0) :
    (∃ r, b.build env = .ok r) ↔ Orderly b ∧ WellMade b ∧ (∀ u g, b.glyphData.get u = some g → Encodes env g.mask) ∧
      FitsData env (withMain b) := by
  constructor
  · rintro ⟨⟨b', f⟩, h⟩
    obtain ⟨rfl, _, h1⟩ := Builder.build_size hr hf h
    exact ⟨Builder.build_needs hr h, wellMade_of_built hr h, Builder.build_encodes hr h, h1⟩
  · rintro ⟨hb, hw, he, hs⟩
    have h1 := Builder.build_calm hr hb hf he hz
    have h2 := Builder.build_fits (P := fun _ => False) hr hw he hf hz hs
    cases h : b.build env with
    | ok r => exact ⟨r, rfl⟩
    | err m => exact (h2 m h).elim
    | panic m => rw [h] at h1; cases h1

/-- With small masks, two of the conditions are left. -/
theorem built_iff (hr : Reachable b) (hb : Buildable b) (hf : Fair env)
    (ho : ∀ l, (env.fragOrder l).Perm l) (hz : ∃ k, 0 < k ∧ k < 256 ∧ env.predef k = env.predef 0) :
    (∃ r, b.build env = .ok r) ↔ WellMade b ∧ FitsData env (withMain b) := by
  rw [built_exactly hr hf hz]
  exact ⟨fun h => ⟨h.2.1, h.2.2.2⟩, fun h => ⟨hb.toOrderly, h.1, fun u g hg => Builder.small_encodes ho (hb.masks u g hg), h.2⟩⟩

/-- **C48, size.** The size of every font that is built. -/
theorem size (hr : Reachable b) (hf : Fair env) {b' : Builder} {f : FontModel.Font} (h : b.build env = .ok (b', f)) :
    b' = withMain b ∧ f.data.length = fontSize env b' ∧ f.data.length ≤ 33554432 := by
  obtain ⟨h1, h2, h3⟩ := Builder.build_size hr hf h
  exact ⟨h1, h2, by rw [h2]; exact h3.all⟩

/-- **C48, glyphs.** A bound for the part of the size that depends on the encoding: up to 4 bytes for the placement and 6
for every visible pixel. -/
theorem glyph_size (ho : ∀ l, (env.fragOrder l).Perm l) {u : Nat} {g : GlyphData} (hg : b.glyphData.get u = some g)
    (hm : C10.ValidMask g.mask) {pixels : List (Int × Int)}
    (hp : ∀ px py, g.mask.alphaAt px py ≠ 0 → (px, py) ∈ pixels) :
    encodedLen (b.glyphBlock env u) ≤ 4 + 6 * pixels.length := by
  have e : b.glyph u = .ok g := by rw [Builder.glyph, hg]
  rw [Builder.glyphBlock, e, Res.ok_bind]
  cases h : Mask.appendRasterOps env.fragOrder (b.placementBytes g.placement) g.mask with
  | ok x =>
    have h1 := C10.length_le hm ho h hp
    have h2 : (b.placementBytes g.placement).length ≤ 4 := by
      rw [Builder.placementBytes]; split <;> simp
    simp only [encodedLen]
    omega
  | err m => simp [encodedLen]
  | panic m => simp [encodedLen]

/-- Well made builders that are too large get an error about the size. -/
theorem too_large (hr : Reachable b) (hb : Buildable b) (hw : WellMade b) (hf : Fair env)
    (ho : ∀ l, (env.fragOrder l).Perm l) (hz : ∃ k, 0 < k ∧ k < 256 ∧ env.predef k = env.predef 0)
    (hs : ¬ FitsData env (withMain b)) : ∃ m, b.build env = .err m ∧ TooLarge m := by
  rcases built_or_large hr hb hw hf ho hz with h | h
  · exact absurd ((built_iff hr hb hf ho hz).1 h).2 hs
  · exact h

example : fontSize Sample.env (withMain Sample.oneGlyph) = (Sample.result Sample.oneGlyph).2.data.length ∧
    0 < fontSize Sample.env (withMain Sample.oneGlyph) := by decide +kernel

/-- **C48, other builders.** An error, not a panic. -/
theorem refused (hr : Reachable b) (hb : Buildable b) (hw : ¬ WellMade b) (hf : Fair env)
    (ho : ∀ l, (env.fragOrder l).Perm l) (hz : ∃ k, 0 < k ∧ k < 256 ∧ env.predef k = env.predef 0) :
    ∃ m, b.build env = .err m := by
  have he := fun u g hg => Builder.small_encodes ho (hb.masks u g hg)
  have h1 := Builder.build_calm hr hb.toOrderly hf he hz
  cases h : b.build env with
  | ok r => exact absurd (wellMade_of_built hr h) hw
  | err m => exact ⟨m, rfl⟩
  | panic m => rw [h] at h1; cases h1

/-- **C48, no glyphs.** -/
theorem no_glyphs (hr : Reachable b) (h : b.glyphOrder = []) :
    b.build env = .err "can't build font with no glyphs" :=
  Builder.build_noGlyphs hr h env

/-- **C48, metrics.** The first condition on the metrics that fails is reported. -/
theorem bad_metrics (hr : Reachable b) (h : b.glyphOrder ≠ []) :
    (b.ascent.toNat = 0 → b.build env = .err "ascent must be strictly positive") ∧
    (0 < b.ascent.toNat → b.ascent.toNat ≤ b.extraAscent.toNat →
      b.build env = .err "ascent must be greater than extra ascent") ∧
    (b.extraAscent.toNat < b.ascent.toNat → b.ascent.toNat < b.midlineAscent.toNat →
      b.build env = .err "ascent must be equal or greater than midline ascent") ∧
    (b.extraAscent.toNat < b.ascent.toNat → b.midlineAscent.toNat ≤ b.ascent.toNat →
      b.ascent.toNat < b.uppercaseAscent.toNat →
      b.build env = .err "ascent must be equal or greater than uppercase ascent") ∧
    (b.extraAscent.toNat < b.ascent.toNat → b.uppercaseAscent.toNat ≤ b.ascent.toNat →
      b.midlineAscent.toNat ≤ b.ascent.toNat → b.uppercaseAscent.toNat < b.midlineAscent.toNat →
      b.build env = .err "midline ascent must be equal or greater than uppercase ascent") := by
  have e : b.ascent = 0 ↔ b.ascent.toNat = 0 := by
    rw [← UInt8.toNat_inj]; rfl
  refine ⟨fun h1 => ?_, fun h1 h2 => ?_, fun h1 h2 => ?_, fun h1 h2 h3 => ?_, fun h1 h2 h3 h4 => ?_⟩ <;>
    refine Builder.build_metrics hr h ?_ env <;>
    simp only [Builder.metricsStatus, e, UInt8.le_iff_toNat_le, UInt8.lt_iff_toNat_lt, gt_iff_lt]
  · rw [if_pos h1]
  · rw [if_neg (by omega), if_pos (by omega)]
  · rw [if_neg (by omega), if_neg (by omega), if_pos (by omega)]
  · rw [if_neg (by omega), if_neg (by omega), if_neg (by omega), if_pos (by omega)]
  · rw [if_neg (by omega), if_neg (by omega), if_neg (by omega), if_neg (by omega), if_pos (by omega)]

/-- **C48, names.** Two glyphs with the same name. -/
theorem same_names (hr : Reachable b) (hm : b.metricsStatus = .ok ()) (hs : b.dyes.length + b.palettes.length ≤ 255)
    {u v : Nat} {g h : GlyphData} (hu : b.glyphData.get u = some g) (hv : b.glyphData.get v = some h)
    (he : g.name = h.name) (hne : g.name ≠ []) (huv : u ≠ v) :
    b.build env = .err "duplicated glyph name" :=
  Builder.build_names hr hm hs hu hv he hne huv env

/-- **C48, references.** The glyphs and sets in sets and rules always exist: those errors are never returned. -/
theorem references (hr : Reachable b) : Refs b := hr.refs

/-- **C48, no way back.** Ranges that are reversed or too long, too many words, too many or too large sets: whatever is
done later, there is no font any more. -/
theorem doomed_forever {e e' : Editor} (he : Edits e) (hd : Doomed e.builder) (hl : Later e e')
    (r : Builder × FontModel.Font) : e'.builder.build env ≠ .ok r := by
  intro h
  have hr : Reachable e'.builder := ⟨_, hl.edits he, rfl⟩
  have hw := Builder.build_wellMade hr h
  have hn := Builder.build_needs hr h
  rcases hl.doomed he hd with hd | hd | hd | ⟨s, hs, hd | hd | ⟨r, hr, hd⟩⟩
  · exact hn.not_spoiled hd
  · exact hd hw.words
  · have := hw.setSizes; omega
  · have := hn.ranges s hs; omega
  · have := hn.lists s hs; omega
  · exact hd (hw.ranges s hs r hr)

/-- A range that has been removed, according to the method, is still there, and keeps `Build` from working. -/
theorem removed_range_violated : Reachable Sample.reversed ∧ Sample.unreversed.2 = true ∧
    Sample.unreversed.1 = Sample.reversed ∧ Sample.unreversed.1.build Sample.env =
      .err "rewrite glyph set range start and end points are reversed" :=
  ⟨Sample.reversed_reachable, by decide +kernel, by decide +kernel, by decide +kernel⟩

/-- The hypotheses are met by a builder with sets and a rule. -/
example : Reachable Sample.withSets ∧ Buildable Sample.withSets ∧ WellMade Sample.withSets ∧ Fair Sample.env ∧
    (∀ l, (Sample.env.fragOrder l).Perm l) ∧
    (∃ k, 0 < k ∧ k < 256 ∧ Sample.env.predef k = Sample.env.predef 0) ∧
    (Sample.withSets.build Sample.env).isOk = true ∧ Sample.withSets.glyphSets.length = 1 ∧
    Sample.withSets.glyphRules.length = 1 := by
  have h : (Sample.withSets.build Sample.env).isOk = true := by decide +kernel
  refine ⟨Sample.withSets_reachable, Sample.withSets_buildable, ?_, env_fair, fun _ => .refl _, env_zero, h,
    by decide +kernel, by decide +kernel⟩
  cases e : Sample.withSets.build Sample.env with
  | ok r => exact wellMade_of_built Sample.withSets_reachable e
  | err m => rw [e] at h; cases h
  | panic m => rw [e] at h; cases h

/-- Equal names. -/
example : Reachable Sample.sameNames ∧ Sample.sameNames.build Sample.env = .err "duplicated glyph name" ∧
    ¬ WellMade Sample.sameNames := by
  refine ⟨Sample.sameNames_reachable, by decide +kernel, fun h => ?_⟩
  have e1 : ∃ g, Sample.sameNames.glyphData.get 1001 = some g ∧ g.name = ascii "same" := by
    cases hg : Sample.sameNames.glyphData.get 1001 with
    | none => exact absurd hg (by decide +kernel)
    | some g => exact ⟨g, rfl, by
        have : (Sample.sameNames.glyphData.get 1001).map (·.name) = some (ascii "same") := by decide +kernel
        rw [hg] at this; exact Option.some.inj this⟩
  have e2 : ∃ g, Sample.sameNames.glyphData.get 1002 = some g ∧ g.name = ascii "same" := by
    cases hg : Sample.sameNames.glyphData.get 1002 with
    | none => exact absurd hg (by decide +kernel)
    | some g => exact ⟨g, rfl, by
        have : (Sample.sameNames.glyphData.get 1002).map (·.name) = some (ascii "same") := by decide +kernel
        rw [hg] at this; exact Option.some.inj this⟩
  obtain ⟨g, hg, hn⟩ := e1
  obtain ⟨g', hg', hn'⟩ := e2
  exact absurd (h.names 1001 1002 g g' hg hg' (hn.trans hn'.symm) (by rw [hn]; decide +kernel)) (by decide)

/-- Too many words. -/
example : Reachable Sample.manyWords ∧
    Sample.manyWords.build Sample.env = .err "setting options require too many words" :=
  ⟨Sample.manyWords_reachable, by decide +kernel⟩

/-- No glyphs, and metrics that do not fit. -/
example : Sample.fresh.build Sample.env = .err "can't build font with no glyphs" ∧
    (Sample.oneGlyph.setAscent 3).build Sample.env = .err "ascent must be equal or greater than midline ascent" := by
  decide +kernel

/-- A builder that can not be repaired. -/
example : ∃ e : Editor, Edits e ∧ Doomed e.builder := by
  obtain ⟨e, he, hb⟩ := Sample.reversed_reachable
  exact ⟨e, he, hb ▸ Sample.reversed_doomed⟩

end C48
