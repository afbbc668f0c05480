import Verif.Spec.ReadBack
import Verif.Props.C16
import Verif.Props.C17
import Verif.Props.C18
import Verif.Props.C19
import Verif.Props.C20
import Verif.Props.C21
import Verif.Props.C23
import Verif.Props.C24
import Verif.Props.C29
import Verif.Props.C30
import Verif.Props.C39
import Verif.Props.C40
import Verif.Props.C44

/-!
# C53: what is put into a builder is read from the file

A builder made with the public methods is built, exported, and the file is parsed (`ReadBack`). What the font then
returns is stated in terms of the builder alone.
-/

namespace C53
open Go Spec FontModel BuilderModel ParseBuf ParseModel

/-- The font that is read is the one that was built. -/
theorem same {env : Env} {b : Builder} {g : Font} (h : ReadBack env b g) :
    ∃ b', b.build env = .ok (b', g) ∧ SizesFit b' g ∧ Acceptable b' g := by
  obtain ⟨b', f, first, gz, junk, hb, hs, he, hp⟩ := h.read
  obtain ⟨h1, h2⟩ := Spec.parse_built junk h.fair h.words h.made hb he hs
  by_cases ha : Acceptable b' f
  · rw [h1 ha] at hp
    cases hp
    exact ⟨b', hb, hs, ha⟩
  · obtain ⟨m, hm⟩ := h2 ha
    rw [hm] at hp
    cases hp

/-- Every builder whose font is acceptable and fits is read back, whatever the file looks like. -/
theorem readable {env : Env} {b b' : Builder} {f : Font} (hf : Fair env) (hp : ∀ l, (env.fragOrder l).Perm l)
    (hz : ∃ k, 0 < k ∧ k < 256 ∧ env.predef k = env.predef 0) (hr : Reachable b) (h : b.build env = .ok (b', f))
    (hs : SizesFit b' f) (ha : Acceptable b' f) : ReadBack env b f := by
  obtain ⟨first, gz, he⟩ := C18.exported f
  exact ⟨hf, hp, hz, hr, b', f, first, gz, fun _ => 0, h, hs, he,
    (Spec.parse_built _ hf hz hr h he hs).1 ha⟩

/-- Identification, versions, dates, name. Missing: family, author and description for long texts, for which it does not
hold (`C16.family_violated`, `C16.author_violated`, `C16.about_violated`). -/
theorem header_partial {env : Env} {b : Builder} {g : Font} (h : ReadBack env b g)
    (h1 : DateFits b.firstVersionDate) (h2 : DateFits b.majorVersionDate) (h3 : DateFits b.minorVersionDate) :
    g.formatVersion = .ok 2 ∧ g.id = .ok b.fontID.toNat ∧
    g.versionMajor = .ok b.versionMajor.toNat ∧ g.versionMinor = .ok b.versionMinor.toNat ∧
    g.firstVersionDate = .ok b.firstVersionDate ∧ g.majorVersionDate = .ok b.majorVersionDate ∧
    g.minorVersionDate = .ok b.minorVersionDate ∧ g.name = .ok b.fontName ∧
    (b.fontName.length ≤ 225 → g.family = .ok b.fontFamily) ∧
    (b.fontName.length + b.fontFamily.length ≤ 224 → g.author = .ok b.fontAuthor) ∧
    (b.fontName.length + b.fontFamily.length + b.fontAuthor.length ≤ 222 → g.about = .ok b.fontAbout) := by
  obtain ⟨b', hb, _⟩ := same h
  exact C16.built_read_partial env b b' g hb h1 h2 h3

/-- All metrics. -/
theorem metrics {env : Env} {b : Builder} {g : Font} (h : ReadBack env b g) :
    g.numGlyphs = .ok b.glyphOrder.length ∧ g.hasVertLayout = .ok b.hasVertLayout ∧
    g.monoWidth = .ok b.monoWidth.toNat ∧
    g.ascent = .ok b.ascent.toNat ∧ g.extraAscent = .ok b.extraAscent.toNat ∧
    g.descent = .ok b.descent.toNat ∧ g.extraDescent = .ok b.extraDescent.toNat ∧
    g.uppercaseAscent = .ok b.uppercaseAscent.toNat ∧ g.midlineAscent = .ok b.midlineAscent.toNat ∧
    g.horzInterspacing = .ok b.horzInterspacing.toNat ∧
    g.vertInterspacing = .ok b.vertInterspacing.toNat ∧ g.lineGap = .ok b.lineGap.toNat ∧
    g.vertLineWidth = .ok b.vertLineWidth.toNat ∧ g.vertLineGap = .ok b.vertLineGap.toNat := by
  obtain ⟨b', hb, _⟩ := same h
  obtain ⟨a1, a2, a3, _, a4, a5, a6, a7, a8, a9, a10, a11, a12, a13, a14, _⟩ := C17.metrics_read env b b' g hb
  exact ⟨a1, a2, a3, a4, a5, a6, a7, a8, a9, a10, a11, a12, a13, a14⟩

/-- All glyphs, in the order in which they were added, each with its placement and its mask (an image as
`image.NewAlpha` makes them). -/
theorem glyphs {env : Env} {b : Builder} {g : Font} (h : ReadBack env b g) (i : Nat) (hi : i < b.glyphOrder.length) :
    ∃ d, b.glyphData.get b.glyphOrder[i] = some d ∧ (C10.ValidMask d.mask →
      g.advance i = .ok d.placement.advance.toNat ∧
      g.placement i = .ok (if b.hasVertLayout then
          ⟨d.placement.advance.toNat, d.placement.topAdvance.toNat, d.placement.bottomAdvance.toNat,
            d.placement.horzCenter.toNat⟩
        else ⟨d.placement.advance.toNat, 0, 0, 0⟩) ∧
      ∃ ops, g.maskOps i = .ok ops ∧ C10.GivesBack d.mask ops) := by
  obtain ⟨b', hb, hs, _⟩ := same h
  obtain ⟨s, w, bi, hB⟩ := build_parts hb
  have hz : g.offWords - (g.offGlyphMasks + 3 * b.glyphOrder.length) ≤ 16777215 := by
    have h1 := hs.masks
    have h2 : b'.glyphOrder = b.glyphOrder := by rw [hB.b'_eq]
    rw [h2] at h1; omega
  cases hd : b.glyphData.get b.glyphOrder[i] with
  | none =>
    refine absurd (List.getElem_mem hi) (fun hm => GoMap.get_eq_none.1 hd ?_)
    rw [h.made.inv.sync]; exact hm
  | some d => exact ⟨d, rfl, C44.glyphs_read_partial env h.fragments b b' g hb hz i hi d hd⟩

/-- A name that is found is the name of the glyph; names are not empty, and different glyphs have different names.
Missing: that all names are found, which does not hold (`C19.complete_violated`). -/
theorem glyphNames_partial {env : Env} {b : Builder} {g : Font} (h : ReadBack env b g) :
    (∀ x, g.findIndexByName x = .ok glyphMissing ∨
      ∃ i u d, g.findIndexByName x = .ok i ∧ b.glyphOrder[i]? = some u ∧ b.glyphData.get u = some d ∧
        d.name = x ∧ x ≠ []) ∧
    ∀ (i j u v : Nat) (d e : GlyphData), b.glyphOrder[i]? = some u → b.glyphOrder[j]? = some v → b.glyphData.get u = some d →
      b.glyphData.get v = some e → d.name ≠ [] → d.name = e.name → i = j := by
  obtain ⟨b', hb, _⟩ := same h
  have hk := h.made.inv.toKept
  have hl : ∀ u d, b.glyphData.get u = some d → d.name.length ≤ 255 := fun u d e => by
    have := hk.glyphNames u d e; omega
  exact ⟨C19.built_sound env b b' g hb hk.kern.order hl, fun i j u v d e h1 h2 h3 h4 h5 h6 =>
    C19.built_unique env b b' g hb hk.kern.order hl h1 h2 h3 h4 h5 h6⟩

/-- Horizontal kerning of all pairs of glyphs. Missing: vertical kerning, unless its pairs have the same value
horizontally (`C20.vert_violated`). -/
theorem kerning_partial {env : Env} {b : Builder} {g : Font} (h : ReadBack env b g) :
    (∀ i j, i < 65536 → j < 65536 → g.kernGet i j = .ok (kernAtOf b b.horzKern i j)) ∧
    ((∀ p ∈ b.vertKern.keys, b.vertKern.get p = b.horzKern.get p) →
      ∀ i j, i < 65536 → j < 65536 → g.kernGetVert i j = .ok (kernAtOf b b.vertKern i j)) := by
  obtain ⟨b', hb, _⟩ := same h
  have hk := h.made.inv.toKept
  exact ⟨(C20.horz_read env b b' g hb hk.kern).2, fun hs => (C20.vert_read_partial env b b' g hb hk.kern hs).2⟩

/-- Vertical kerning in general: what is read is the horizontal kerning of the vertical pairs, and this is their own
kerning exactly when the two are equal. -/
theorem kerning_vert {env : Env} {b : Builder} {g : Font} (h : ReadBack env b g) :
    (∀ i j, i < 65536 → j < 65536 → g.kernGetVert i j = .ok (
      match b.glyphOrder[i]?, b.glyphOrder[j]? with
      | some u, some v => if (u, v) ∈ b.vertKern.keys then kernOf b.kernClasses b.horzKern (u, v) else 0
      | _, _ => 0)) ∧
    ((∀ i j, i < 65536 → j < 65536 → g.kernGetVert i j = .ok (kernAtOf b b.vertKern i j)) ↔
      ∀ p ∈ b.vertKern.keys, kernOf b.kernClasses b.vertKern p = kernOf b.kernClasses b.horzKern p) := by
  obtain ⟨b', hb, _⟩ := same h
  have hk := h.made.inv.toKept
  exact ⟨(C20.vert_exact env b b' g hb hk.kern).2.2, C20.vert_read_iff env b b' g hb hk.kern⟩

/-- All dyes and palettes. Missing: colors without name or without values (`C39.built_violated`). -/
theorem colors_partial {env : Env} {b : Builder} {g : Font} (h : ReadBack env b g)
    (h1 : ∀ d ∈ b.dyes, d.name ≠ [] ∧ d.alphas ≠ []) (h2 : ∀ p ∈ b.palettes, p.name ≠ [] ∧ p.colors ≠ []) :
    g.numDyes = .ok (fontDyes b).length ∧ g.numPalettes = .ok b.palettes.length ∧
    g.eachDye = .ok ((fontDyes b).map Dye.name) ∧ g.eachPalette = .ok (b.palettes.map Palette.name) ∧
    (∀ i (hi : i < (fontDyes b).length), g.eachDyeAlpha i = .ok ((fontDyes b)[i].alphas.map UInt8.toNat)) ∧
    (∀ i (hi : i < b.palettes.length), g.eachPaletteColor i = .ok (b.palettes[i].colors.map rgbaValues)) := by
  obtain ⟨b', hb, hs, _⟩ := same h
  obtain ⟨s, w, bi, hB⟩ := build_parts hb
  have hm := Builder.main_eq hB.main
  have hd : b'.dyes = fontDyes b := by rw [hm]; rfl
  have hp : b'.palettes = b.palettes := by rw [hm]
  have hc : ColorsStorable b := by
    refine ⟨fun d e => (h1 d e).2, fun d e => (h2 d e).2, fun d e => (h1 d e).1, fun d e => (h2 d e).1, ?_, ?_⟩
    · by_cases he : b.dyes = [] ∧ b.palettes = []
      · rw [he.1]; simp
      · have := hs.dyeNames
        rwa [hd, fontDyes, if_neg he] at this
    · have := hs.paletteNames
      rwa [hp] at this
  obtain ⟨_, c1, c2, _, _, c3, c4, c5, c6⟩ := C39.built_partial env b b' g hb hc
  rw [← hd]
  exact ⟨c1, c2, c3, c4, fun i hi => (c5 i hi).2, fun i hi => (c6 i hi).2⟩

/-- All settings and the numbers of their options. Missing: the names of the options when more than one is not
predefined (`C40.order_violated`), and settings without options (`C40.no_options_violated`). -/
theorem settings_partial {env : Env} {b : Builder} {g : Font} (h : ReadBack env b g) :
    g.numSettings = .ok b.settings.length ∧ g.eachSetting = .ok (b.settings.map fun x => x.name) ∧
    (∀ k (hk : k < b.settings.length), b.settings[k].options ≠ [] →
      g.getNumOptions k = .ok b.settings[k].options.length) ∧
    ((∀ v w, IsOption b v → IsOption b w → ¬ Predefined env.predef v → ¬ Predefined env.predef w → v = w) →
      OptionsRead env.predef b g) := by
  obtain ⟨b', hb, _⟩ := same h
  have hk := h.made.inv.toKept
  obtain ⟨a, c, d⟩ := C40.names_and_numbers hk.settings hb
  exact ⟨a, c, d, fun ho => C40.options_partial h.fair h.words hk.settings ho hb⟩

/-- A switch evaluates to the case of the chosen options. Missing: switches with 256 cases or more, of which only 256 are
told apart (`C23.injective_violated`). -/
theorem switches_partial {env : Env} {b : Builder} {g : Font} (h : ReadBack env b g) (k : Nat)
    (hk : k < b.switches.length) (ho : ∀ j ∈ b.switches[k], options b j ≠ 0) (settings : List Nat)
    (hset : b.settings.length ≤ settings.length) :
    g.evaluateSwitch k settings = .ok
      (mixedRadix (b.switches[k].map fun j => (options b j, settings.getD j 0)) % 256) := by
  obtain ⟨b', hb, _⟩ := same h
  have hi := h.made.inv.toKept
  have hm := List.getElem_mem hk
  exact C23.evaluate env b b' g hb k hk ⟨hi.settings.options, hi.switches _ hm, (h.made.calls.switchSettings _ hm).2, ho⟩
    settings hset

/-- Exactly the code points mapped in the builder are mapped; those mapped to one glyph lead to the index of that glyph. -/
theorem mapping {env : Env} {b : Builder} {g : Font} (h : ReadBack env b g) (c : Int)
    (hc : -2147483648 ≤ c ∧ c < 2147483648) (settings : List Nat) :
    (b.runeMapping.get c = none → g.utf8 (runeBits c) settings = .ok none) ∧
    (∀ u fl, b.runeMapping.get c = some ⟨255, [⟨[u], fl⟩]⟩ →
      ∃ r i, g.utf8 (runeBits c) settings = .ok (some r) ∧ b.glyphOrder[i]? = some u ∧ g.groupSize r = .ok 1 ∧
        g.groupAnimFlags r = .ok 0 ∧ g.groupSelect r 0 = .ok i) ∧
    (∀ m, b.runeMapping.get c = some ⟨254, [m]⟩ →
      ∃ r, ∃ st : Stored, g.utf8 (runeBits c) settings = .ok (some r) ∧ r.direct = false ∧
        At g.data r.offset st.bytes ∧ st.Valid ∧ st.glyphs.Pairwise (· ≤ ·) ∧
        (st.glyphs.map fun i => b.glyphOrder[i]?).Perm (m.glyphs.map some) ∧ st.flags = m.animFlags.toNat) := by
  obtain ⟨b', hb, hs, _⟩ := same h
  have hm := h.made.inv.toKept.mapping
  obtain ⟨s, w, bi, hB⟩ := build_parts hb
  have hz : g.offConditions - (g.offMapping + (2 + 7 * b.runeMapping.length)) ≤ 16777215 := by
    have h1 := hs.mapping
    have h2 : b'.runeMapping = b.runeMapping := by rw [hB.b'_eq]
    rw [h2] at h1; omega
  exact ⟨fun hn => C21.unmapped env b b' g hb hm c hc hn settings,
    fun u fl he => C21.glyph_partial env b b' g hb hm hz c hc u fl he settings,
    fun m he => C21.group_partial env b b' g hb hm hz c hc m he settings⟩

/-- Code points mapped with a switch to single glyphs lead to the glyph of the chosen options. Missing: switches with more
than 256 cases, and groups of glyphs (`C24.case_violated`). -/
theorem switched_partial {env : Env} {b : Builder} {g : Font} (h : ReadBack env b g) (c : Int)
    (hc : -2147483648 ≤ c ∧ c < 2147483648) (k : Nat) (us : List Nat)
    (he : b.runeMapping.get c = some ⟨k, us.map fun u => ⟨[u], 0⟩⟩) (ht : k < 254) :
    ∃ hk : k < b.switches.length, us.length = combinations (b.switches[k].map (options b)) % 18446744073709551616 ∧
      (combinations (b.switches[k].map (options b)) ≤ 256 → ∀ settings, b.settings.length ≤ settings.length →
        (∀ j ∈ b.switches[k], settings.getD j 0 < options b j) →
        ∃ r i, g.utf8 (runeBits c) settings = .ok (some r) ∧ g.groupSize r = .ok 1 ∧
          g.groupAnimFlags r = .ok 0 ∧ g.groupSelect r 0 = .ok i ∧ i < b.glyphOrder.length ∧
          b.glyphOrder[i]? = us[mixedRadix (b.switches[k].map fun j => (options b j, settings.getD j 0))]?) := by
  obtain ⟨b', hb, hs, _⟩ := same h
  have hi := h.made.inv.toKept
  obtain ⟨s, w, bi, hB⟩ := build_parts hb
  have hz : g.offConditions - (g.offMapping + (2 + 7 * b.runeMapping.length)) ≤ 16777215 := by
    have h1 := hs.mapping
    have h2 : b'.runeMapping = b.runeMapping := by rw [hB.b'_eq]
    rw [h2] at h1; omega
  rcases h.made.calls.entries _ (GoMap.mem_of_get he) with ⟨e, _⟩ | ⟨e, _⟩ | ⟨_, e, _⟩
  · simp only at e; omega
  · simp only at e; omega
  · simp only [List.length_map] at e
    obtain ⟨sw, s1, _, _, s2, _⟩ := numCases_length (by omega) e hi.switches
    obtain ⟨hk, rfl⟩ := List.getElem?_eq_some_iff.1 s1
    have hm := List.getElem_mem hk
    refine ⟨hk, s2.symm, fun hsmall settings hset hval => ?_⟩
    obtain ⟨r, i, a1, a2, a3, a4, a5, a6⟩ := C24.singles_partial env b b' g hb hi.mapping hz c hc k us he hk ht
      ⟨hi.settings.options, hi.switches _ hm, (h.made.calls.switchSettings _ hm).2, fun j hj => by
        have := hval j hj; omega⟩ (by omega) hsmall settings hset hval
    exact ⟨r, i, a1, a2, a3, a4, a6, a5⟩

/-- Glyph sets, in the order in which they were created. -/
theorem glyphSets {env : Env} {b : Builder} {g : Font} (h : ReadBack env b g) {i : Nat}
    (hi : i < b.glyphSetsOrder.length) :
    ∃ gs bytes ranges list, b.glyphSets.get b.glyphSetsOrder[i] = some gs ∧ g.getGlyphSet i = .ok bytes ∧
      RSet.glyphRanges bytes = .ok ranges ∧ RSet.glyphList bytes = .ok list ∧
      ranges.map (fun r => (b.glyphOrder[r.1]?, b.glyphOrder[r.2]?)) =
        gs.ranges.map (fun u => (some u.1, some u.2)) ∧
      list.map (b.glyphOrder[·]?) = gs.list.map some := by
  obtain ⟨b', hb, _⟩ := same h
  exact C30.built_set env b b' g hb h.made.inv.toKept.kern.order hi

/-- A builder with glyphs, settings, a switch and mapped code points. -/
example : ReadBack Sample.env Sample.mapped (Sample.result Sample.mapped).2 :=
  readable env_fair (fun _ => .refl _) env_zero mapped_reachable (b' := (Sample.result Sample.mapped).1)
    (by decide +kernel) (fits_of (by decide +kernel))
    ⟨by decide +kernel, by decide +kernel, by decide +kernel, by decide +kernel, by decide +kernel,
      by decide +kernel, by decide +kernel, by decide +kernel, by decide +kernel, by decide +kernel,
      by decide +kernel, by decide +kernel, by decide +kernel⟩

end C53
