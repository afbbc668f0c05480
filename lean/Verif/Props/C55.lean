import Verif.Lemmas.KernHistory
import Verif.Props.C08
import Verif.Props.C46
import Verif.Props.C53
import Verif.Lemmas.SampleEdition
import Verif.Spec.OptionsSaid
import Verif.Spec.SampleHistory
import Verif.Spec.SampleSwitched
import Verif.Spec.SampleTighter

/-!
# C55: the content of a font is what the calls say

A builder is made with `New` and calls of the public methods (`History`: those that succeeded, the latest one first).
Every property has the value given by the latest call that sets it; what is added is kept in the order of the calls; the
font read from the file returns it (`ReadBack`).
-/

namespace C55
open Go Spec FontModel BuilderModel EditionModel

variable {rolls : List UInt64} {today : DateModel.Date} {l : List Method} {e : Editor}

/-- Every builder has a history, and what has a history is a builder. -/
theorem complete (b : Builder) : Reachable b ↔ ∃ rolls today l e, History rolls today l e ∧ e.builder = b := by
  constructor
  · rintro ⟨e, he, rfl⟩
    obtain ⟨rolls, today, l, h⟩ := he.history
    exact ⟨rolls, today, l, e, h, rfl⟩
  · rintro ⟨rolls, today, l, e, h, rfl⟩
    exact ⟨e, h.edits, rfl⟩

/-- Identification, version, dates and texts. The identification is the first of eight random values with enough
entropy. -/
theorem header (h : History rolls today l e) :
    (rolls.take 8).find? (fun id => Helpers.lazyEntropyUint64 id.toNat ≥ minEntropyID) = some e.builder.fontID ∧
    (e.builder.versionMajor, e.builder.versionMinor) = versionOf l ∧
    e.builder.firstVersionDate = latest Method.firstDate? today l ∧
    e.builder.majorVersionDate = latest Method.majorDate? today l ∧
    e.builder.minorVersionDate = latest Method.minorDate? today l ∧
    e.builder.fontName = latest Method.name? (ascii "Unnamed") l ∧
    e.builder.fontFamily = latest Method.family? (ascii "Unnamed") l ∧
    e.builder.fontAuthor = latest Method.author? (ascii "Authorless") l ∧
    e.builder.fontAbout = latest Method.about? (ascii "No information available.") l := by
  obtain ⟨id, hid, hf⟩ := h.fields
  have hi : e.builder.fontID = id := congrArg Fields.fontID hf
  exact ⟨by rw [hi]; exact hid, Prod.ext (congrArg Fields.versionMajor hf) (congrArg Fields.versionMinor hf),
    congrArg Fields.firstVersionDate hf, congrArg Fields.majorVersionDate hf, congrArg Fields.minorVersionDate hf,
    congrArg Fields.fontName hf, congrArg Fields.fontFamily hf, congrArg Fields.fontAuthor hf,
    congrArg Fields.fontAbout hf⟩

/-- Metrics. -/
theorem metrics (h : History rolls today l e) :
    e.builder.hasVertLayout = latest Method.vertLayoutUsed? false l ∧
    e.builder.monoWidth = latest Method.monoWidth? 0 l ∧
    e.builder.ascent = latest Method.ascent? 9 l ∧ e.builder.extraAscent = latest Method.extraAscent? 0 l ∧
    e.builder.descent = latest Method.descent? 5 l ∧ e.builder.extraDescent = latest Method.extraDescent? 0 l ∧
    e.builder.uppercaseAscent = latest Method.uppercaseAscent? 9 l ∧
    e.builder.midlineAscent = latest Method.midlineAscent? 5 l ∧
    e.builder.horzInterspacing = latest Method.horzInterspacing? 1 l ∧
    e.builder.vertInterspacing = latest Method.vertInterspacing? 0 l ∧
    e.builder.lineGap = latest Method.lineGap? 1 l ∧
    e.builder.vertLineWidth = latest Method.vertLineWidth? 0 l ∧
    e.builder.vertLineGap = latest Method.vertLineGap? 0 l := by
  obtain ⟨id, _, hf⟩ := h.fields
  exact ⟨congrArg Fields.hasVertLayout hf, congrArg Fields.monoWidth hf, congrArg Fields.ascent hf,
    congrArg Fields.extraAscent hf, congrArg Fields.descent hf, congrArg Fields.extraDescent hf,
    congrArg Fields.uppercaseAscent hf, congrArg Fields.midlineAscent hf, congrArg Fields.horzInterspacing hf,
    congrArg Fields.vertInterspacing hf, congrArg Fields.lineGap hf, congrArg Fields.vertLineWidth hf,
    congrArg Fields.vertLineGap hf⟩

/-- Glyphs: as many as were added. The `i`-th one has the mask given with the `i`-th call of `AddGlyph`, which takes one
of four random values as identifier. Its name is the latest one given to this identifier since then. So is its placement;
at first it is the width of the image, the ascent and the descent at that time, and half the width. -/
theorem glyphs (h : History rolls today l e) :
    e.builder.glyphOrder.length = (all Method.mask? l).length ∧
    ∀ i u, e.builder.glyphOrder[i]? = some u → ∃ d since before r p,
      e.builder.glyphData.get u = some d ∧ (all Method.mask? l)[i]? = some d.mask ∧
      l = since ++ .addGlyph r d.mask :: before ∧ u ∈ r.take 4 ∧ (all Method.mask? before).length = i ∧
      d.name = latest (Method.glyphName? u) [] since ∧ d.placement = latest (Method.placement? u) p since ∧
      p.topAdvance = latest Method.ascent? 9 before ∧ p.bottomAdvance = latest Method.descent? 5 before ∧
      (d.mask.rect.x0 ≤ d.mask.rect.x1 →
        (p.advance.toNat : Int) = min 255 (d.mask.rect.x1 - d.mask.rect.x0) ∧
        (p.horzCenter.toNat : Int) = min 255 ((d.mask.rect.x1 - d.mask.rect.x0) / 2)) := by
  refine ⟨h.glyphs.count, fun i u hu => ?_⟩
  obtain ⟨d, since, before, r, p, k1, rfl, k3, k4, k5, k6, rfl⟩ := h.glyphs.each i u hu
  refine ⟨d, since, before, r, _, k1, ?_, rfl, k3, k4, k5, k6, rfl, rfl, fun hx => ⟨?_, ?_⟩⟩
  · rw [all, List.filterMap_append, List.filterMap_cons_some (f := Method.mask?) (b := d.mask) rfl, List.reverse_append,
      List.reverse_cons, List.append_assoc, List.getElem?_append_right (by rw [← k4]; exact Nat.le_refl _), ← k4]
    simp [all]
  · rw [clampByte_eq (by omega), byte_toNat, Nat.mod_eq_of_lt (by omega)]
    omega
  · rw [clampByte_eq (n := (d.mask.rect.x1 - d.mask.rect.x0) / 2) (by omega), byte_toNat, Nat.mod_eq_of_lt (by omega)]
    omega

/-- Kerning: a pair without a class has the value set last. -/
theorem kerning (h : History rolls today l e) (pair : Nat × Nat)
    (hc : ∀ p, e.builder.horzKern.get pair = some p → p.cls = 0) :
    kernOf e.builder.kernClasses e.builder.horzKern pair = latest (Method.kerning? pair) 0 l := by
  rw [kernOf_value hc]
  exact h.kern pair

/-- When no edition data was parsed, this holds for all pairs, and there is no vertical kerning. -/
theorem kerning_all (h : History rolls today l e) (hp : ∀ m ∈ l, m.parses = false) (pair : Nat × Nat) :
    kernOf e.builder.kernClasses e.builder.horzKern pair = latest (Method.kerning? pair) 0 l ∧
    kernOf e.builder.kernClasses e.builder.vertKern pair = 0 := by
  refine ⟨kerning h pair ((h.plain hp).horz pair), ?_⟩
  rw [(h.plain hp).vert]
  rfl

/-- Colors, settings and switches, in the order in which they were added. -/
theorem lists (h : History rolls today l e) :
    e.builder.dyes = dyesOf l ∧ e.builder.palettes = all Method.palette? l ∧
    e.builder.settings = all Method.setting? l ∧ e.builder.switches = all Method.switch? l :=
  ⟨h.lists.dyes, h.lists.palettes, h.lists.settings, h.lists.switches⟩

/-- A code point is mapped as the latest call for it says. -/
theorem mapping (h : History rolls today l e) (c : Int) :
    e.builder.runeMapping.get c = l.findSome? (Method.entry? c) := h.mapping c

/-- Sets of glyphs: what was added since they were created. (Ranges and glyphs that are removed stay:
`C41.range_violated`.) -/
theorem sets (h : History rolls today l e) :
    e.builder.glyphSetsOrder = all Method.createdSet? l ∧ ∀ u, e.builder.glyphSets.get u = setOf u l :=
  ⟨h.lists.setsOrder, h.sets⟩

/-- Rules, in the order in which they were added. -/
theorem rules (h : History rolls today l e) :
    textRules e.builder = all Method.textRule? l ∧
    e.builder.glyphRules.map (fun r => (r.headLen, r.bodyLen, r.tailLen, (pattern r).map InElem.uid, r.output)) =
      all Method.glyphRule? l := ⟨h.lists.texts, h.lists.glyphs⟩

/-! ## In the font read from the file -/

/-- Identification, version, dates and texts. Missing: long texts, as in `C53.header_partial`. -/
theorem read_header_partial {env : Env} {g : Font} (h : History rolls today l e) (hr : ReadBack env e.builder g)
    (hd : ∀ d, d = today ∨ (∃ m ∈ l, m.firstDate? = some d ∨ m.majorDate? = some d ∨ m.minorDate? = some d) → DateFits d) :
    (∃ id, (rolls.take 8).find? (fun id => Helpers.lazyEntropyUint64 id.toNat ≥ minEntropyID) = some id ∧
      g.id = .ok id.toNat) ∧
    g.versionMajor = .ok (versionOf l).1.toNat ∧ g.versionMinor = .ok (versionOf l).2.toNat ∧
    g.firstVersionDate = .ok (latest Method.firstDate? today l) ∧
    g.majorVersionDate = .ok (latest Method.majorDate? today l) ∧
    g.minorVersionDate = .ok (latest Method.minorDate? today l) ∧
    g.name = .ok (latest Method.name? (ascii "Unnamed") l) ∧
    ((latest Method.name? (ascii "Unnamed") l).length ≤ 225 →
      g.family = .ok (latest Method.family? (ascii "Unnamed") l)) ∧
    ((latest Method.name? (ascii "Unnamed") l).length + (latest Method.family? (ascii "Unnamed") l).length ≤ 224 →
      g.author = .ok (latest Method.author? (ascii "Authorless") l)) ∧
    ((latest Method.name? (ascii "Unnamed") l).length + (latest Method.family? (ascii "Unnamed") l).length +
        (latest Method.author? (ascii "Authorless") l).length ≤ 222 →
      g.about = .ok (latest Method.about? (ascii "No information available.") l)) := by
  obtain ⟨k0, k1, k2, k3, k4, k5, k6, k7, k8⟩ := header h
  have hl : ∀ f : Method → Option DateModel.Date,
      (∀ m d, f m = some d → m.firstDate? = some d ∨ m.majorDate? = some d ∨ m.minorDate? = some d) →
      DateFits (latest f today l) := by
    intro f hf
    apply hd
    rw [latest]
    cases e : l.findSome? f with
    | none => exact .inl rfl
    | some d =>
      obtain ⟨m, hm, hm'⟩ := List.exists_of_findSome?_eq_some e
      exact .inr ⟨m, hm, hf m d hm'⟩
  have hb := C53.header_partial hr (by rw [k2]; exact hl _ fun m d e => .inl e)
    (by rw [k3]; exact hl _ fun m d e => .inr (.inl e)) (by rw [k4]; exact hl _ fun m d e => .inr (.inr e))
  rw [k2, k3, k4, k5, k6, k7, k8] at hb
  obtain ⟨_, q0, q1, q2, q⟩ := hb
  refine ⟨⟨_, k0, q0⟩, ?_, ?_, q⟩
  · rw [← k1]; exact q1
  · rw [← k1]; exact q2

/-- Metrics. -/
theorem read_metrics {env : Env} {g : Font} (h : History rolls today l e) (hr : ReadBack env e.builder g) :
    g.numGlyphs = .ok (all Method.mask? l).length ∧
    g.hasVertLayout = .ok (latest Method.vertLayoutUsed? false l) ∧
    g.monoWidth = .ok (latest Method.monoWidth? 0 l).toNat ∧
    g.ascent = .ok (latest Method.ascent? 9 l).toNat ∧ g.extraAscent = .ok (latest Method.extraAscent? 0 l).toNat ∧
    g.descent = .ok (latest Method.descent? 5 l).toNat ∧ g.extraDescent = .ok (latest Method.extraDescent? 0 l).toNat ∧
    g.uppercaseAscent = .ok (latest Method.uppercaseAscent? 9 l).toNat ∧
    g.midlineAscent = .ok (latest Method.midlineAscent? 5 l).toNat ∧
    g.horzInterspacing = .ok (latest Method.horzInterspacing? 1 l).toNat ∧
    g.vertInterspacing = .ok (latest Method.vertInterspacing? 0 l).toNat ∧
    g.lineGap = .ok (latest Method.lineGap? 1 l).toNat ∧
    g.vertLineWidth = .ok (latest Method.vertLineWidth? 0 l).toNat ∧
    g.vertLineGap = .ok (latest Method.vertLineGap? 0 l).toNat := by
  obtain ⟨k1, k2, k3, k4, k5, k6, k7, k8, k9, k10, k11, k12, k13⟩ := metrics h
  rw [← h.glyphs.count, ← k1, ← k2, ← k3, ← k4, ← k5, ← k6, ← k7, ← k8, ← k9, ← k10, ← k11, ← k12, ← k13]
  exact C53.metrics hr

/-- Masks: decoding the mask of the `i`-th glyph gives back the image of the `i`-th call of `AddGlyph`. Missing: masks
that are not valid (`C10.ValidMask`). -/
theorem read_masks_partial {env : Env} {g : Font} (h : History rolls today l e) (hr : ReadBack env e.builder g)
    {i : Nat} {mask : Mask.Img} (hi : (all Method.mask? l)[i]? = some mask) (hm : C10.ValidMask mask) :
    ∃ ops, g.maskOps i = .ok ops ∧ C10.GivesBack mask ops := by
  have hl : i < e.builder.glyphOrder.length := by
    rw [h.glyphs.count]
    exact (List.getElem?_eq_some_iff.1 hi).1
  obtain ⟨d, k1, _, _, _, k2, k3, _⟩ := (glyphs h).2 i _ (List.getElem?_eq_getElem hl)
  obtain ⟨d', q1, q2⟩ := C53.glyphs hr i hl
  rw [k2] at q1
  cases q1
  rw [hi] at k3
  cases k3
  exact (q2 hm).2.2

/-- Kerning after edition data was loaded: the values that were set since then, the values of the classes, and the
values from before for the other pairs. -/
theorem kerning_loaded {since before : List Method} {e0 : Editor} {x : EditionData} {junk : Nat → UInt8}
    {first : ParseBuf.Ev} {gz : Res ParseBuf.Reader} (h0 : History rolls today before e0) (hx : x.Valid e0.builder)
    (hl : x.bytes.length ≤ maxFontDataSize) (hf : FileWith editionSignature x.bytes first gz)
    (h : History rolls today (since ++ .parseEditionData junk first gz :: before) e)
    (hs : ∀ m ∈ since, m.edition = false) (pair : Nat × Nat) :
    kernOf e.builder.kernClasses e.builder.horzKern pair = kernSince since before e0.builder.glyphOrder x pair := by
  obtain ⟨e1, h1, hk⟩ := h.since hs
  cases h1 with
  | call h2 _ hm =>
    cases h2.unique h0
    obtain ⟨e', hp, hl⟩ := C46.loaded_partial junk (C46.public_named h0.edits) hx hl hf
    have : Method.run (.parseEditionData junk first gz) e0 = .ok e' := by
      show (do return (← parseEditionData junk first gz e0).2 : Res Editor) = _
      rw [hp]; rfl
    rw [this] at hm
    cases hm
    exact kernOf_loaded h0 hl hk pair

/-- Kerning after edition data was removed, or could not be loaded: the values set last. -/
theorem kerning_unloaded {since before : List Method} {e0 : Editor} {m : Method} (h0 : History rolls today before e0)
    (hm : m = .clearEditionData ∨ ∃ junk first gz msg e1, m = .parseEditionData junk first gz ∧
      parseEditionData junk first gz e0 = .ok (some msg, e1))
    (h : History rolls today (since ++ m :: before) e) (hs : ∀ m ∈ since, m.edition = false) (pair : Nat × Nat) :
    kernOf e.builder.kernClasses e.builder.horzKern pair = latest (Method.kerning? pair) 0 (since ++ m :: before) := by
  obtain ⟨e1, h1, hk⟩ := h.since hs
  refine kerning h pair (hk.plain ?_ pair)
  cases h1 with
  | call h2 _ hr =>
    cases h2.unique h0
    rcases hm with rfl | ⟨junk, first, gz, msg, e', rfl, hp⟩
    · cases (show Res.ok (clearEditionData e0) = .ok e1 from hr)
      exact clear_plain e0
    · have : Method.run (.parseEditionData junk first gz) e0 = .ok e' := by
        show (do return (← parseEditionData junk first gz e0).2 : Res Editor) = _
        rw [hp]; rfl
      rw [this] at hr
      cases hr
      exact failed_plain (C46.failed_partial hp)

/-- Kerning between the `i`-th and `j`-th glyph of the font. -/
theorem read_kern {env : Env} {g : Font} (hr : ReadBack env e.builder g) {i j u v : Nat} (hi : i < 65536)
    (hj : j < 65536) (hu : e.builder.glyphOrder[i]? = some u) (hv : e.builder.glyphOrder[j]? = some v) :
    g.kernGet i j = .ok (kernOf e.builder.kernClasses e.builder.horzKern (u, v)) := by
  rw [(C53.kerning_partial hr).1 i j hi hj, kernAtOf, hu, hv]

/-- Without edition data, it is the value set last for them. (With edition data: `read_kerning_loaded`,
`read_kerning_unloaded`.) -/
theorem read_kerning {env : Env} {g : Font} (h : History rolls today l e) (hr : ReadBack env e.builder g)
    (hp : ∀ m ∈ l, m.parses = false) {i j u v : Nat} (hi : i < 65536) (hj : j < 65536)
    (hu : e.builder.glyphOrder[i]? = some u) (hv : e.builder.glyphOrder[j]? = some v) :
    g.kernGet i j = .ok (latest (Method.kerning? (u, v)) 0 l) := by
  rw [read_kern hr hi hj hu hv, (kerning_all h hp (u, v)).1]

theorem read_kerning_loaded {env : Env} {g : Font} {since before : List Method} {e0 : Editor} {x : EditionData}
    {junk : Nat → UInt8} {first : ParseBuf.Ev} {gz : Res ParseBuf.Reader} (h0 : History rolls today before e0)
    (hx : x.Valid e0.builder) (hl : x.bytes.length ≤ maxFontDataSize)
    (hf : FileWith editionSignature x.bytes first gz)
    (h : History rolls today (since ++ .parseEditionData junk first gz :: before) e)
    (hs : ∀ m ∈ since, m.edition = false) (hr : ReadBack env e.builder g) {i j u v : Nat} (hi : i < 65536)
    (hj : j < 65536) (hu : e.builder.glyphOrder[i]? = some u) (hv : e.builder.glyphOrder[j]? = some v) :
    g.kernGet i j = .ok (kernSince since before e0.builder.glyphOrder x (u, v)) := by
  rw [read_kern hr hi hj hu hv, kerning_loaded h0 hx hl hf h hs]

theorem read_kerning_unloaded {env : Env} {g : Font} {since before : List Method} {e0 : Editor} {m : Method}
    (h0 : History rolls today before e0)
    (hm : m = .clearEditionData ∨ ∃ junk first gz msg e1, m = .parseEditionData junk first gz ∧
      parseEditionData junk first gz e0 = .ok (some msg, e1))
    (h : History rolls today (since ++ m :: before) e) (hs : ∀ m ∈ since, m.edition = false)
    (hr : ReadBack env e.builder g) {i j u v : Nat} (hi : i < 65536) (hj : j < 65536)
    (hu : e.builder.glyphOrder[i]? = some u) (hv : e.builder.glyphOrder[j]? = some v) :
    g.kernGet i j = .ok (latest (Method.kerning? (u, v)) 0 (since ++ m :: before)) := by
  rw [read_kern hr hi hj hu hv, kerning_unloaded h0 hm h hs]

/-- Vertical kerning: none without edition data. -/
theorem read_vert {env : Env} {g : Font} (h : History rolls today l e) (hr : ReadBack env e.builder g)
    (hp : ∀ m ∈ l, m.parses = false) {i j : Nat} (hi : i < 65536) (hj : j < 65536) : g.kernGetVert i j = .ok 0 := by
  rw [(C53.kerning_vert hr).1 i j hi hj, (h.plain hp).vert]
  split
  · rw [if_neg (by simp [GoMap.keys])]
  · rfl

/-- With the first edition data, the pairs of its vertical table have the *horizontal* kerning. -/
theorem read_vert_loaded {env : Env} {g : Font} {since before : List Method} {e0 : Editor} {x : EditionData}
    {junk : Nat → UInt8} {first : ParseBuf.Ev} {gz : Res ParseBuf.Reader} (h0 : History rolls today before e0)
    (hp : ∀ m ∈ before, m.parses = false) (hx : x.Valid e0.builder) (hl : x.bytes.length ≤ maxFontDataSize)
    (hf : FileWith editionSignature x.bytes first gz)
    (h : History rolls today (since ++ .parseEditionData junk first gz :: before) e)
    (hs : ∀ m ∈ since, m.edition = false) (hr : ReadBack env e.builder g) {i j u v : Nat} (hi : i < 65536)
    (hj : j < 65536) (hu : e.builder.glyphOrder[i]? = some u) (hv : e.builder.glyphOrder[j]? = some v) :
    g.kernGetVert i j = .ok (if classIn e0.builder.glyphOrder x.vert (u, v) = 0 then 0
      else kernSince since before e0.builder.glyphOrder x (u, v)) := by
  rw [(C53.kerning_vert hr).1 i j hi hj, hu, hv]
  simp only [kerning_loaded h0 hx hl hf h hs]
  have hk : (u, v) ∈ e.builder.vertKern.keys ↔ classIn e0.builder.glyphOrder x.vert (u, v) ≠ 0 := by
    obtain ⟨e1, h1, hk⟩ := h.since hs
    cases h1 with
    | call h2 _ hm =>
      cases h2.unique h0
      obtain ⟨e', hp', hl⟩ := C46.loaded_partial junk (C46.public_named h0.edits) hx hl hf
      have : Method.run (.parseEditionData junk first gz) e0 = .ok e' := by
        show (do return (← parseEditionData junk first gz e0).2 : Res Editor) = _
        rw [hp']; rfl
      rw [this] at hm
      cases hm
      have hc := hl.vert (u, v)
      rw [(h0.plain hp).vert] at hc
      have hc : e1.builder.vertKern.get (u, v) = if classIn e0.builder.glyphOrder x.vert (u, v) = 0 then none
          else some ⟨classIn e0.builder.glyphOrder x.vert (u, v), 0⟩ := hc
      have hn : e1.builder.vertKern.get (u, v) = none ↔ (u, v) ∉ e1.builder.vertKern.keys := GoMap.get_eq_none
      rw [hk.vert]
      by_cases hz : classIn e0.builder.glyphOrder x.vert (u, v) = 0
      · rw [if_pos hz] at hc
        simp [hz, hn.1 hc]
      · rw [if_neg hz] at hc
        refine ⟨fun _ => hz, fun _ => Classical.byContradiction fun hm => ?_⟩
        rw [hn.2 hm] at hc
        cases hc
  by_cases hz : classIn e0.builder.glyphOrder x.vert (u, v) = 0
  · rw [if_neg (fun h => hk.1 h hz), if_pos hz]
  · rw [if_pos (hk.2 hz), if_neg hz]

/-- Placements: the latest one given to the glyph since it was added. Missing: masks that are not valid. -/
theorem read_placements_partial {env : Env} {g : Font} (h : History rolls today l e) (hr : ReadBack env e.builder g)
    {i u : Nat} (hu : e.builder.glyphOrder[i]? = some u) {mask : Mask.Img} (hi : (all Method.mask? l)[i]? = some mask)
    (hm : C10.ValidMask mask) :
    ∃ since before r p, l = since ++ .addGlyph r mask :: before ∧ u ∈ r.take 4 ∧ (all Method.mask? before).length = i ∧
      p.topAdvance = latest Method.ascent? 9 before ∧ p.bottomAdvance = latest Method.descent? 5 before ∧
      g.advance i = .ok (latest (Method.placement? u) p since).advance.toNat ∧
      g.placement i = .ok (if latest Method.vertLayoutUsed? false l then
          ⟨(latest (Method.placement? u) p since).advance.toNat, (latest (Method.placement? u) p since).topAdvance.toNat,
            (latest (Method.placement? u) p since).bottomAdvance.toNat,
            (latest (Method.placement? u) p since).horzCenter.toNat⟩
        else ⟨(latest (Method.placement? u) p since).advance.toNat, 0, 0, 0⟩) := by
  obtain ⟨d, since, before, r, p, k1, k2, k3, k4, k5, _, k7, k8, k9, _⟩ := (glyphs h).2 i u hu
  rw [hi] at k2
  cases k2
  obtain ⟨hl, he⟩ := List.getElem?_eq_some_iff.1 hu
  obtain ⟨d', q1, q2⟩ := C53.glyphs hr i hl
  rw [he, k1] at q1
  cases q1
  obtain ⟨q3, q4, _⟩ := q2 hm
  rw [(metrics h).1] at q4
  rw [k7] at q3 q4
  exact ⟨since, before, r, p, k3, k4, k5, k8, k9, q3, q4⟩

/-- Colors: the dyes and palettes that were added, in their order. Missing: colors without name or without values. -/
theorem read_colors_partial {env : Env} {g : Font} (h : History rolls today l e) (hr : ReadBack env e.builder g)
    (h1 : ∀ d ∈ dyesOf l, d.name ≠ [] ∧ d.alphas ≠ [])
    (h2 : ∀ p ∈ all Method.palette? l, p.name ≠ [] ∧ p.colors ≠ []) :
    g.eachDye = .ok ((dyesOf (.build env :: l)).map Dye.name) ∧
    g.eachPalette = .ok ((all Method.palette? l).map Palette.name) ∧
    (∀ i d, (dyesOf (.build env :: l))[i]? = some d → g.eachDyeAlpha i = .ok (d.alphas.map UInt8.toNat)) ∧
    (∀ i p, (all Method.palette? l)[i]? = some p → g.eachPaletteColor i = .ok (p.colors.map rgbaValues)) := by
  obtain ⟨k1, k2, _⟩ := lists h
  have hd : dyesOf (.build env :: l) = fontDyes e.builder := by
    rw [fontDyes, k1, k2, dyesOf]
  obtain ⟨_, _, q1, q2, q3, q4⟩ := C53.colors_partial hr (by rw [k1]; exact h1) (by rw [k2]; exact h2)
  rw [hd, ← k2]
  refine ⟨q1, q2, fun i d hi => ?_, fun i p hi => ?_⟩
  · obtain ⟨hl, rfl⟩ := List.getElem?_eq_some_iff.1 hi
    exact q3 i hl
  · obtain ⟨hl, rfl⟩ := List.getElem?_eq_some_iff.1 hi
    exact q4 i hl

/-- Settings: those that were added, with the numbers of their options. Missing: the names of options, as in
`C53.settings_partial`. -/
theorem read_settings_partial {env : Env} {g : Font} (h : History rolls today l e) (hr : ReadBack env e.builder g) :
    g.numSettings = .ok (all Method.setting? l).length ∧
    g.eachSetting = .ok ((all Method.setting? l).map fun x => x.name) ∧
    ∀ k x, (all Method.setting? l)[k]? = some x → x.options ≠ [] → g.getNumOptions k = .ok x.options.length := by
  obtain ⟨_, _, k3, _⟩ := lists h
  obtain ⟨q1, q2, q3, _⟩ := C53.settings_partial hr
  rw [← k3]
  refine ⟨q1, q2, fun k x hx ho => ?_⟩
  obtain ⟨hl, rfl⟩ := List.getElem?_eq_some_iff.1 hx
  exact q3 k hl ho

/-- Sets: what was added to them, in the order in which they were created. -/
theorem read_sets {env : Env} {g : Font} (h : History rolls today l e) (hr : ReadBack env e.builder g) {i u : Nat}
    (hu : (all Method.createdSet? l)[i]? = some u) :
    ∃ gs bytes ranges list, setOf u l = some gs ∧ g.getGlyphSet i = .ok bytes ∧
      RSet.glyphRanges bytes = .ok ranges ∧ RSet.glyphList bytes = .ok list ∧
      ranges.map (fun r => (e.builder.glyphOrder[r.1]?, e.builder.glyphOrder[r.2]?)) =
        gs.ranges.map (fun u => (some u.1, some u.2)) ∧
      list.map (e.builder.glyphOrder[·]?) = gs.list.map some := by
  obtain ⟨k1, k2⟩ := sets h
  rw [← k1] at hu
  obtain ⟨hl, rfl⟩ := List.getElem?_eq_some_iff.1 hu
  rw [← k2]
  exact C53.glyphSets hr hl

/-- Code points: those that no call maps are missing; those that the latest call maps to one glyph lead to it. -/
theorem read_mapping {env : Env} {g : Font} (h : History rolls today l e) (hr : ReadBack env e.builder g) (c : Int)
    (hc : -2147483648 ≤ c ∧ c < 2147483648) (settings : List Nat) :
    (l.findSome? (Method.entry? c) = none → g.utf8 (runeBits c) settings = .ok none) ∧
    (∀ since before u, l = since ++ .map c u :: before → since.findSome? (Method.entry? c) = none →
      ∃ r i, g.utf8 (runeBits c) settings = .ok (some r) ∧ e.builder.glyphOrder[i]? = some u ∧ g.groupSize r = .ok 1 ∧
        g.groupAnimFlags r = .ok 0 ∧ g.groupSelect r 0 = .ok i) := by
  obtain ⟨q1, q2, _⟩ := C53.mapping hr c hc settings
  rw [mapping h] at q1 q2
  refine ⟨q1, fun since before u hl hn => q2 u 0 ?_⟩
  rw [hl, List.findSome?_append, hn, Option.none_or, List.findSome?_cons]
  simp [Method.entry?]

/-- Names: a name that is found was the latest one given to the glyph since it was added. Missing: that all names are
found (`C19.complete_violated`). -/
theorem read_names_partial {env : Env} {g : Font} (h : History rolls today l e) (hr : ReadBack env e.builder g)
    (x : Bytes) :
    g.findIndexByName x = .ok glyphMissing ∨ (x ≠ [] ∧ ∃ i u since before r mask, g.findIndexByName x = .ok i ∧
      e.builder.glyphOrder[i]? = some u ∧ l = since ++ .addGlyph r mask :: before ∧ u ∈ r.take 4 ∧
      (all Method.mask? before).length = i ∧ latest (Method.glyphName? u) [] since = x) := by
  rcases (C53.glyphNames_partial hr).1 x with h0 | ⟨i, u, d, h1, h2, h3, h4, h5⟩
  · exact .inl h0
  · obtain ⟨d', since, before, r, p, k1, _, k3, k4, k5, k6, _⟩ := (glyphs h).2 i u h2
    rw [h3] at k1
    cases k1
    exact .inr ⟨h5, i, u, since, before, r, _, h1, h2, k3, k4, k5, k6.symm.trans h4⟩

/-- Code points that the latest call maps with a switch to single glyphs: the glyph of the chosen options. Missing:
switches with more than 256 cases. -/
theorem read_switched_partial {env : Env} {g : Font} (h : History rolls today l e) (hr : ReadBack env e.builder g)
    (c : Int) (hc : -2147483648 ≤ c ∧ c < 2147483648) {since before : List Method} {k : Nat} {us : List Nat}
    (hl : l = since ++ .mapWithSwitchSingles c k us :: before) (hn : since.findSome? (Method.entry? c) = none)
    (ht : k < 254) :
    ∃ sw, (all Method.switch? l)[k]? = some sw ∧
      (combinations (sw.map (optionsSaid l)) ≤ 256 → us.length = combinations (sw.map (optionsSaid l)) ∧
        ∀ settings, (all Method.setting? l).length ≤ settings.length →
        (∀ j ∈ sw, settings.getD j 0 < optionsSaid l j) →
        ∃ r i, g.utf8 (runeBits c) settings = .ok (some r) ∧ g.groupSize r = .ok 1 ∧ g.groupSelect r 0 = .ok i ∧
          e.builder.glyphOrder[i]? = us[mixedRadix (sw.map fun j => (optionsSaid l j, settings.getD j 0))]?) := by
  obtain ⟨_, _, k3, k4⟩ := lists h
  have ho : optionsSaid l = options e.builder := by
    funext j
    rw [optionsSaid, ← k3, options]
  have he : e.builder.runeMapping.get c = some ⟨k, us.map fun u => ⟨[u], 0⟩⟩ := by
    rw [mapping h, hl, List.findSome?_append, hn, Option.none_or, List.findSome?_cons]
    simp [Method.entry?]
  obtain ⟨hk, q1, q2⟩ := C53.switched_partial hr c hc k us he ht
  rw [← k3, ← k4, ho]
  refine ⟨_, List.getElem?_eq_getElem hk, fun hs => ⟨by rw [q1]; omega, fun settings hset hval => ?_⟩⟩
  obtain ⟨r, i, a1, a2, _, a4, _, a6⟩ := q2 hs settings hset hval
  exact ⟨r, i, a1, a2, a4, a6⟩

/-! ## An example -/

/-- The values of the latest calls; the builder is `Sample.called`. -/
example : History [0x9E3779B97F4A7C15] Sample.day Sample.calls ⟨Sample.called, [], [], []⟩ ∧
    latest Method.ascent? 9 Sample.calls = 11 ∧ versionOf Sample.calls = (2, 7) ∧
    latest (Method.kerning? (1001, 1002)) 0 Sample.calls = -3 ∧
    Sample.calls.findSome? (Method.entry? 65) = some ⟨255, [⟨[1002], 0⟩]⟩ := by
  refine ⟨called_history, ?_⟩
  decide +kernel

/-- The font read from its file. -/
example : ReadBack Sample.env Sample.called (Sample.result Sample.called).2 :=
  C53.readable env_fair (fun _ => .refl _) env_zero ⟨_, called_history.edits, rfl⟩
    (b' := (Sample.result Sample.called).1) (by decide +kernel) (fits_of (by decide +kernel))
    ⟨by decide +kernel, by decide +kernel, by decide +kernel, by decide +kernel, by decide +kernel,
      by decide +kernel, by decide +kernel, by decide +kernel, by decide +kernel, by decide +kernel,
      by decide +kernel, by decide +kernel, by decide +kernel⟩

/-- Edition data is loaded after these calls, and one more pair is set: it has its value, the other one that of its
class. -/
example : ∃ e, History [0x9E3779B97F4A7C15] Sample.day ([.setKerningPair 1002 1001 7] ++
      .parseEditionData (fun _ => 0) ⟨editionSignature, .nil⟩ (.ok (Sample.atOnce Sample.tighter.bytes)) :: Sample.calls) e ∧
    kernOf e.builder.kernClasses e.builder.horzKern (1001, 1002) = -9 ∧
    kernOf e.builder.kernClasses e.builder.horzKern (1002, 1001) = 7 := by
  have hv : Sample.tighter.Valid Sample.called :=
    ⟨⟨by decide +kernel, by decide +kernel, Sample.categories_valid (by decide +kernel), by decide +kernel,
      Sample.names_valid (by decide +kernel)⟩, by decide +kernel, by decide +kernel, by decide +kernel,
      by simp [Sample.tighter, Sample.editionData]⟩
  have hf : FileWith editionSignature Sample.tighter.bytes ⟨editionSignature, .nil⟩
      (.ok (Sample.atOnce Sample.tighter.bytes)) :=
    ⟨rfl, _, rfl, Sample.atOnce_serves (by decide +kernel) (by decide +kernel)⟩
  have hl : Sample.tighter.bytes.length ≤ maxFontDataSize := by decide +kernel
  obtain ⟨e1, hp, _⟩ := C46.loaded_partial (fun _ => 0) (C46.public_named called_history.edits) hv hl hf
  have h1 : Method.run (.parseEditionData (fun _ => 0) ⟨editionSignature, .nil⟩
      (.ok (Sample.atOnce Sample.tighter.bytes))) ⟨Sample.called, [], [], []⟩ = .ok e1 := by
    show (do return (← parseEditionData _ _ _ _).2 : Res Editor) = _
    rw [hp]; rfl
  have h2 := called_history.call (m := .parseEditionData _ _ _) (by trivial) h1
  have h := h2.call (m := .setKerningPair 1002 1001 7) (by simp only [Method.InRange, IsInt8]; decide) rfl
  have hs : ∀ m ∈ [Method.setKerningPair 1002 1001 7], m.edition = false := by decide
  exact ⟨_, h, (kerning_loaded (since := [_]) called_history hv hl hf h hs _).trans (by decide +kernel),
    (kerning_loaded (since := [_]) called_history hv hl hf h hs _).trans (by decide +kernel)⟩

/-- A code point that is mapped with a switch of two cases, in a font that is read from its file. -/
example : ∃ e, History [0x9E3779B97F4A7C15] Sample.day Sample.switchedCalls e ∧
    ReadBack Sample.env e.builder (Sample.result Sample.switchedCalled).2 ∧
    Sample.switchedCalls = [] ++ .mapWithSwitchSingles 97 0 [1001, 1002] :: Sample.calls ∧
    (all Method.switch? Sample.switchedCalls)[0]? = some [0] ∧
    combinations ([0].map (optionsSaid Sample.switchedCalls)) = 2 ∧
    (∀ d ∈ dyesOf Sample.switchedCalls, d.name ≠ [] ∧ d.alphas ≠ []) ∧
    all Method.createdSet? Sample.switchedCalls = [77] ∧
    all Method.mask? Sample.switchedCalls = [Sample.dot, Sample.dot] ∧ C10.ValidMask Sample.dot := by
  have h : History [0x9E3779B97F4A7C15] Sample.day Sample.switchedCalls ⟨Sample.switchedCalled, [], [], []⟩ :=
    called_history.call (by simp only [Method.InRange]; decide) (by decide +kernel)
  refine ⟨_, h, C53.readable env_fair (fun _ => .refl _) env_zero ⟨_, h.edits, rfl⟩
    (b' := (Sample.result Sample.switchedCalled).1) (by decide +kernel) (fits_of (by decide +kernel))
    ⟨by decide +kernel, by decide +kernel, by decide +kernel, by decide +kernel, by decide +kernel,
      by decide +kernel, by decide +kernel, by decide +kernel, by decide +kernel, by decide +kernel,
      by decide +kernel, by decide +kernel, by decide +kernel⟩, rfl, by decide +kernel, by decide +kernel,
    by decide +kernel, by decide +kernel, by decide +kernel, ?_⟩
  exact ⟨⟨by decide, by decide, by decide, by decide, by decide⟩, by decide, by decide, by decide, by decide⟩

end C55
