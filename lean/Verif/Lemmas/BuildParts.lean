import Verif.Model.Build

/-! # What a successful `build` is made of -/

namespace BuilderModel
open Go Helpers

/-- The bytes of the sections of a built font. -/
structure Parts where
  header : Bytes
  metrics : Bytes
  dyes : Bytes
  palettes : Bytes
  glyphNames : Bytes
  glyphMasks : Bytes
  words : Bytes
  settingNames : Bytes
  settingDefs : Bytes
  switches : Bytes
  mapping : Bytes
  conditions : Bytes
  utf8Sets : Bytes
  glyphSets : Bytes
  utf8Rules : Bytes
  glyphRules : Bytes
  horzKern : Bytes
  vertKern : Bytes

namespace Parts

def list (s : Parts) : List Bytes :=
  [s.header, s.metrics, s.dyes, s.palettes, s.glyphNames, s.glyphMasks, s.words, s.settingNames,
   s.settingDefs, s.switches, s.mapping, s.conditions, s.utf8Sets, s.glyphSets, s.utf8Rules,
   s.glyphRules, s.horzKern, s.vertKern]

/-- The first `k` sections. -/
def pre (s : Parts) (k : Nat) : Bytes := (s.list.take k).flatten
/-- The sections from the `k`-th on. -/
def post (s : Parts) (k : Nat) : Bytes := (s.list.drop k).flatten

/-- The font. -/
def font (s : Parts) : FontModel.Font :=
  ⟨s.list.flatten, (s.pre 1).length, (s.pre 2).length, (s.pre 3).length, (s.pre 4).length,
   (s.pre 5).length, (s.pre 6).length, (s.pre 7).length, (s.pre 8).length, (s.pre 9).length,
   (s.pre 10).length, (s.pre 11).length, (s.pre 12).length, (s.pre 13).length, (s.pre 14).length,
   (s.pre 15).length, (s.pre 16).length, (s.pre 17).length⟩

theorem flatten_split (s : Parts) (k : Nat) (x : Bytes) (h : s.list.drop k = x :: s.list.drop (k + 1)) :
    s.list.flatten = s.pre k ++ (x ++ s.post (k + 1)) := by
  have := congrArg List.flatten (List.take_append_drop k s.list)
  rw [List.flatten_append, h, List.flatten_cons] at this
  rw [← this]
  rfl

end Parts

/-- The parts of a successful `build`; `b'` is the builder with the main dye. -/
structure Built (env : Env) (b b' : Builder) (f : FontModel.Font) (s : Parts)
    (words builtin : GoMap Bytes Int) : Prop where
  count : b.glyphData.length ≤ FontModel.maxGlyphs
  order : b.glyphData.length = b.glyphOrder.length
  some : b.glyphData.length ≠ 0
  header : b.headerSection = .ok s.header
  metricsOk : b.metricsStatus = .ok ()
  sections : b.dyes.length + b.palettes.length ≤ 255
  main : (if b.dyes.length + b.palettes.length = 0 then b.addDye (ascii "main") [255] else .ok b)
    = .ok b'
  metrics : s.metrics = b'.metricsSection
  dyes : b'.dyesSection = .ok s.dyes
  palettes : b'.palettesSection = .ok s.palettes
  glyphNames : b'.glyphNamesSection = .ok s.glyphNames
  glyphMasks : b'.glyphMasksSection env = .ok s.glyphMasks
  wordMap : b'.settingWords env = .ok (words, builtin)
  wordBytes : Builder.wordsSection env words = .ok s.words
  settingNames : b'.settingNamesSection = .ok s.settingNames
  settingDefs : b'.settingDefsSection builtin words = .ok s.settingDefs
  switches : b'.switchesSection = .ok s.switches
  mapping : b'.mappingSection (s.pre 10).length = .ok s.mapping
  conditions : b'.conditionsSection = .ok s.conditions
  utf8Sets : b'.utf8SetsSection = .ok s.utf8Sets
  glyphSets : b'.glyphSetsSection = .ok s.glyphSets
  utf8Rules : Builder.rulesSection (Builder.ruleBytes Builder.noGroup Builder.runeElem) b'.utf8Rules
    = .ok s.utf8Rules
  glyphRules : Builder.rulesSection (Builder.ruleBytes b'.groupRef b'.glyphElem) b'.glyphRules
    = .ok s.glyphRules
  horzCount : b'.horzKern.length ≤ 16777215
  vertCount : b'.vertKern.length ≤ 16777215
  horzKern : b'.kernSection b'.horzKern b'.horzKern = .ok s.horzKern
  vertKern : b'.kernSection b'.vertKern b'.horzKern = .ok s.vertKern
  size : s.list.flatten.length ≤ FontModel.maxFontDataSize
  font : f = s.font

theorem ite_panic {α : Type} {p : Prop} [Decidable p] {m : String} {x : Res α} {a : α} :
    (if p then Res.panic m else x) = .ok a ↔ ¬ p ∧ x = .ok a := by
  split <;> simp_all

theorem ite_err {α : Type} {p : Prop} [Decidable p] {m : String} {x : Res α} {a : α} :
    (if p then Res.err m else x) = .ok a ↔ ¬ p ∧ x = .ok a := by
  split <;> simp_all

theorem build_parts {env : Env} {b b' : Builder} {f : FontModel.Font}
    (h : b.build env = .ok (b', f)) :
    ∃ s words builtin, Built env b b' f s words builtin := by
  unfold Builder.build at h
  simp only [ite_panic, ite_err, Res.bind_eq_ok, Res.pure_eq] at h
  obtain ⟨h1, h2, h3, header, hh, u, hm, h4, b1, hb, dyes, hd, pal, hp, gn, hgn, gm, hgm, ⟨w, bi⟩, hw,
    wb, hwb, sn, hsn, sd, hsd, sw, hsw, mp, hmp, co, hco, us, hus, gs, hgs, ur, hur, gr, hgr, h5, h6,
    hk, hhk, vk, hvk, h7, h8⟩ := h
  simp only [Res.ok.injEq, Prod.mk.injEq] at h8
  obtain ⟨rfl, rfl⟩ := h8
  refine ⟨⟨header, b1.metricsSection, dyes, pal, gn, gm, wb, sn, sd, sw, mp, co, us, gs, ur, gr, hk,
    vk⟩, w, bi, ?_⟩
  constructor
  case font =>
    simp only [Parts.font, Parts.list, Parts.pre, List.flatten_cons, List.flatten_nil, List.append_nil,
      List.append_assoc, List.length_append, List.take, Nat.add_assoc, List.length_nil]
  case mapping =>
    simpa only [Parts.list, Parts.pre, List.take, List.flatten_cons, List.flatten_nil, List.append_nil,
      List.append_assoc, List.length_append, Nat.add_assoc] using hmp
  case size =>
    simp only [Parts.list, List.flatten_cons, List.flatten_nil, List.append_nil,
      List.append_assoc, List.length_append] at h7 ⊢
    omega
  all_goals first | assumption | omega | rfl | simp_all

/-- Conversely the parts make up a successful `build`. -/
theorem Built.build {env : Env} {b b' : Builder} {f : FontModel.Font} {s : Parts}
    {words builtin : GoMap Bytes Int} (h : Built env b b' f s words builtin) :
    b.build env = .ok (b', f) := by
  unfold Builder.build
  simp only [ite_panic, ite_err, Res.bind_eq_ok, Res.pure_eq]
  refine ⟨by have := h.count; omega, by have := h.order; omega, h.some, _, h.header, _, h.metricsOk,
    by have := h.sections; omega, _, h.main, _, h.dyes, _, h.palettes, _, h.glyphNames, _, h.glyphMasks,
    _, h.wordMap, _, h.wordBytes, _, h.settingNames, _, h.settingDefs, _, h.switches, s.mapping, ?_, _,
    h.conditions, _, h.utf8Sets, _, h.glyphSets, _, h.utf8Rules, _, h.glyphRules,
    by have := h.horzCount; omega, by have := h.vertCount; omega, _, h.horzKern, _, h.vertKern, ?_, ?_⟩
  · have := h.mapping
    simpa only [Parts.list, Parts.pre, List.take, List.flatten_cons, List.flatten_nil, List.append_nil,
      List.append_assoc, List.length_append, Nat.add_assoc, h.metrics] using this
  · have := h.size
    simp only [Parts.list, List.flatten_cons, List.flatten_nil, List.append_nil,
      List.append_assoc, List.length_append, h.metrics] at this ⊢
    omega
  · rw [h.font]
    simp only [Parts.font, Parts.list, Parts.pre, List.flatten_cons, List.flatten_nil, List.append_nil,
      List.append_assoc, List.length_append, List.take, Nat.add_assoc, List.length_nil, h.metrics]

end BuilderModel
