import Verif.Lemmas.Reachable
import Verif.Lemmas.BoolList
import Verif.Lemmas.BuiltMapping

/-! # More invariants of the builder -/

namespace Spec
open Go BuilderModel EditionModel Helpers

/-- The inputs of a rule: `isGroup` says which ones are sets. -/
structure RuleShape (r : Rule) : Prop where
  flags : ∃ l : List Bool, C02.Rep r.isGroup l ∧ l.length = r.headLen + r.bodyLen + r.tailLen ∧
    l.count true = r.inGroups.length ∧ l.count false = r.inElems.length

/-- An entry of the mapping. -/
def EntryShape (b : Builder) (e : MapEntry) : Prop :=
  (e.switchType = 255 ∧ ∃ u, e.cases = [⟨[u], 0⟩]) ∨
  (e.switchType = 254 ∧ ∃ g, e.cases = [g] ∧ 2 ≤ g.glyphs.length) ∨
  (e.switchType < 254 ∧ b.computeNumSwitchCases e.switchType = .ok e.cases.length ∧
    ∀ g ∈ e.cases, g.glyphs ≠ [])

/-- What the methods maintain, besides `Kept`. -/
structure Calls (b : Builder) : Prop where
  count : b.glyphData.length ≤ 56789
  name : b.fontName.length ≤ 255
  family : b.fontFamily.length ≤ 255
  author : b.fontAuthor.length ≤ 255
  about : b.fontAbout.length ≤ 65535
  switches : b.switches.length ≤ 254
  switchSettings : ∀ s ∈ b.switches, s.Nodup ∧ ∀ k ∈ s, k < b.settings.length
  codePoints : ∀ e ∈ b.runeMapping, 32 ≤ e.1
  entries : ∀ e ∈ b.runeMapping, EntryShape b e.2
  runeSets : b.runeSets = []
  sets : b.glyphSets.length ≤ 255
  setKeys : (b.glyphSets.map Prod.fst).Nodup
  setOrder : ∀ s ∈ b.glyphSets, s.1 ∈ b.glyphSetsOrder
  utf8Rules : ∀ r ∈ b.utf8Rules, RuleShape r ∧ r.bodyLen ≠ 0 ∧ r.output.length = 1
  glyphRules : ∀ r ∈ b.glyphRules, RuleShape r

/-- The number of cases does not change when settings and switches are added. -/
theorem numCasesLoop_append {b b' : Builder} {l : List Setting} (hb : b'.settings = b.settings ++ l) :
    ∀ {sw : List Nat} {i : Nat} {n r : Int}, b.numCasesLoop sw i n = .ok r → b'.numCasesLoop sw i n = .ok r
  | [], i, n, r, h => h
  | k :: sw, i, n, r, h => by
    simp only [Builder.numCasesLoop, Res.bind_eq_ok, ite_panic] at h ⊢
    obtain ⟨x, hx, hne, hr⟩ := h
    refine ⟨x, ?_, hne, numCasesLoop_append hb hr⟩
    rw [idx_eq_ok] at hx ⊢
    rw [hb, List.getElem?_append_left (List.getElem?_eq_some_iff.1 hx).1, hx]

theorem EntryShape.append {b b' : Builder} {e : MapEntry} (h : EntryShape b e) {l : List Setting}
    {w : List (List Nat)} (hb : b'.settings = b.settings ++ l) (hw : b'.switches = b.switches ++ w) :
    EntryShape b' e := by
  rcases h with h | h | ⟨h1, h2, h3⟩
  · exact .inl h
  · exact .inr (.inl h)
  · refine .inr (.inr ⟨h1, ?_, h3⟩)
    simp only [Builder.computeNumSwitchCases, if_neg (show ¬ e.switchType ≥ 254 by omega),
      Res.bind_eq_ok] at h2 ⊢
    obtain ⟨s, hs, hl⟩ := h2
    refine ⟨s, ?_, numCasesLoop_append hb hl⟩
    rw [idx_eq_ok] at hs ⊢
    rw [hw, List.getElem?_append_left (List.getElem?_eq_some_iff.1 hs).1, hs]

theorem EntryShape.same {b b' : Builder} {e : MapEntry} (h : EntryShape b e) (hb : b'.settings = b.settings)
    (hw : b'.switches = b.switches) : EntryShape b' e :=
  h.append (l := []) (w := []) (by rw [hb, List.append_nil]) (by rw [hw, List.append_nil])

theorem new_calls {rolls : List UInt64} {today : DateModel.Date} {b : Builder} (h : new rolls today = .ok b) :
    Calls b := by
  obtain ⟨id, hid, rfl⟩ := find_new h
  have hl : ∀ s : String, (ascii s).length = s.toList.length := fun s => by simp [ascii]
  constructor <;> simp [hl]

/-- Changes of other fields. -/
macro "calls_same" h:ident : tactic =>
  `(tactic| exact ⟨($h).count, ($h).name, ($h).family, ($h).author, ($h).about, ($h).switches,
    ($h).switchSettings, ($h).codePoints, fun e he => (($h).entries e he).same rfl rfl, ($h).runeSets, ($h).sets, ($h).setKeys,
    ($h).setOrder, ($h).utf8Rules, ($h).glyphRules⟩)

theorem GoMap.mem_set {K V : Type} [DecidableEq K] : ∀ {m : GoMap K V} {k : K} {v : V} {e : K × V},
    e ∈ m.set k v → e ∈ m ∨ e = (k, v)
  | [], k, v, e, h => by
    simp only [GoMap.set, List.mem_singleton] at h
    exact .inr h
  | (k', v') :: rest, k, v, e, h => by
    rw [GoMap.set] at h
    split at h
    · rcases List.mem_cons.1 h with h | h
      · exact .inr h
      · exact .inl (by simp [h])
    · rcases List.mem_cons.1 h with h | h
      · exact .inl (by simp [h])
      · rcases GoMap.mem_set h with h | h
        · exact .inl (by simp [h])
        · exact .inr h

theorem GoMap.length_set_mem {K V : Type} [DecidableEq K] {m : GoMap K V} {k : K} {v w : V}
    (h : m.get k = some w) : (m.set k v).length = m.length := by
  have := congrArg List.length (GoMap.keys_set_mem (GoMap.mem_keys_of_get h) v)
  simpa [GoMap.keys] using this

theorem GoMap.length_set_le {K V : Type} [DecidableEq K] : ∀ (m : GoMap K V) (k : K) (v : V),
    (m.set k v).length ≤ m.length + 1
  | [], k, v => by simp [GoMap.set]
  | (k', v') :: rest, k, v => by
    rw [GoMap.set]
    split
    · simp
    · have := GoMap.length_set_le rest k v
      simp only [List.length_cons] at this ⊢
      omega

/-- A change of a glyph. -/
theorem Calls.setGlyph {b : Builder} (h : Calls b) {uid : Nat} {g g' : GlyphData}
    (hg : b.glyphData.get uid = some g) : Calls { b with glyphData := b.glyphData.set uid g' } := by
  refine ⟨?_, h.name, h.family, h.author, h.about, h.switches, h.switchSettings, h.codePoints, fun e he => (h.entries e he).same rfl rfl,
    h.runeSets, h.sets, h.setKeys, h.setOrder, h.utf8Rules, h.glyphRules⟩
  show (b.glyphData.set uid g').length ≤ 56789
  rw [GoMap.length_set_mem hg]
  exact h.count

/-- A new entry of the mapping. -/
theorem Calls.setEntry {b : Builder} (h : Calls b) {c : Int} (hc : 32 ≤ c) {e : MapEntry}
    (he : EntryShape b e) : Calls { b with runeMapping := b.runeMapping.set c e } := by
  refine ⟨h.count, h.name, h.family, h.author, h.about, h.switches, h.switchSettings, ?_, ?_,
    h.runeSets, h.sets, h.setKeys, h.setOrder, h.utf8Rules, h.glyphRules⟩
  · intro x hx
    rcases GoMap.mem_set hx with hx | rfl
    · exact h.codePoints x hx
    · exact hc
  · intro x hx
    rcases GoMap.mem_set hx with hx | rfl
    · exact (h.entries x hx).same rfl rfl
    · exact he.same rfl rfl

/-- A change of a set. -/
theorem Calls.setSet {b : Builder} (h : Calls b) {uid : Nat} {s s' : GlyphSet}
    (hg : b.glyphSets.get uid = some s) : Calls { b with glyphSets := b.glyphSets.set uid s' } := by
  refine ⟨h.count, h.name, h.family, h.author, h.about, h.switches, h.switchSettings, h.codePoints, fun e he => (h.entries e he).same rfl rfl,
    h.runeSets, ?_, GoMap.nodup_set h.setKeys _ _, ?_, h.utf8Rules, h.glyphRules⟩
  · show (b.glyphSets.set uid s').length ≤ 255
    rw [GoMap.length_set_mem hg]
    exact h.sets
  · intro x hx
    rcases GoMap.mem_set hx with hx | rfl
    · exact h.setOrder x hx
    · exact h.setOrder (uid, s) (GoMap.mem_of_get hg)

theorem pushFalse_rep : ∀ {n : Nat} {s s' : BoolList} {l : List Bool}, C02.Rep s l →
    Builder.pushFalse n s = .ok s' → C02.Rep s' (l ++ List.replicate n false)
  | 0, s, s', l, h, e => by
    rw [Builder.pushFalse] at e
    rw [← Res.ok.inj e]; simpa using h
  | n + 1, s, s', l, h, e => by
    rw [Builder.pushFalse, Res.bind_eq_ok] at e
    obtain ⟨t, h1, h2⟩ := e
    obtain ⟨t', e1, e2⟩ := C02.push_rep h false
    rw [h1] at e1
    cases e1
    have := pushFalse_rep e2 h2
    rwa [List.append_assoc, List.singleton_append, ← List.replicate_succ] at this

theorem ruleInputs_rep {b : Builder} : ∀ {us : List Nat} {s : BoolList} {l : List Bool} {gs hs : List Nat}
    {r : BoolList × List Nat × List Nat}, C02.Rep s l → l.count true = hs.length →
    l.count false = gs.length → b.ruleInputs us s gs hs = .ok r →
    ∃ l', C02.Rep r.1 l' ∧ l'.length = l.length + us.length ∧ l'.count true = r.2.2.length ∧
      l'.count false = r.2.1.length
  | [], s, l, gs, hs, r, h, ht, hf, e => by
    rw [Builder.ruleInputs] at e
    rw [← Res.ok.inj e]
    exact ⟨l, h, by simp, ht, hf⟩
  | u :: us, s, l, gs, hs, r, h, ht, hf, e => by
    rw [Builder.ruleInputs] at e
    split at e
    · rw [Res.bind_eq_ok] at e
      obtain ⟨t, h1, h2⟩ := e
      obtain ⟨t', e1, e2⟩ := C02.push_rep h false
      rw [h1] at e1
      cases e1
      obtain ⟨l', g1, g2, g3, g4⟩ := ruleInputs_rep e2 (by simp [ht]) (by simp [hf]) h2
      exact ⟨l', g1, by simp at g2 ⊢; omega, g3, g4⟩
    · split at e
      · cases e
      · rw [Res.bind_eq_ok] at e
        obtain ⟨t, h1, h2⟩ := e
        obtain ⟨t', e1, e2⟩ := C02.push_rep h true
        rw [h1] at e1
        cases e1
        obtain ⟨l', g1, g2, g3, g4⟩ := ruleInputs_rep e2 (by simp [ht]) (by simp [hf]) h2
        exact ⟨l', g1, by simp at g2 ⊢; omega, g3, g4⟩

theorem empty_rep : C02.Rep ⟨0, []⟩ [] := ⟨rfl, rfl, fun i h => by simp at h⟩

theorem switchCasesLoop_glyphs {final : List UInt8} : ∀ {groups : List (List Nat)} {i : Nat} {cases : List MapGroup},
    Builder.switchCasesLoop final groups i = .ok cases → cases.map (·.glyphs) = groups
  | [], i, cases, h => by rw [Builder.switchCasesLoop] at h; rw [← Res.ok.inj h]; rfl
  | g :: gs, i, cases, h => by
    simp only [Builder.switchCasesLoop, Res.bind_eq_ok, Res.pure_eq, Res.ok.injEq] at h
    obtain ⟨f, _, rest, hr, rfl⟩ := h
    rw [List.map_cons, switchCasesLoop_glyphs hr]

theorem animFlagsLoop_ne {groups : List (List Nat)} : ∀ {flags final : List UInt8} {r : List UInt8 × List UInt8},
    Builder.animFlagsLoop groups flags final = .ok r → ∀ g ∈ groups, g ≠ [] := by
  induction groups with
  | nil => intro flags final r _ g hg; cases hg
  | cons a groups ih =>
    intro flags final r h g hg
    unfold Builder.animFlagsLoop at h
    split at h
    · cases h
    · rename_i h0
      have ha : a ≠ [] := fun e => h0 (by rw [e]; rfl)
      split at h
      · rcases List.mem_cons.1 hg with rfl | hg
        · exact ha
        · exact ih h g hg
      · split at h
        · cases h
        · rcases List.mem_cons.1 hg with rfl | hg
          · exact ha
          · exact ih h g hg

theorem Call.calls {b b' : Builder} (h : Calls b) (hc : Call b b') : Calls b' := by
  cases hc with
  | setFirstVerDate hc => obtain rfl := isValid_ok (b := b) hc; calls_same h
  | setMajorVerDate hc => obtain rfl := isValid_ok (b := b) hc; calls_same h
  | setMinorVerDate hc => obtain rfl := isValid_ok (b := b) hc; calls_same h
  | raiseMajorVersion => calls_same h
  | raiseMinorVersion => calls_same h
  | setVersion => calls_same h
  | setName hc =>
    simp only [Builder.setName, ite_err, Res.bind_eq_ok, Res.pure_eq, Res.ok.injEq] at hc
    obtain ⟨hl, _, _, rfl⟩ := hc
    exact ⟨h.count, by simp only; omega, h.family, h.author, h.about, h.switches, h.switchSettings, h.codePoints,
      fun e he => (h.entries e he).same rfl rfl, h.runeSets, h.sets, h.setKeys, h.setOrder, h.utf8Rules, h.glyphRules⟩
  | setFamily hc =>
    simp only [Builder.setFamily, ite_err, Res.bind_eq_ok, Res.pure_eq, Res.ok.injEq] at hc
    obtain ⟨hl, _, _, rfl⟩ := hc
    exact ⟨h.count, h.name, by simp only; omega, h.author, h.about, h.switches, h.switchSettings, h.codePoints,
      fun e he => (h.entries e he).same rfl rfl, h.runeSets, h.sets, h.setKeys, h.setOrder, h.utf8Rules, h.glyphRules⟩
  | setAuthor hc =>
    simp only [Builder.setAuthor, ite_err, Res.bind_eq_ok, Res.pure_eq, Res.ok.injEq] at hc
    obtain ⟨hl, _, _, rfl⟩ := hc
    exact ⟨h.count, h.name, h.family, by simp only; omega, h.about, h.switches, h.switchSettings, h.codePoints,
      fun e he => (h.entries e he).same rfl rfl, h.runeSets, h.sets, h.setKeys, h.setOrder, h.utf8Rules, h.glyphRules⟩
  | setAbout hc =>
    simp only [Builder.setAbout, ite_err, Res.bind_eq_ok, Res.pure_eq, Res.ok.injEq] at hc
    obtain ⟨hl, _, _, rfl⟩ := hc
    exact ⟨h.count, h.name, h.family, h.author, by simp only; omega, h.switches, h.switchSettings, h.codePoints,
      fun e he => (h.entries e he).same rfl rfl, h.runeSets, h.sets, h.setKeys, h.setOrder, h.utf8Rules, h.glyphRules⟩
  | setVertLayoutUsed => calls_same h
  | setMonoWidth => calls_same h
  | setAscent => calls_same h
  | setExtraAscent => calls_same h
  | setDescent => calls_same h
  | setExtraDescent => calls_same h
  | setMidlineAscent => calls_same h
  | setUppercaseAscent => calls_same h
  | setHorzInterspacing => calls_same h
  | setVertInterspacing => calls_same h
  | setLineGap => calls_same h
  | setVertLineWidth hc =>
    simp only [Builder.setVertLineWidth, ite_err, Res.ok.injEq] at hc
    obtain ⟨_, _, rfl⟩ := hc; calls_same h
  | setVertLineGap hc =>
    simp only [Builder.setVertLineGap, ite_err, Res.ok.injEq] at hc
    obtain ⟨_, rfl⟩ := hc; calls_same h
  | addGlyph hc =>
    simp only [Builder.addGlyph, Res.bind_eq_ok, ite_err] at hc
    obtain ⟨hl, _, _, hc⟩ := hc
    split at hc
    · cases hc
    · rename_i u hu
      simp only [Res.pure_eq, Res.ok.injEq, Prod.mk.injEq] at hc
      obtain ⟨rfl, _⟩ := hc
      refine ⟨?_, h.name, h.family, h.author, h.about, h.switches, h.switchSettings, h.codePoints, fun e he => (h.entries e he).same rfl rfl,
        h.runeSets, h.sets, h.setKeys, h.setOrder, h.utf8Rules, h.glyphRules⟩
      refine Nat.le_trans (GoMap.length_set_le _ _ _) ?_
      have : FontModel.maxGlyphs = 56789 := rfl
      omega
  | setGlyphPlacement hc =>
    rw [Builder.setGlyphPlacement] at hc
    split at hc
    · cases hc
    · rename_i g hg
      rw [← Res.ok.inj hc]
      exact h.setGlyph hg
  | setGlyphName hc =>
    rw [Builder.setGlyphName] at hc
    split at hc
    · cases hc
    · rename_i g hg
      simp only [Res.bind_eq_ok, Res.pure_eq, Res.ok.injEq] at hc
      obtain ⟨_, hv, rfl⟩ := hc
      exact h.setGlyph hg
  | setKerningPair prev next hv => unfold Builder.setKerningPair; split <;> calls_same h
  | addDye hc =>
    simp only [Builder.addDye, ite_err, Res.bind_eq_ok, Res.pure_eq, Res.ok.injEq] at hc
    obtain ⟨_, _, _, rfl⟩ := hc; calls_same h
  | addPalette hc =>
    simp only [Builder.addPalette, ite_err, Res.bind_eq_ok, Res.pure_eq, Res.ok.injEq] at hc
    obtain ⟨_, _, _, rfl⟩ := hc; calls_same h
  | addSetting hc =>
    simp only [Builder.addSetting, ite_err, Res.bind_eq_ok, Res.pure_eq, Res.ok.injEq, Prod.mk.injEq] at hc
    obtain ⟨_, _, _, _, _, _, _, rfl, _⟩ := hc
    refine ⟨h.count, h.name, h.family, h.author, h.about, h.switches, ?_, h.codePoints, ?_,
      h.runeSets, h.sets, h.setKeys, h.setOrder, h.utf8Rules, h.glyphRules⟩
    · intro s hs
      refine ⟨(h.switchSettings s hs).1, fun k hk => ?_⟩
      have := (h.switchSettings s hs).2 k hk
      simp only [List.length_append]
      omega
    · exact fun e he => (h.entries e he).append (w := []) rfl (List.append_nil _).symm
  | addSwitch hc =>
    simp only [Builder.addSwitch, ite_err, Res.bind_eq_ok, Res.pure_eq, Res.ok.injEq, Prod.mk.injEq] at hc
    obtain ⟨_, hl, _, hs, rfl, _⟩ := hc
    refine ⟨h.count, h.name, h.family, h.author, h.about, ?_, ?_, h.codePoints, ?_,
      h.runeSets, h.sets, h.setKeys, h.setOrder, h.utf8Rules, h.glyphRules⟩
    · simp only [List.length_append, List.length_singleton]; omega
    · intro s hs'
      rcases List.mem_append.1 hs' with hs' | hs'
      · exact h.switchSettings s hs'
      · rw [List.mem_singleton.1 hs']
        rcases checkSwitch_eq b.settings.length _ [] with ⟨_, ⟨h1, _⟩, h2⟩ | ⟨⟨m, h1⟩, _⟩
        · exact ⟨h1, h2⟩
        · rw [hs] at h1; cases h1
    · exact fun e he => (h.entries e he).append (l := []) (List.append_nil _).symm rfl
  | map hr hc =>
    simp only [Builder.map, ite_err, Res.ok.injEq] at hc
    obtain ⟨h1, _, rfl⟩ := hc
    exact h.setEntry (by omega) (.inl ⟨rfl, _, rfl⟩)
  | mapGroup hr hc =>
    simp only [Builder.mapGroup, ite_err, Res.ok.injEq] at hc
    obtain ⟨h1, h2, _, _, rfl⟩ := hc
    exact h.setEntry (by omega) (.inr (.inl ⟨rfl, _, rfl, by simp only; omega⟩))
  | mapWithSwitchSingles hr hc =>
    simp only [Builder.mapWithSwitchSingles, ite_err, ite_panic, Res.bind_eq_ok, Res.pure_eq, Res.ok.injEq] at hc
    obtain ⟨h1, h2, _, n, h4, h5, rfl⟩ := hc
    refine h.setEntry (by omega) (.inr (.inr ⟨by simp only; omega, ?_, ?_⟩))
    · simp only [List.length_map]
      rw [h4, Classical.not_not.1 h5]
    · intro g hg
      obtain ⟨u, _, rfl⟩ := List.mem_map.1 hg
      simp
  | mapWithSwitch hr hc =>
    simp only [Builder.mapWithSwitch, ite_err, ite_panic, Res.bind_eq_ok, Res.pure_eq, Res.ok.injEq] at hc
    obtain ⟨h1, h2, _, n, h4, h5, ⟨_, _⟩, h6, hc⟩ := hc
    simp only [ite_err, Res.bind_eq_ok, Res.pure_eq, Res.ok.injEq] at hc
    obtain ⟨_, cases, h7, rfl⟩ := hc
    have hg := switchCasesLoop_glyphs h7
    refine h.setEntry (by omega) (.inr (.inr ⟨by simp only; omega, ?_, ?_⟩))
    · have := congrArg List.length hg
      rw [List.length_map] at this
      simp only
      rw [h4, this, Classical.not_not.1 h5]
    · intro g hm
      exact animFlagsLoop_ne h6 _ (by rw [← hg]; exact List.mem_map_of_mem (f := MapGroup.glyphs) hm)
  | createGlyphSet hc =>
    simp only [Builder.createGlyphSet, ite_err, Res.ok.injEq, Prod.mk.injEq] at hc
    obtain ⟨hl, _, rfl, _⟩ := hc
    refine ⟨h.count, h.name, h.family, h.author, h.about, h.switches, h.switchSettings, h.codePoints, fun e he => (h.entries e he).same rfl rfl,
      h.runeSets, ?_, GoMap.nodup_set h.setKeys _ _, ?_, h.utf8Rules, h.glyphRules⟩
    · refine Nat.le_trans (GoMap.length_set_le _ _ _) ?_
      omega
    · intro x hx
      rcases GoMap.mem_set hx with hx | rfl
      · exact List.mem_append_left _ (h.setOrder x hx)
      · simp
  | removeGlyphSet uid =>
    unfold Builder.removeGlyphSet
    split
    · calls_same h
    · refine ⟨h.count, h.name, h.family, h.author, h.about, h.switches, h.switchSettings, h.codePoints, fun e he => (h.entries e he).same rfl rfl,
        h.runeSets, ?_, GoMap.nodup_delete h.setKeys _, ?_, h.utf8Rules, h.glyphRules⟩
      · exact Nat.le_trans (List.length_filter_le _ _) h.sets
      · exact fun x hx => h.setOrder x (List.mem_filter.1 hx).1
  | addGlyphSetRange hc =>
    rw [Builder.addGlyphSetRange] at hc
    split at hc
    · cases hc
    · rename_i gs hg
      simp only [ite_err, Res.ok.injEq] at hc
      obtain ⟨_, _, _, _, rfl⟩ := hc
      exact h.setSet hg
  | removeGlyphSetRange uid first last =>
    unfold Builder.removeGlyphSetRange
    split
    · calls_same h
    · rename_i gs hg
      split
      · calls_same h
      · exact h.setSet hg
  | addGlyphSetListGlyph hc =>
    rw [Builder.addGlyphSetListGlyph] at hc
    split at hc
    · cases hc
    · rename_i gs hg
      simp only [ite_err, Res.ok.injEq] at hc
      obtain ⟨_, _, _, rfl⟩ := hc
      exact h.setSet hg
  | removeGlyphSetListGlyph uid g =>
    unfold Builder.removeGlyphSetListGlyph
    split
    · calls_same h
    · rename_i gs hg
      split
      · calls_same h
      · exact h.setSet hg
  | createRuneSet hc =>
    simp only [Builder.createRuneSet, ite_err] at hc
    cases hc.2.2
  | removeRuneSet uid =>
    rw [Builder.removeRuneSet, h.runeSets]; calls_same h
  | addRuneSetRange hc =>
    rw [Builder.addRuneSetRange, h.runeSets] at hc
    cases hc
  | removeRuneSetRange uid first last =>
    rw [Builder.removeRuneSetRange, h.runeSets]; calls_same h
  | addRuneSetListRune hc =>
    rw [Builder.addRuneSetListRune, h.runeSets] at hc
    cases hc
  | removeRuneSetListRune uid c =>
    rw [Builder.removeRuneSetListRune, h.runeSets]; calls_same h
  | addSimpleUtf8RewriteRule _ _ hc =>
    simp only [Builder.addSimpleUtf8Rule, ite_err, Res.bind_eq_ok, Res.pure_eq, Res.ok.injEq] at hc
    obtain ⟨h0, _, l, hl, rfl⟩ := hc
    refine ⟨h.count, h.name, h.family, h.author, h.about, h.switches, h.switchSettings, h.codePoints, fun e he => (h.entries e he).same rfl rfl,
      h.runeSets, h.sets, h.setKeys, h.setOrder, ?_, h.glyphRules⟩
    intro r hr
    rcases List.mem_append.1 hr with hr | hr
    · exact h.utf8Rules r hr
    · rw [List.mem_singleton.1 hr]
      refine ⟨⟨_, pushFalse_rep empty_rep hl, by simp, by simp [List.count_replicate], by simp⟩, h0, rfl⟩
  | addGlyphRewriteRule hc =>
    simp only [Builder.addGlyphRule, ite_err, Res.bind_eq_ok] at hc
    obtain ⟨h1, h2, _, ⟨l, gs, hs⟩, hi, hc⟩ := hc
    simp only [Res.pure_eq, Res.ok.injEq] at hc
    obtain rfl := hc
    refine ⟨h.count, h.name, h.family, h.author, h.about, h.switches, h.switchSettings, h.codePoints, fun e he => (h.entries e he).same rfl rfl,
      h.runeSets, h.sets, h.setKeys, h.setOrder, h.utf8Rules, ?_⟩
    intro r hr
    rcases List.mem_append.1 hr with hr | hr
    · exact h.glyphRules r hr
    · rw [List.mem_singleton.1 hr]
      obtain ⟨l', g1, g2, g3, g4⟩ := ruleInputs_rep empty_rep (by rfl) (by rfl) hi
      refine ⟨l', g1, ?_, g3, g4⟩
      rename_i x y z _ _ _ _
      have := x.toNat_lt; have := y.toNat_lt; have := z.toNat_lt
      simp only [u8, List.length_nil] at h1 h2 g2 ⊢
      omega
  | build hc =>
    obtain ⟨s, w, bi, hb⟩ := build_parts hc
    have hm := hb.main
    split at hm
    · simp only [Builder.addDye, ite_err, Res.bind_eq_ok, Res.pure_eq, Res.ok.injEq] at hm
      obtain ⟨_, _, _, rfl⟩ := hm; calls_same h
    · rw [← Res.ok.inj hm]; exact h

theorem Calls.setKern {b : Builder} (h : Calls b) {hp vp : GoMap (Nat × Nat) KernPair} {cl : List Int} :
    Calls { b with horzKern := hp, vertKern := vp, kernClasses := cl } := by
  calls_same h

theorem Edits.calls {e : Editor} (h : Edits e) : Calls e.builder := by
  induction h with
  | new h => exact new_calls h
  | call _ hc ih => exact hc.calls ih
  | clear _ ih => exact ih.setKern
  | parse _ hp ih =>
    refine parseEditionData_keeps (I := fun e => Calls e.builder) (fun _ h => h.setKern) ?_ ih hp
    refine editionBody_keeps (fun _ _ h => h) (fun _ _ h => h) (fun _ _ _ h => h) ?_ ?_ ?_ ?_
    · exact fun e h => h.setKern
    · exact fun e i v h _ _ => h.setKern
    · exact fun e u v cls h _ _ => h.setKern
    · exact fun e u v cls h _ _ => h.setKern

theorem Reachable.calls {b : Builder} (h : Reachable b) : Calls b := by
  obtain ⟨e, he, rfl⟩ := h
  exact he.calls

end Spec
