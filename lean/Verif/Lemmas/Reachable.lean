import Verif.Spec.Reachable
import Verif.Spec.Acceptable
import Verif.Lemmas.Edition
import Verif.Lemmas.Kern
import Verif.Lemmas.Colors
import Verif.Lemmas.BuiltWords

/-! # Invariant of the builder -/

namespace Spec
open Go BuilderModel EditionModel Helpers

/-- `Kept`, and the glyphs are those of the order. -/
structure Inv (b : Builder) : Prop extends Kept b where
  sync : b.glyphData.keys = b.glyphOrder

theorem find_new {rolls : List UInt64} {today : DateModel.Date} {b : Builder} (h : new rolls today = .ok b) :
    ∃ id, FontModel.minEntropyID ≤ lazyEntropyUint64 id.toNat ∧ b = {
      fontID := id
      firstVersionDate := today
      majorVersionDate := today
      minorVersionDate := today
      fontName := ascii "Unnamed"
      fontFamily := ascii "Unnamed"
      fontAuthor := ascii "Authorless"
      fontAbout := ascii "No information available." } := by
  unfold new at h
  split at h
  · cases h
  · rename_i id hid
    refine ⟨id, ?_, (Res.ok.inj h).symm⟩
    have := List.find?_some hid
    simpa using this

theorem new_inv {rolls : List UInt64} {today : DateModel.Date} {b : Builder} (h : new rolls today = .ok b) :
    Inv b := by
  have hk := new_kernOk h
  obtain ⟨id, hid, rfl⟩ := find_new h
  refine ⟨⟨hid, ?_, ⟨?_, ?_⟩, ⟨?_, ?_, ?_, ?_⟩, ?_, ⟨?_, ?_, ?_⟩, rfl, hk⟩, rfl⟩ <;> simp [sectionNames, sectionSizes, GoMap.get]

/-- Changes of other fields. -/
macro "inv_same" h:ident : tactic =>
  `(tactic| exact ⟨⟨($h).id, ($h).glyphNames, ⟨($h).colors.names, ($h).colors.total⟩, ($h).settings,
    ($h).switches, ⟨($h).mapping.order, ($h).mapping.keys, ($h).mapping.runes⟩, ($h).conditions,
    ⟨($h).kern.order, ($h).kern.horz, ($h).kern.vert, ($h).kern.horzVal, ($h).kern.vertVal,
      ($h).kern.classes⟩⟩, ($h).sync⟩)

/-- A change of the data of a glyph. -/
theorem Inv.setGlyph {b : Builder} (h : Inv b) {uid : Nat} {g g' : GlyphData} (hg : b.glyphData.get uid = some g)
    (hn : g'.name.length ≤ 32) : Inv { b with glyphData := b.glyphData.set uid g' } := by
  refine ⟨⟨h.id, ?_, ⟨h.colors.names, h.colors.total⟩, h.settings, h.switches,
    ⟨h.mapping.order, h.mapping.keys, h.mapping.runes⟩, h.conditions,
    ⟨h.kern.order, h.kern.horz, h.kern.vert, h.kern.horzVal, h.kern.vertVal, h.kern.classes⟩⟩, ?_⟩
  · intro u x hx
    simp only at hx
    by_cases e : u = uid
    · subst e
      rw [GoMap.get_set_self] at hx
      cases hx; exact hn
    · rw [GoMap.get_set_ne _ _ e] at hx
      exact h.glyphNames u x hx
  · show (GoMap.set b.glyphData uid g').keys = b.glyphOrder
    rw [GoMap.keys_set_mem ?_, h.sync]
    refine Classical.not_not.1 fun hm => ?_
    rw [GoMap.get_eq_none.2 hm] at hg
    cases hg

/-- A new entry of the mapping. -/
theorem Inv.setEntry {b : Builder} (h : Inv b) {c : Int} (hc : c < 2147483648) (e : MapEntry) :
    Inv { b with runeMapping := b.runeMapping.set c e } := by
  refine ⟨⟨h.id, h.glyphNames, ⟨h.colors.names, h.colors.total⟩, h.settings, h.switches,
    ⟨h.mapping.order, GoMap.nodup_set h.mapping.keys _ _, ?_⟩, h.conditions,
    ⟨h.kern.order, h.kern.horz, h.kern.vert, h.kern.horzVal, h.kern.vertVal, h.kern.classes⟩⟩, h.sync⟩
  intro x hx
  have hx : x.1 ∈ (b.runeMapping.set c e).keys := List.mem_map_of_mem (f := Prod.fst) hx
  rw [GoMap.keys_set] at hx
  split at hx
  · obtain ⟨y, hy, he⟩ := List.mem_map.1 hx
    rw [← he]; exact h.mapping.runes y hy
  · rcases List.mem_append.1 hx with hx | hx
    · obtain ⟨y, hy, he⟩ := List.mem_map.1 hx
      rw [← he]; exact h.mapping.runes y hy
    · rw [List.mem_singleton.1 hx]; exact hc

theorem isValid_ok {b b' : Builder} {d : DateModel.Date} {c : Builder}
    (h : (do let ok ← d.isValid; if !ok then .err "invalid date" else return c : Res Builder) = .ok b') :
    b' = c := by
  simp only [Res.bind_eq_ok, ite_err, Res.pure_eq, Res.ok.injEq] at h
  obtain ⟨_, _, _, rfl⟩ := h
  rfl

theorem Call.inv {b b' : Builder} (h : Inv b) (hc : Call b b') : Inv b' := by
  cases hc with
  | setFirstVerDate hc => obtain rfl := isValid_ok (b := b) hc; inv_same h
  | setMajorVerDate hc => obtain rfl := isValid_ok (b := b) hc; inv_same h
  | setMinorVerDate hc => obtain rfl := isValid_ok (b := b) hc; inv_same h
  | raiseMajorVersion => inv_same h
  | raiseMinorVersion => inv_same h
  | setVersion => inv_same h
  | setName hc =>
    simp only [Builder.setName, ite_err, Res.bind_eq_ok, Res.pure_eq, Res.ok.injEq] at hc
    obtain ⟨_, _, _, rfl⟩ := hc; inv_same h
  | setFamily hc =>
    simp only [Builder.setFamily, ite_err, Res.bind_eq_ok, Res.pure_eq, Res.ok.injEq] at hc
    obtain ⟨_, _, _, rfl⟩ := hc; inv_same h
  | setAuthor hc =>
    simp only [Builder.setAuthor, ite_err, Res.bind_eq_ok, Res.pure_eq, Res.ok.injEq] at hc
    obtain ⟨_, _, _, rfl⟩ := hc; inv_same h
  | setAbout hc =>
    simp only [Builder.setAbout, ite_err, Res.bind_eq_ok, Res.pure_eq, Res.ok.injEq] at hc
    obtain ⟨_, _, _, rfl⟩ := hc; inv_same h
  | setVertLayoutUsed => inv_same h
  | setMonoWidth => inv_same h
  | setAscent => inv_same h
  | setExtraAscent => inv_same h
  | setDescent => inv_same h
  | setExtraDescent => inv_same h
  | setMidlineAscent => inv_same h
  | setUppercaseAscent => inv_same h
  | setHorzInterspacing => inv_same h
  | setVertInterspacing => inv_same h
  | setLineGap => inv_same h
  | setVertLineWidth hc =>
    simp only [Builder.setVertLineWidth, ite_err, Res.ok.injEq] at hc
    obtain ⟨_, _, rfl⟩ := hc; inv_same h
  | setVertLineGap hc =>
    simp only [Builder.setVertLineGap, ite_err, Res.ok.injEq] at hc
    obtain ⟨_, rfl⟩ := hc; inv_same h
  | addGlyph hc =>
    have hs : ∀ u ∈ b.glyphOrder, b.glyphData.get u ≠ none := fun u hu hg =>
      GoMap.get_eq_none.1 hg (by rw [h.sync]; exact hu)
    have hk := (Builder.addGlyph_kernOk h.kern hs hc).1
    simp only [Builder.addGlyph, Res.bind_eq_ok, ite_err] at hc
    obtain ⟨_, _, _, hc⟩ := hc
    split at hc
    · cases hc
    · rename_i u hu
      simp only [Res.pure_eq, Res.ok.injEq, Prod.mk.injEq] at hc
      obtain ⟨rfl, _⟩ := hc
      have hn := List.find?_some hu
      simp only [Bool.and_eq_true, Option.isNone_iff_eq_none] at hn
      refine ⟨⟨h.id, ?_, ⟨h.colors.names, h.colors.total⟩, h.settings, h.switches,
        ⟨hk.order, h.mapping.keys, h.mapping.runes⟩, h.conditions, hk⟩, ?_⟩
      · intro v x hx
        simp only at hx
        by_cases e : v = u
        · subst e
          rw [GoMap.get_set_self] at hx
          cases hx; simp
        · rw [GoMap.get_set_ne _ _ e] at hx
          exact h.glyphNames v x hx
      · show (GoMap.set b.glyphData u _).keys = b.glyphOrder ++ [u]
        rw [GoMap.keys_set, if_neg (GoMap.get_eq_none.1 hn.1), h.sync]
  | setGlyphPlacement hc =>
    rw [Builder.setGlyphPlacement] at hc
    split at hc
    · cases hc
    · rename_i g hg
      rw [← Res.ok.inj hc]
      exact h.setGlyph hg (h.glyphNames _ g hg : g.name.length ≤ 32)
  | setGlyphName hc =>
    rw [Builder.setGlyphName] at hc
    split at hc
    · cases hc
    · rename_i g hg
      simp only [Res.bind_eq_ok, Res.pure_eq, Res.ok.injEq] at hc
      obtain ⟨_, hv, rfl⟩ := hc
      exact h.setGlyph hg (validateBasicName_length hv).2
  | setKerningPair prev next hv =>
    have hk := (Builder.setKerningPair_ok h.kern prev next hv).1
    have e : ∀ v, b.setKerningPair prev next v = { b with horzKern := (b.setKerningPair prev next v).horzKern } := by
      intro v
      unfold Builder.setKerningPair; split <;> rfl
    rw [e] at hk ⊢
    exact ⟨⟨h.id, h.glyphNames, ⟨h.colors.names, h.colors.total⟩, h.settings, h.switches,
      ⟨h.mapping.order, h.mapping.keys, h.mapping.runes⟩, h.conditions, hk⟩, h.sync⟩
  | addDye hc =>
    obtain ⟨h1, rfl⟩ := Builder.addDye_ok h.colors hc
    exact ⟨⟨h.id, h.glyphNames, h1, h.settings, h.switches,
      ⟨h.mapping.order, h.mapping.keys, h.mapping.runes⟩, h.conditions,
      ⟨h.kern.order, h.kern.horz, h.kern.vert, h.kern.horzVal, h.kern.vertVal, h.kern.classes⟩⟩, h.sync⟩
  | addPalette hc =>
    obtain ⟨h1, rfl⟩ := Builder.addPalette_ok h.colors hc
    exact ⟨⟨h.id, h.glyphNames, h1, h.settings, h.switches,
      ⟨h.mapping.order, h.mapping.keys, h.mapping.runes⟩, h.conditions,
      ⟨h.kern.order, h.kern.horz, h.kern.vert, h.kern.horzVal, h.kern.vertVal, h.kern.classes⟩⟩, h.sync⟩
  | addSetting hc =>
    obtain ⟨h1, rfl, _⟩ := addSetting_ok h.settings hc
    exact ⟨⟨h.id, h.glyphNames, ⟨h.colors.names, h.colors.total⟩, h1, h.switches,
      ⟨h.mapping.order, h.mapping.keys, h.mapping.runes⟩, h.conditions,
      ⟨h.kern.order, h.kern.horz, h.kern.vert, h.kern.horzVal, h.kern.vertVal, h.kern.classes⟩⟩, h.sync⟩
  | addSwitch hc =>
    simp only [Builder.addSwitch, ite_err, Res.bind_eq_ok, Res.pure_eq, Res.ok.injEq, Prod.mk.injEq] at hc
    obtain ⟨hl, _, _, _, rfl, _⟩ := hc
    refine ⟨⟨h.id, h.glyphNames, ⟨h.colors.names, h.colors.total⟩, h.settings, ?_,
      ⟨h.mapping.order, h.mapping.keys, h.mapping.runes⟩, h.conditions,
      ⟨h.kern.order, h.kern.horz, h.kern.vert, h.kern.horzVal, h.kern.vertVal, h.kern.classes⟩⟩, h.sync⟩
    intro s hs
    rcases List.mem_append.1 hs with hs | hs
    · exact h.switches s hs
    · rw [List.mem_singleton.1 hs]
      intro e
      rw [e] at hl
      simp at hl
  | map hr hc =>
    simp only [Builder.map, ite_err, Res.ok.injEq] at hc
    obtain ⟨_, _, rfl⟩ := hc
    exact h.setEntry hr _
  | mapGroup hr hc =>
    simp only [Builder.mapGroup, ite_err, Res.ok.injEq] at hc
    obtain ⟨_, _, _, _, rfl⟩ := hc
    exact h.setEntry hr _
  | mapWithSwitchSingles hr hc =>
    simp only [Builder.mapWithSwitchSingles, ite_err, ite_panic, Res.bind_eq_ok, Res.pure_eq, Res.ok.injEq] at hc
    obtain ⟨_, _, _, _, _, _, rfl⟩ := hc
    exact h.setEntry hr _
  | mapWithSwitch hr hc =>
    simp only [Builder.mapWithSwitch, ite_err, ite_panic, Res.bind_eq_ok, Res.pure_eq, Res.ok.injEq] at hc
    obtain ⟨_, _, _, _, _, _, ⟨_, _⟩, _, hc⟩ := hc
    simp only [ite_err, Res.bind_eq_ok, Res.pure_eq, Res.ok.injEq] at hc
    obtain ⟨_, _, _, rfl⟩ := hc
    exact h.setEntry hr _
  | createGlyphSet hc =>
    simp only [Builder.createGlyphSet, ite_err, Res.ok.injEq, Prod.mk.injEq] at hc
    obtain ⟨_, _, rfl, _⟩ := hc
    inv_same h
  | removeGlyphSet uid => unfold Builder.removeGlyphSet; split <;> inv_same h
  | addGlyphSetRange hc =>
    rw [Builder.addGlyphSetRange] at hc
    split at hc
    · cases hc
    · simp only [ite_err, Res.ok.injEq] at hc
      obtain ⟨_, _, _, _, rfl⟩ := hc
      inv_same h
  | removeGlyphSetRange uid first last =>
    unfold Builder.removeGlyphSetRange
    split
    · inv_same h
    · split <;> inv_same h
  | addGlyphSetListGlyph hc =>
    rw [Builder.addGlyphSetListGlyph] at hc
    split at hc
    · cases hc
    · simp only [ite_err, Res.ok.injEq] at hc
      obtain ⟨_, _, _, rfl⟩ := hc
      inv_same h
  | removeGlyphSetListGlyph uid g =>
    unfold Builder.removeGlyphSetListGlyph
    split
    · inv_same h
    · split <;> inv_same h
  | createRuneSet hc =>
    simp only [Builder.createRuneSet, ite_err] at hc
    cases hc.2.2
  | removeRuneSet uid => unfold Builder.removeRuneSet; split <;> inv_same h
  | addRuneSetRange hc =>
    rw [Builder.addRuneSetRange] at hc
    split at hc
    · cases hc
    · simp only [ite_err, Res.ok.injEq] at hc
      obtain ⟨_, _, rfl⟩ := hc
      inv_same h
  | removeRuneSetRange uid first last =>
    unfold Builder.removeRuneSetRange
    split
    · inv_same h
    · split <;> inv_same h
  | addRuneSetListRune hc =>
    rw [Builder.addRuneSetListRune] at hc
    split at hc
    · cases hc
    · simp only [ite_err, Res.ok.injEq] at hc
      obtain ⟨_, rfl⟩ := hc
      inv_same h
  | removeRuneSetListRune uid c =>
    unfold Builder.removeRuneSetListRune
    split
    · inv_same h
    · split <;> inv_same h
  | addSimpleUtf8RewriteRule _ _ hc =>
    simp only [Builder.addSimpleUtf8Rule, ite_err, Res.bind_eq_ok, Res.pure_eq, Res.ok.injEq] at hc
    obtain ⟨_, _, _, _, rfl⟩ := hc
    inv_same h
  | addGlyphRewriteRule hc =>
    simp only [Builder.addGlyphRule, ite_err, Res.bind_eq_ok] at hc
    obtain ⟨_, _, _, ⟨_, _, _⟩, _, hc⟩ := hc
    simp only [Res.pure_eq, Res.ok.injEq] at hc
    obtain rfl := hc
    inv_same h
  | build hc =>
    obtain ⟨s, w, bi, hb⟩ := build_parts hc
    have hm := hb.main
    split at hm
    · obtain ⟨h1, rfl⟩ := Builder.addDye_ok h.colors hm
      exact ⟨⟨h.id, h.glyphNames, h1, h.settings, h.switches,
        ⟨h.mapping.order, h.mapping.keys, h.mapping.runes⟩, h.conditions,
        ⟨h.kern.order, h.kern.horz, h.kern.vert, h.kern.horzVal, h.kern.vertVal, h.kern.classes⟩⟩, h.sync⟩
    · rw [← Res.ok.inj hm]; exact h

/-- A change of the kerning. -/
theorem Inv.setKern {b : Builder} (h : Inv b) {hp vp : GoMap (Nat × Nat) KernPair} {cl : List Int}
    (hk : KernOk { b with horzKern := hp, vertKern := vp, kernClasses := cl }) :
    Inv { b with horzKern := hp, vertKern := vp, kernClasses := cl } :=
  ⟨⟨h.id, h.glyphNames, ⟨h.colors.names, h.colors.total⟩, h.settings, h.switches,
    ⟨h.mapping.order, h.mapping.keys, h.mapping.runes⟩, h.conditions, hk⟩, h.sync⟩

theorem setClass_nodup {pairs : GoMap (Nat × Nat) KernPair} {key : Nat × Nat} {cls : Nat}
    (h : (pairs.map Prod.fst).Nodup) : ((setClass pairs key cls).map Prod.fst).Nodup := by
  unfold setClass
  split <;> exact GoMap.nodup_set h _ _

theorem setClass_val {pairs : GoMap (Nat × Nat) KernPair} {key : Nat × Nat} {cls : Nat}
    (hn : (pairs.map Prod.fst).Nodup) (h : ∀ e ∈ pairs, IsInt8 e.2.value) :
    ∀ e ∈ setClass pairs key cls, IsInt8 e.2.value := by
  intro e he
  have hget := GoMap.get_of_mem (setClass_nodup (key := key) (cls := cls) hn) (k := e.1) (v := e.2) he
  unfold setClass at hget
  split at hget
  all_goals
    rename_i hp
    by_cases hk : e.1 = key
    · rw [hk, GoMap.get_set_self] at hget
      rw [← Option.some.inj hget]
      first
        | exact h _ (GoMap.mem_of_get hp)
        | exact (⟨by decide, by decide⟩ : IsInt8 0)
    · rw [GoMap.get_set_ne _ _ hk] at hget
      exact h _ (GoMap.mem_of_get hget)

theorem clear_inv {e : Editor} (h : Inv e.builder) : Inv (clearEditionData e).builder := by
  have hf : ∀ pairs : GoMap (Nat × Nat) KernPair, (clearClasses pairs).map Prod.fst = pairs.map Prod.fst := by
    intro pairs
    rw [clearClasses, List.map_map]
    rfl
  have hv : ∀ pairs : GoMap (Nat × Nat) KernPair, (∀ e ∈ pairs, IsInt8 e.2.value) →
      ∀ e ∈ clearClasses pairs, IsInt8 e.2.value := by
    intro pairs hp x hx
    obtain ⟨y, hy, rfl⟩ := List.mem_map.1 hx
    exact hp y hy
  refine h.setKern ⟨h.kern.order, ?_, ?_, hv _ h.kern.horzVal, hv _ h.kern.vertVal, by simp⟩
  · show ((clearClasses _).map _).Nodup
    rw [hf]; exact h.kern.horz
  · show ((clearClasses _).map _).Nodup
    rw [hf]; exact h.kern.vert

theorem Edits.inv {e : Editor} (h : Edits e) : Inv e.builder := by
  induction h with
  | new h => exact new_inv h
  | call _ hc ih => exact hc.inv ih
  | clear _ ih => exact clear_inv ih
  | parse _ hp ih =>
    refine parseEditionData_keeps (I := fun e => Inv e.builder) (fun _ => clear_inv) ?_ ih hp
    refine editionBody_keeps (fun _ _ h => h) (fun _ _ h => h) (fun _ _ _ h => h) ?_ ?_ ?_ ?_
    · intro e h
      refine h.setKern ⟨h.kern.order, h.kern.horz, h.kern.vert, h.kern.horzVal, h.kern.vertVal, ?_⟩
      intro v hv
      rcases List.mem_append.1 hv with hv | hv
      · exact h.kern.classes v hv
      · rw [List.mem_singleton.1 hv]; exact ⟨by decide, by decide⟩
    · intro e i v h h1 h2
      refine h.setKern ⟨h.kern.order, h.kern.horz, h.kern.vert, h.kern.horzVal, h.kern.vertVal, ?_⟩
      intro x hx
      obtain ⟨j, hj, rfl⟩ := List.mem_iff_getElem.1 hx
      simp only [List.getElem_modify]
      split
      · exact ⟨h1, h2⟩
      · exact h.kern.classes _ (List.getElem_mem _)
    · intro e u v cls h _ _
      exact h.setKern ⟨h.kern.order, setClass_nodup h.kern.horz, h.kern.vert,
        setClass_val h.kern.horz h.kern.horzVal, h.kern.vertVal, h.kern.classes⟩
    · intro e u v cls h _ _
      exact h.setKern ⟨h.kern.order, h.kern.horz, setClass_nodup h.kern.vert, h.kern.horzVal,
        setClass_val h.kern.vert h.kern.vertVal, h.kern.classes⟩

theorem Reachable.inv {b : Builder} (h : Reachable b) : Inv b := by
  obtain ⟨e, he, rfl⟩ := h
  exact he.inv

end Spec
