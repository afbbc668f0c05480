import Verif.Lemmas.Grows
import Verif.Spec.WellMade

/-! # References in sets and rules, and what the methods keep of sets and settings -/

namespace Spec
open Go Helpers BuilderModel EditionModel

/-- Settings are added at the end; so are elements of sets, unless a set is removed. -/
structure Steady (b b' : Builder) : Prop where
  settings : b.settings <+: b'.settings
  sets : Spoiled b' ∨ (b.glyphSets.map fun s => setCost s.2).sum ≤ (b'.glyphSets.map fun s => setCost s.2).sum ∧
    ∀ u s, b.glyphSets.get u = some s → ∃ s', b'.glyphSets.get u = some s' ∧
      s.ranges <+: s'.ranges ∧ s.list <+: s'.list
  refs : Refs b → Refs b'

theorem Refs.same {b b' : Builder} (h : Refs b) (h1 : b'.glyphSets = b.glyphSets) (h2 : b'.glyphRules = b.glyphRules)
    (h3 : b'.utf8Rules = b.utf8Rules) (h4 : b.glyphOrder <+: b'.glyphOrder)
    (h5 : b.glyphSetsOrder <+: b'.glyphSetsOrder) : Refs b' := by
  refine ⟨?_, ?_, ?_, ?_, ?_, ?_⟩
  · rw [h1]; exact fun e he r hr => ⟨h4.subset (h.ranges e he r hr).1, h4.subset (h.ranges e he r hr).2⟩
  · rw [h1]; exact fun e he r hr => h4.subset (h.lists e he r hr)
  · rw [h2]; exact fun e he r hr => h4.subset (h.outputs e he r hr)
  · rw [h2]; exact fun e he r hr => h4.subset (h.elems e he r hr)
  · rw [h2]; exact fun e he r hr => h5.subset (h.groups e he r hr)
  · rw [h3]; exact h.utf8

theorem Steady.same {b b' : Builder} (h0 : b.settings <+: b'.settings) (h1 : b'.glyphSets = b.glyphSets)
    (h2 : b'.glyphRules = b.glyphRules) (h3 : b'.utf8Rules = b.utf8Rules) (h4 : b.glyphOrder <+: b'.glyphOrder)
    (h5 : b.glyphSetsOrder <+: b'.glyphSetsOrder) : Steady b b' := by
  refine ⟨h0, .inr ⟨by rw [h1], ?_⟩, fun h => h.same h1 h2 h3 h4 h5⟩
  rw [h1]
  exact fun u s h => ⟨s, h, List.prefix_refl _, List.prefix_refl _⟩

theorem sum_set (l : GoMap Nat GlyphSet) : ∀ {u : Nat} {s s' : GlyphSet}, l.get u = some s →
    setCost s ≤ setCost s' → (l.map fun s => setCost s.2).sum ≤ ((l.set u s').map fun s => setCost s.2).sum := by
  induction l with
  | nil => intro u s s' h; simp [GoMap.get] at h
  | cons e l ih =>
    obtain ⟨k, x⟩ := e
    intro u s s' h hc
    by_cases hk : k = u
    · subst hk
      simp [GoMap.get] at h
      subst h
      simp [GoMap.set]
      exact hc
    · have h' : GoMap.get l u = some s := by simpa [GoMap.get, hk] using h
      have := ih h' hc
      simp [GoMap.set, hk] at this ⊢
      exact this

theorem Steady.setSet {b : Builder} {uid : Nat} {gs gs' : GlyphSet} (hg : b.glyphSets.get uid = some gs)
    (h1 : gs.ranges <+: gs'.ranges) (h2 : gs.list <+: gs'.list)
    (h3 : ∀ r ∈ gs'.ranges, r ∈ gs.ranges ∨ r.1 ∈ b.glyphOrder ∧ r.2 ∈ b.glyphOrder)
    (h4 : ∀ u ∈ gs'.list, u ∈ gs.list ∨ u ∈ b.glyphOrder) :
    Steady b { b with glyphSets := b.glyphSets.set uid gs' } := by
  refine ⟨List.prefix_refl _, .inr ⟨?_, fun u s hu => ?_⟩, fun h => ?_⟩
  · refine sum_set _ hg ?_
    have := h1.length_le; have := h2.length_le
    simp only [setCost]; omega
  · by_cases he : u = uid
    · subst he
      rw [hg] at hu
      obtain rfl := Option.some.inj hu
      exact ⟨gs', GoMap.get_set_self _ _ _, h1, h2⟩
    · refine ⟨s, ?_, List.prefix_refl _, List.prefix_refl _⟩
      exact (GoMap.get_set_ne _ _ he).trans hu
  · have hm := GoMap.mem_of_get hg
    refine ⟨fun e he r hr => ?_, fun e he u hu => ?_, h.outputs, h.elems, h.groups, h.utf8⟩
    · rcases GoMap.mem_set he with he | rfl
      · exact h.ranges e he r hr
      · rcases h3 r hr with h' | h'
        · exact h.ranges _ hm r h'
        · exact h'
    · rcases GoMap.mem_set he with he | rfl
      · exact h.lists e he u hu
      · rcases h4 u hu with h' | h'
        · exact h.lists _ hm u h'
        · exact h'

theorem set_new (l : GoMap Nat GlyphSet) : ∀ {u : Nat}, l.get u = none → ∀ s, l.set u s = l ++ [(u, s)] := by
  induction l with
  | nil => intro u _ s; rfl
  | cons e l ih =>
    obtain ⟨k, x⟩ := e
    intro u h s
    by_cases hk : k = u
    · simp [GoMap.get, hk] at h
    · have h' : GoMap.get l u = none := by simpa [GoMap.get, hk] using h
      have := ih h' s
      simp [GoMap.set, hk] at this ⊢
      exact this

theorem slicesDelete_same {α : Type} (l : List α) (i : Nat) : Builder.slicesDelete l i i = l :=
  List.take_append_drop i l

theorem ruleInputs_refs {b : Builder} (hi : Inv b) (hc : Calls b) : ∀ {us : List Nat} {s : BoolList} {gs hs : List Nat}
    {r : BoolList × List Nat × List Nat}, b.ruleInputs us s gs hs = .ok r → (∀ u ∈ gs, u ∈ b.glyphOrder) →
    (∀ u ∈ hs, u ∈ b.glyphSetsOrder) → (∀ u ∈ r.2.1, u ∈ b.glyphOrder) ∧ ∀ u ∈ r.2.2, u ∈ b.glyphSetsOrder
  | [], s, gs, hs, r, e, hg, hh => by
    rw [Builder.ruleInputs] at e
    rw [← Res.ok.inj e]
    exact ⟨hg, hh⟩
  | u :: us, s, gs, hs, r, e, hg, hh => by
    rw [Builder.ruleInputs] at e
    split at e
    · rename_i hu
      rw [Res.bind_eq_ok] at e
      obtain ⟨t, _, e⟩ := e
      refine ruleInputs_refs hi hc e (fun v hv => ?_) hh
      rcases List.mem_append.1 hv with hv | hv
      · exact hg v hv
      · obtain rfl := List.mem_singleton.1 hv
        obtain ⟨g, hg⟩ := Option.isSome_iff_exists.1 hu
        rw [← hi.sync]
        exact GoMap.mem_keys_of_get hg
    · split at e
      · cases e
      · rename_i hu
        rw [Res.bind_eq_ok] at e
        obtain ⟨t, _, e⟩ := e
        refine ruleInputs_refs hi hc e hg (fun v hv => ?_)
        rcases List.mem_append.1 hv with hv | hv
        · exact hh v hv
        · obtain rfl := List.mem_singleton.1 hv
          cases hs : b.glyphSets.get v with
          | none => rw [hs] at hu; simp at hu
          | some s => exact hc.setOrder _ (GoMap.mem_of_get hs)

theorem Call.steady {b b' : Builder} (hi : Inv b) (h : Calls b) (hc : Call b b') : Steady b b' := by
  have hg := hc.grows h
  have hdef : ∀ {u : Nat}, ¬ (b.glyphData.get u).isNone = true → u ∈ b.glyphOrder := by
    intro u hu
    cases hs : b.glyphData.get u with
    | none => rw [hs] at hu; simp at hu
    | some s => rw [← hi.sync]; exact GoMap.mem_keys_of_get hs
  cases hc with
  | setFirstVerDate hc => obtain rfl := isValid_ok (b := b) hc; exact .same (List.prefix_refl _) rfl rfl rfl hg.6 hg.7
  | setMajorVerDate hc => obtain rfl := isValid_ok (b := b) hc; exact .same (List.prefix_refl _) rfl rfl rfl hg.6 hg.7
  | setMinorVerDate hc => obtain rfl := isValid_ok (b := b) hc; exact .same (List.prefix_refl _) rfl rfl rfl hg.6 hg.7
  | setName hc =>
    simp only [Builder.setName, ite_err, Res.bind_eq_ok, Res.pure_eq, Res.ok.injEq] at hc
    obtain ⟨hl, _, _, rfl⟩ := hc
    exact .same (List.prefix_refl _) rfl rfl rfl hg.6 hg.7
  | setFamily hc =>
    simp only [Builder.setFamily, ite_err, Res.bind_eq_ok, Res.pure_eq, Res.ok.injEq] at hc
    obtain ⟨hl, _, _, rfl⟩ := hc
    exact .same (List.prefix_refl _) rfl rfl rfl hg.6 hg.7
  | setAuthor hc =>
    simp only [Builder.setAuthor, ite_err, Res.bind_eq_ok, Res.pure_eq, Res.ok.injEq] at hc
    obtain ⟨hl, _, _, rfl⟩ := hc
    exact .same (List.prefix_refl _) rfl rfl rfl hg.6 hg.7
  | setAbout hc =>
    simp only [Builder.setAbout, ite_err, Res.bind_eq_ok, Res.pure_eq, Res.ok.injEq] at hc
    obtain ⟨hl, _, _, rfl⟩ := hc
    exact .same (List.prefix_refl _) rfl rfl rfl hg.6 hg.7
  | setVertLineWidth hc =>
    simp only [Builder.setVertLineWidth, ite_err, Res.ok.injEq] at hc
    obtain ⟨_, _, rfl⟩ := hc; exact .same (List.prefix_refl _) rfl rfl rfl hg.6 hg.7
  | setVertLineGap hc =>
    simp only [Builder.setVertLineGap, ite_err, Res.ok.injEq] at hc
    obtain ⟨_, rfl⟩ := hc; exact .same (List.prefix_refl _) rfl rfl rfl hg.6 hg.7
  | addGlyph hc =>
    simp only [Builder.addGlyph, Res.bind_eq_ok, ite_err] at hc
    obtain ⟨_, _, _, hc⟩ := hc
    split at hc
    · cases hc
    · simp only [Res.pure_eq, Res.ok.injEq, Prod.mk.injEq] at hc
      obtain ⟨rfl, _⟩ := hc
      exact .same (List.prefix_refl _) rfl rfl rfl hg.6 hg.7
  | setGlyphPlacement hc =>
    rw [Builder.setGlyphPlacement] at hc
    split at hc
    · cases hc
    · obtain rfl := Res.ok.inj hc
      exact .same (List.prefix_refl _) rfl rfl rfl hg.6 hg.7
  | setGlyphName hc =>
    rw [Builder.setGlyphName] at hc
    split at hc
    · cases hc
    · simp only [Res.bind_eq_ok, Res.pure_eq, Res.ok.injEq] at hc
      obtain ⟨_, hv, rfl⟩ := hc
      exact .same (List.prefix_refl _) rfl rfl rfl hg.6 hg.7
  | setKerningPair prev next hv =>
    clear hg
    unfold Builder.setKerningPair
    split <;> exact .same (List.prefix_refl _) rfl rfl rfl (List.prefix_refl _) (List.prefix_refl _)
  | addDye hc =>
    simp only [Builder.addDye, ite_err, Res.bind_eq_ok, Res.pure_eq, Res.ok.injEq] at hc
    obtain ⟨_, _, _, rfl⟩ := hc
    exact .same (List.prefix_refl _) rfl rfl rfl hg.6 hg.7
  | addPalette hc =>
    simp only [Builder.addPalette, ite_err, Res.bind_eq_ok, Res.pure_eq, Res.ok.injEq] at hc
    obtain ⟨_, _, _, rfl⟩ := hc
    exact .same (List.prefix_refl _) rfl rfl rfl hg.6 hg.7
  | addSetting hc =>
    simp only [Builder.addSetting, ite_err, Res.bind_eq_ok, Res.pure_eq, Res.ok.injEq, Prod.mk.injEq] at hc
    obtain ⟨_, _, _, _, _, _, _, rfl, _⟩ := hc
    exact .same (List.prefix_append _ _) rfl rfl rfl hg.6 hg.7
  | addSwitch hc =>
    simp only [Builder.addSwitch, ite_err, Res.bind_eq_ok, Res.pure_eq, Res.ok.injEq, Prod.mk.injEq] at hc
    obtain ⟨_, hl, _, hs, rfl, _⟩ := hc
    exact .same (List.prefix_refl _) rfl rfl rfl hg.6 hg.7
  | map hr hc =>
    simp only [Builder.map, ite_err, Res.ok.injEq] at hc
    obtain ⟨h1, _, rfl⟩ := hc
    exact .same (List.prefix_refl _) rfl rfl rfl hg.6 hg.7
  | mapGroup hr hc =>
    simp only [Builder.mapGroup, ite_err, Res.ok.injEq] at hc
    obtain ⟨h1, h2, _, _, rfl⟩ := hc
    exact .same (List.prefix_refl _) rfl rfl rfl hg.6 hg.7
  | mapWithSwitchSingles hr hc =>
    simp only [Builder.mapWithSwitchSingles, ite_err, ite_panic, Res.bind_eq_ok, Res.pure_eq, Res.ok.injEq] at hc
    obtain ⟨h1, h2, _, n, h4, h5, rfl⟩ := hc
    exact .same (List.prefix_refl _) rfl rfl rfl hg.6 hg.7
  | mapWithSwitch hr hc =>
    simp only [Builder.mapWithSwitch, ite_err, ite_panic, Res.bind_eq_ok, Res.pure_eq, Res.ok.injEq] at hc
    obtain ⟨h1, h2, _, n, h4, h5, ⟨_, _⟩, h6, hc⟩ := hc
    simp only [ite_err, Res.bind_eq_ok, Res.pure_eq, Res.ok.injEq] at hc
    obtain ⟨_, cases, h7, rfl⟩ := hc
    exact .same (List.prefix_refl _) rfl rfl rfl hg.6 hg.7
  | @createGlyphSet uid _ _ hc =>
    simp only [Builder.createGlyphSet, ite_err, Res.ok.injEq, Prod.mk.injEq] at hc
    obtain ⟨hl, hno, rfl, _⟩ := hc
    have hnone : b.glyphSets.get uid = none := by
      cases hs : b.glyphSets.get uid with
      | none => rfl
      | some s => rw [hs] at hno; simp at hno
    have hset : b.glyphSets.set uid ⟨[], []⟩ = b.glyphSets ++ [(uid, ⟨[], []⟩)] := set_new _ hnone _
    refine ⟨List.prefix_refl _, .inr ⟨?_, fun u s hu => ?_⟩, fun h => ?_⟩
    · simp only [hset, List.map_append, List.sum_append]; omega
    · refine ⟨s, ?_, List.prefix_refl _, List.prefix_refl _⟩
      refine (GoMap.get_set_ne _ _ ?_).trans hu
      rintro rfl; rw [hnone] at hu; cases hu
    · refine ⟨fun e he => ?_, fun e he => ?_, h.outputs, h.elems, fun r hr u hu => hg.7.subset (h.groups r hr u hu), h.utf8⟩
      · rcases GoMap.mem_set he with he | rfl
        · exact h.ranges e he
        · intro r hr; cases hr
      · rcases GoMap.mem_set he with he | rfl
        · exact h.lists e he
        · intro r hr; cases hr
  | removeGlyphSet uid =>
    cases hs : b.glyphSets.get uid with
    | none =>
      have : b.removeGlyphSet uid = (b, false) := by rw [Builder.removeGlyphSet, hs]
      rw [this]
      exact .same (List.prefix_refl _) rfl rfl rfl (List.prefix_refl _) (List.prefix_refl _)
    | some s =>
      have hx : b.removeGlyphSet uid = ({ b with glyphSets := b.glyphSets.delete uid }, true) := by
        rw [Builder.removeGlyphSet, hs]
      have hsp := removed_spoiled h (uid := uid) (by rw [hx])
      rw [hx] at hsp ⊢
      refine ⟨List.prefix_refl _, .inl hsp, fun h => ⟨fun e he => ?_, fun e he => ?_, h.outputs, h.elems, h.groups, h.utf8⟩⟩
      · exact h.ranges e (List.mem_filter.1 he).1
      · exact h.lists e (List.mem_filter.1 he).1
  | addGlyphSetRange hc =>
    rw [Builder.addGlyphSetRange] at hc
    split at hc
    · cases hc
    · rename_i gs hs
      simp only [ite_err, Res.ok.injEq] at hc
      obtain ⟨_, h1, h2, _, rfl⟩ := hc
      refine Steady.setSet hs (List.prefix_append _ _) (List.prefix_refl _) (fun r hr => ?_) (fun u hu => .inl hu)
      rcases List.mem_append.1 hr with hr | hr
      · exact .inl hr
      · obtain rfl := List.mem_singleton.1 hr
        exact .inr ⟨hdef h1, hdef h2⟩
  | removeGlyphSetRange uid first last =>
    clear hg
    unfold Builder.removeGlyphSetRange
    split
    · exact .same (List.prefix_refl _) rfl rfl rfl (List.prefix_refl _) (List.prefix_refl _)
    · rename_i gs hs
      split
      · exact .same (List.prefix_refl _) rfl rfl rfl (List.prefix_refl _) (List.prefix_refl _)
      · rw [slicesDelete_same]
        exact Steady.setSet hs (List.prefix_refl _) (List.prefix_refl _) (fun r hr => .inl hr) (fun u hu => .inl hu)
  | addGlyphSetListGlyph hc =>
    rw [Builder.addGlyphSetListGlyph] at hc
    split at hc
    · cases hc
    · rename_i gs hs
      simp only [ite_err, Res.ok.injEq] at hc
      obtain ⟨_, h1, _, rfl⟩ := hc
      refine Steady.setSet hs (List.prefix_refl _) (List.prefix_append _ _) (fun r hr => .inl hr) (fun u hu => ?_)
      rcases List.mem_append.1 hu with hu | hu
      · exact .inl hu
      · obtain rfl := List.mem_singleton.1 hu
        exact .inr (hdef h1)
  | removeGlyphSetListGlyph uid g =>
    clear hg
    unfold Builder.removeGlyphSetListGlyph
    split
    · exact .same (List.prefix_refl _) rfl rfl rfl (List.prefix_refl _) (List.prefix_refl _)
    · rename_i gs hs
      split
      · exact .same (List.prefix_refl _) rfl rfl rfl (List.prefix_refl _) (List.prefix_refl _)
      · rw [slicesDelete_same]
        exact Steady.setSet hs (List.prefix_refl _) (List.prefix_refl _) (fun r hr => .inl hr) (fun u hu => .inl hu)
  | createRuneSet hc =>
    simp only [Builder.createRuneSet, ite_err] at hc
    cases hc.2.2
  | removeRuneSet uid =>
    clear hg
    rw [Builder.removeRuneSet, h.runeSets]
    exact .same (List.prefix_refl _) rfl rfl rfl (List.prefix_refl _) (List.prefix_refl _)
  | addRuneSetRange hc =>
    rw [Builder.addRuneSetRange, h.runeSets] at hc
    cases hc
  | removeRuneSetRange uid first last =>
    clear hg
    rw [Builder.removeRuneSetRange, h.runeSets]
    exact .same (List.prefix_refl _) rfl rfl rfl (List.prefix_refl _) (List.prefix_refl _)
  | addRuneSetListRune hc =>
    rw [Builder.addRuneSetListRune, h.runeSets] at hc
    cases hc
  | removeRuneSetListRune uid c =>
    clear hg
    rw [Builder.removeRuneSetListRune, h.runeSets]
    exact .same (List.prefix_refl _) rfl rfl rfl (List.prefix_refl _) (List.prefix_refl _)
  | addSimpleUtf8RewriteRule _ _ hc =>
    simp only [Builder.addSimpleUtf8Rule, ite_err, Res.bind_eq_ok, Res.pure_eq, Res.ok.injEq] at hc
    obtain ⟨h0, _, l, hl, rfl⟩ := hc
    refine ⟨List.prefix_refl _, .inr ⟨Nat.le_refl _, fun u s h => ⟨s, h, List.prefix_refl _, List.prefix_refl _⟩⟩,
      fun h => ⟨h.ranges, h.lists, h.outputs, h.elems, h.groups, fun r hr => ?_⟩⟩
    rcases List.mem_append.1 hr with hr | hr
    · exact h.utf8 r hr
    · obtain rfl := List.mem_singleton.1 hr
      rfl
  | addGlyphRewriteRule hc =>
    simp only [Builder.addGlyphRule, ite_err, Res.bind_eq_ok] at hc
    obtain ⟨h1, h2, hout, ⟨l, gs, hs⟩, hin, hc⟩ := hc
    simp only [Res.pure_eq, Res.ok.injEq] at hc
    obtain rfl := hc
    obtain ⟨r1, r2⟩ := ruleInputs_refs hi h hin (by simp) (by simp)
    refine ⟨List.prefix_refl _, .inr ⟨Nat.le_refl _, fun u s h => ⟨s, h, List.prefix_refl _, List.prefix_refl _⟩⟩,
      fun h => ⟨h.ranges, h.lists, fun r hr => ?_, fun r hr => ?_, fun r hr => ?_, h.utf8⟩⟩
    · rcases List.mem_append.1 hr with hr | hr
      · exact h.outputs r hr
      · obtain rfl := List.mem_singleton.1 hr
        intro u hu
        refine hdef fun hn => hout ?_
        exact List.any_eq_true.2 ⟨u, hu, hn⟩
    · rcases List.mem_append.1 hr with hr | hr
      · exact h.elems r hr
      · obtain rfl := List.mem_singleton.1 hr
        exact r1
    · rcases List.mem_append.1 hr with hr | hr
      · exact h.groups r hr
      · obtain rfl := List.mem_singleton.1 hr
        exact r2
  | build hc =>
    obtain ⟨s, w, bi, hb⟩ := build_parts hc
    have hm := hb.main
    split at hm
    · simp only [Builder.addDye, ite_err, Res.bind_eq_ok, Res.pure_eq, Res.ok.injEq] at hm
      obtain ⟨_, _, _, rfl⟩ := hm
      exact .same (List.prefix_refl _) rfl rfl rfl hg.6 hg.7
    · obtain rfl := Res.ok.inj hm
      exact .same (List.prefix_refl _) rfl rfl rfl hg.6 hg.7
  | _ => exact .same (List.prefix_refl _) rfl rfl rfl hg.6 hg.7

theorem Refs.setKern {b : Builder} (h : Refs b) {hp vp : GoMap (Nat × Nat) KernPair} {cl : List Int} :
    Refs { b with horzKern := hp, vertKern := vp, kernClasses := cl } :=
  ⟨h.1, h.2, h.3, h.4, h.5, h.6⟩

theorem new_refs {rolls : List UInt64} {today : DateModel.Date} {b : Builder} (h : new rolls today = .ok b) : Refs b := by
  obtain ⟨id, hid, rfl⟩ := find_new h
  constructor <;> simp

theorem Edits.refs {e : Editor} (h : Edits e) : Refs e.builder := by
  induction h with
  | new h => exact new_refs h
  | call h hc ih => exact (hc.steady h.inv h.calls).refs ih
  | clear _ ih => exact ih.setKern
  | parse _ hp ih =>
    refine parseEditionData_keeps (I := fun e' => Refs e'.builder) (fun _ h => h.setKern) ?_ ih hp
    refine editionBody_keeps (fun _ _ h => h) (fun _ _ h => h) (fun _ _ _ h => h) ?_ ?_ ?_ ?_
    · exact fun e h => h.setKern
    · exact fun e i v h _ _ => h.setKern
    · exact fun e u v cls h _ _ => h.setKern
    · exact fun e u v cls h _ _ => h.setKern

theorem Reachable.refs {b : Builder} (h : Reachable b) : Refs b := by
  obtain ⟨e, he, rfl⟩ := h
  exact he.refs

/-! ## Doomed builders -/

theorem idxOf_prefix {l l' : List Nat} (h : l <+: l') {u : Nat} (hu : u ∈ l) : l'.idxOf u = l.idxOf u := by
  obtain ⟨t, rfl⟩ := h
  exact List.idxOf_append_of_mem hu

theorem Doomed.setKern {b : Builder} (h : Doomed b) {hp vp : GoMap (Nat × Nat) KernPair} {cl : List Int} :
    Doomed { b with horzKern := hp, vertKern := vp, kernClasses := cl } := h

theorem Call.doomed {b b' : Builder} (hi : Inv b) (h : Calls b) (hr : Refs b) (hc : Call b b') (hd : Doomed b) :
    Doomed b' := by
  have hg := hc.grows h
  have hs := hc.steady hi h
  rcases hd with hd | hd | hd | ⟨e, he, hd⟩
  · exact .inl (hg.spoiled hd)
  · refine .inr (.inl fun ⟨l, hl, hw⟩ => hd ⟨l, hl, fun w ⟨s, hm, ho⟩ => hw w ⟨s, hs.settings.subset hm, ho⟩⟩)
  · rcases hs.sets with hx | ⟨hx, _⟩
    · exact .inl hx
    · exact .inr (.inr (.inl (by omega)))
  · rcases hs.sets with hx | ⟨_, hx⟩
    · exact .inl hx
    · obtain ⟨s', hs', h1, h2⟩ := hx e.1 e.2 (GoMap.get_of_mem h.setKeys he)
      refine .inr (.inr (.inr ⟨_, GoMap.mem_of_get hs', ?_⟩))
      have l1 := h1.length_le; have l2 := h2.length_le
      rcases hd with hd | hd | ⟨r, hm, hd⟩
      · exact .inl (by simp only; omega)
      · exact .inr (.inl (by simp only; omega))
      · refine .inr (.inr ⟨r, h1.subset hm, fun ho => hd ?_⟩)
        obtain ⟨m1, m2⟩ := hr.ranges e he r hm
        rw [InOrder, idxOf_prefix hg.glyphs m1, idxOf_prefix hg.glyphs m2] at ho
        exact ho

theorem Later.doomed {e e' : Editor} (he : Edits e) (h : Later e e') (hd : Doomed e.builder) : Doomed e'.builder := by
  induction h with
  | refl => exact hd
  | call hl hc ih => exact hc.doomed (hl.edits he).inv (hl.edits he).calls (hl.edits he).refs ih
  | clear _ ih => exact ih.setKern
  | parse _ hp ih =>
    refine parseEditionData_keeps (I := fun e' => Doomed e'.builder) (fun _ h => h.setKern) ?_ ih hp
    refine editionBody_keeps (fun _ _ h => h) (fun _ _ h => h) (fun _ _ _ h => h) ?_ ?_ ?_ ?_
    · exact fun e h => h.setKern
    · exact fun e i v h _ _ => h.setKern
    · exact fun e u v cls h _ _ => h.setKern
    · exact fun e u v cls h _ _ => h.setKern

end Spec
