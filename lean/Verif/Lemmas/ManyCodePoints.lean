import Verif.Lemmas.ManyGlyphs
import Verif.Lemmas.LargeMapping

/-! # Fonts with large mappings -/

namespace Sample
open Go BuilderModel Spec

theorem many_codePoints : ∀ n : Nat, n ≤ 56789 → ∃ m, Reachable (withCodePoints m) ∧ m.length = n ∧
    ∀ e ∈ m, e.1 < 100 + (n : Int) ∧ 100 ≤ e.1 ∧ e.2 = longEntry
  | 0, _ => ⟨[], switched_reachable, rfl, by simp⟩
  | n + 1, hn => by
    obtain ⟨m, hr, h1, h2⟩ := many_codePoints n (by omega)
    have e : (withCodePoints m).mapWithSwitch (100 + n) 0
        (longEntry.cases.map MapGroup.glyphs) [5, 6] =
        .ok (withCodePoints (m.set (100 + n) longEntry)) := by
      unfold Builder.mapWithSwitch
      have e1 : (withCodePoints m).computeNumSwitchCases 0 = .ok 2 := by
        show switched.computeNumSwitchCases 0 = .ok 2
        decide +kernel
      have e2 : Builder.animFlagsLoop (longEntry.cases.map MapGroup.glyphs) [5, 6] [] = .ok ([], [5, 6]) := by
        decide +kernel
      have e3 : Builder.switchCasesLoop [5, 6] (longEntry.cases.map MapGroup.glyphs) 0 = .ok longEntry.cases := by
        decide +kernel
      have e4 : ¬ 0 ≥ (withCodePoints m).switches.length := by
        show ¬ 0 ≥ switched.switches.length
        decide +kernel
      have e5 : ¬ ((longEntry.cases.map MapGroup.glyphs).length : Int) ≠ 2 := by decide +kernel
      rw [if_neg (by omega), if_neg (by omega), if_neg e4, e1, Res.ok_bind, if_neg e5, e2, Res.ok_bind]
      simp only [ne_eq, not_true_eq_false, if_false]
      rw [e3]
      rfl
    refine ⟨_, hr.call (.mapWithSwitch (by omega) e), ?_, ?_⟩
    · rw [GoMap.length_set_new _ fun e he => by have := (h2 e he).1; omega, h1]
    · intro e he
      rcases GoMap.mem_set he with he | rfl
      · have := h2 e he; exact ⟨by omega, this.2⟩
      · exact ⟨by simp only; omega, by simp only; omega, rfl⟩

theorem long_groups : ∃ x y, (∀ m, ({ switchedMain with runeMapping := m } : Builder).groupBytes longEntry.cases[0] = .ok x) ∧
    (∀ m, ({ switchedMain with runeMapping := m } : Builder).groupBytes longEntry.cases[1] = .ok y) ∧
    x.length = 258 ∧ y.length = 258 := by
  have key : ∀ {r : Res Bytes}, (match r with
      | .ok x => x.length == 258
      | _ => false) = true → ∃ x, r = .ok x ∧ x.length = 258 := by
    intro r h
    cases r with
    | ok x => exact ⟨x, rfl, by simpa using h⟩
    | err m => cases h
    | panic m => cases h
  obtain ⟨x, h1, h2⟩ := key (r := switchedMain.groupBytes longEntry.cases[0]) (by decide +kernel)
  obtain ⟨y, h3, h4⟩ := key (r := switchedMain.groupBytes longEntry.cases[1]) (by decide +kernel)
  exact ⟨x, y, fun _ => h1, fun _ => h3, h2, h4⟩

theorem long_entry : ∃ x, x.length = 517 ∧ ∀ m n, n ≤ 33553000 →
    ({ switchedMain with runeMapping := m } : Builder).entryBytes n longEntry = .ok x := by
  obtain ⟨x, y, hx, hy, hxl, hyl⟩ := long_groups
  refine ⟨byte 0 :: (x ++ y), by simp [hxl, hyl], fun m n hn => ?_⟩
  have hc : longEntry.cases = [longEntry.cases[0], longEntry.cases[1]] := rfl
  have h0 : longEntry.switchType = 0 := rfl
  rw [Builder.entryBytes, if_neg (by rw [h0]; omega), if_neg (by rw [h0]; omega), hc]
  simp only [Builder.casesBytes, hx, hy, Res.ok_bind, hxl, hyl]
  rw [if_neg (by rw [show FontModel.maxFontDataSize = 33554432 from rfl]; omega),
    if_neg (by rw [show FontModel.maxFontDataSize = 33554432 from rfl]; omega)]
  simp [Res.pure_eq, h0]

theorem long_entries {m : GoMap Int MapEntry} {x : Bytes} (hx : x.length = 517) (he : ∀ m n, n ≤ 33553000 →
      ({ switchedMain with runeMapping := m } : Builder).entryBytes n longEntry = .ok x) :
    ∀ {cs : List Int} {n : Nat}, (∀ c ∈ cs, m.get c = some longEntry) → n + 517 * cs.length ≤ 33553000 →
      ({ switchedMain with runeMapping := m } : Builder).entriesLoop n cs = .ok (List.replicate cs.length x)
  | [], _, _, _ => rfl
  | c :: cs, n, h, hn => by
    rw [List.length_cons] at hn
    have hg : ({ switchedMain with runeMapping := m } : Builder).runeMapping.get c = some longEntry := h c (by simp)
    have e1 : ({ switchedMain with runeMapping := m } : Builder).computeNumSwitchCases longEntry.switchType = .ok 2 := by
      show switchedMain.computeNumSwitchCases 0 = .ok 2
      decide +kernel
    have e2 : ¬ (2 : Int) ≠ longEntry.cases.length := by decide
    rw [Builder.entriesLoop, hg]
    simp only
    rw [e1, Res.ok_bind, if_neg e2, he m n (by omega), Res.ok_bind,
      long_entries hx he (fun v hv => h v (by simp [hv])) (by omega)]
    rfl

theorem long_mapping {m : GoMap Int MapEntry} (hm : ∀ e ∈ m, 100 ≤ e.1 ∧ e.2 = longEntry) (hl : m.length ≤ 40000) :
    ∃ x, x.length = 2 + 524 * m.length ∧ ∀ n, n ≤ 1000000 →
      ({ switchedMain with runeMapping := m } : Builder).mappingSection n = .ok x := by
  obtain ⟨x, hx, he⟩ := long_entry
  have hp := isort_perm (fun x y : Int => decide (x ≤ y)) m.keys
  have hlen := hp.length_eq
  have hkl : m.keys.length = m.length := by simp [GoMap.keys]
  refine ⟨Helpers.appendUint16LE [] m.length ++ ((isort (fun x y : Int => decide (x ≤ y)) m.keys).map fun c =>
    Helpers.appendUint32LE [] c.toNat).flatten ++ ends24 0 ((List.replicate m.length x).map List.length) ++
    (List.replicate m.length x).flatten, ?_, fun n hn => ?_⟩
  · simp only [List.length_append, ends24_length, flatten_length, List.length_map, List.length_replicate,
      List.map_map, List.map_replicate, List.sum_replicate_nat, hx]
    have : (List.map (List.length ∘ fun c : Int => Helpers.appendUint32LE [] c.toNat)
        (isort (fun x y : Int => decide (x ≤ y)) m.keys)) = List.replicate m.length 4 := by
      rw [List.eq_replicate_iff]
      refine ⟨by simp; omega, ?_⟩
      intro y hy
      obtain ⟨z, _, rfl⟩ := List.mem_map.1 hy
      rfl
    rw [this, List.sum_replicate_nat]
    show 2 + _ + _ + _ = _
    omega
  · have hr : ({ switchedMain with runeMapping := m } : Builder).runeMapping = m := rfl
    unfold Builder.mappingSection
    have hneg : ¬ (m.keys.any fun c => decide (c < 0)) = true := by
      rw [List.any_eq_true]
      rintro ⟨c, hc, h0⟩
      obtain ⟨e, he, rfl⟩ := List.mem_map.1 hc
      have := (hm e he).1
      simp only [decide_eq_true_eq] at h0
      omega
    simp only [hr]
    rw [if_neg (by rw [FontModel.maxGlyphs]; omega), if_neg hneg,
      long_entries hx he (fun c hc => ?_) (by rw [hlen, hkl]; omega), Res.ok_bind, hlen, hkl]
    · rfl
    · have hc' := hp.mem_iff.1 hc
      cases hg : m.get c with
      | none => exact absurd hc' (GoMap.get_eq_none.1 hg)
      | some e => exact congrArg some (hm _ (GoMap.mem_of_get hg)).2

section
variable (m : GoMap Int MapEntry)

theorem cp_hh : ∃ x, (withCodePoints m).headerSection = .ok x ∧ x.length ≤ 1000 :=
  small_of (r := switched.headerSection) (by decide +kernel)

theorem cp_h1 : ∃ x, ({ switchedMain with runeMapping := m } : Builder).dyesSection = .ok x ∧ x.length ≤ 1000 :=
  small_of (r := switchedMain.dyesSection) (by decide +kernel)

theorem cp_h2 : ∃ x, ({ switchedMain with runeMapping := m } : Builder).palettesSection = .ok x ∧ x.length ≤ 1000 :=
  small_of (r := switchedMain.palettesSection) (by decide +kernel)

theorem cp_h3 : ∃ x, ({ switchedMain with runeMapping := m } : Builder).glyphNamesSection = .ok x ∧ x.length ≤ 1000 :=
  small_of (r := switchedMain.glyphNamesSection) (by decide +kernel)

theorem cp_h4 : ∃ x, ({ switchedMain with runeMapping := m } : Builder).glyphMasksSection env = .ok x ∧ x.length ≤ 1000 :=
  small_of (r := switchedMain.glyphMasksSection env) (by decide +kernel)

theorem cp_h5 : ∃ w bi wo sd, ({ switchedMain with runeMapping := m } : Builder).settingWords env = .ok (w, bi) ∧
    Builder.wordsSection env w = .ok wo ∧ wo.length ≤ 1000 ∧
    ({ switchedMain with runeMapping := m } : Builder).settingDefsSection bi w = .ok sd ∧ sd.length ≤ 1000 := by
  have h : (match switchedMain.settingWords env with
      | .ok p => (match Builder.wordsSection env p.1 with
        | .ok x => decide (x.length ≤ 1000)
        | _ => false) && (match switchedMain.settingDefsSection p.2 p.1 with
        | .ok x => decide (x.length ≤ 1000)
        | _ => false)
      | _ => false) = true := by decide +kernel
  cases e : switchedMain.settingWords env with
  | ok p =>
    rw [e] at h
    simp only [Bool.and_eq_true] at h
    obtain ⟨x, h1, h2⟩ := small_of h.1
    obtain ⟨y, h3, h4⟩ := small_of h.2
    exact ⟨p.1, p.2, x, y, e, h1, h2, h3, h4⟩
  | err m => rw [e] at h; cases h
  | panic m => rw [e] at h; cases h

theorem cp_h6 : ∃ x, ({ switchedMain with runeMapping := m } : Builder).settingNamesSection = .ok x ∧ x.length ≤ 1000 :=
  small_of (r := switchedMain.settingNamesSection) (by decide +kernel)

theorem cp_h8 : ∃ x, ({ switchedMain with runeMapping := m } : Builder).switchesSection = .ok x ∧ x.length ≤ 1000 :=
  small_of (r := switchedMain.switchesSection) (by decide +kernel)

theorem cp_h10 : ∃ x, ({ switchedMain with runeMapping := m } : Builder).conditionsSection = .ok x ∧ x.length ≤ 1000 :=
  small_of (r := switchedMain.conditionsSection) (by decide +kernel)

theorem cp_h11 : ∃ x, ({ switchedMain with runeMapping := m } : Builder).utf8SetsSection = .ok x ∧ x.length ≤ 1000 :=
  small_of (r := switchedMain.utf8SetsSection) (by decide +kernel)

theorem cp_h12 : ∃ x, ({ switchedMain with runeMapping := m } : Builder).glyphSetsSection = .ok x ∧ x.length ≤ 1000 :=
  small_of (r := switchedMain.glyphSetsSection) (by decide +kernel)

theorem cp_h13 : ∃ x, Builder.rulesSection (Builder.ruleBytes Builder.noGroup Builder.runeElem)
    ({ switchedMain with runeMapping := m } : Builder).utf8Rules = .ok x ∧ x.length ≤ 1000 :=
  small_of (r := Builder.rulesSection (Builder.ruleBytes Builder.noGroup Builder.runeElem) switchedMain.utf8Rules)
    (by decide +kernel)

theorem cp_h14 : ∃ x, Builder.rulesSection (Builder.ruleBytes ({ switchedMain with runeMapping := m } : Builder).groupRef
    ({ switchedMain with runeMapping := m } : Builder).glyphElem)
    ({ switchedMain with runeMapping := m } : Builder).glyphRules = .ok x ∧ x.length ≤ 1000 :=
  small_of (r := Builder.rulesSection (Builder.ruleBytes switchedMain.groupRef switchedMain.glyphElem)
    switchedMain.glyphRules) (by decide +kernel)

theorem cp_kern : ({ switchedMain with runeMapping := m } : Builder).horzKern = [] ∧
    ({ switchedMain with runeMapping := m } : Builder).vertKern = [] := by
  show switchedMain.horzKern = [] ∧ switchedMain.vertKern = []
  decide +kernel

theorem cp_dye : (withCodePoints m).addDye (ascii "main") [255] = .ok { switchedMain with runeMapping := m } := by
  have h : switched.addDye (ascii "main") [255] = .ok switchedMain := by decide +kernel
  have e : ∀ (b b' : Builder), b.addDye (ascii "main") [255] = .ok b' →
      ({ b with runeMapping := m } : Builder).addDye (ascii "main") [255] = .ok { b' with runeMapping := m } := by
    intro b b' h
    simp only [Builder.addDye, Res.bind_eq_ok, ite_err, Res.pure_eq, Res.ok.injEq] at h ⊢
    obtain ⟨u, h1, h2, rfl⟩ := h
    exact ⟨u, h1, h2, rfl⟩
  exact e _ _ h

end

theorem large_mapping_built {m : GoMap Int MapEntry} (hm : ∀ e ∈ m, 100 ≤ e.1 ∧ e.2 = longEntry) (hl : m.length ≤ 40000) :
    ∃ r, (withCodePoints m).build env = .ok r ∧
      r.2.offConditions - (r.2.offMapping + (2 + 7 * m.length)) = 517 * m.length := by
  obtain ⟨header, hh, hhl⟩ := cp_hh m
  obtain ⟨dyes, h1, h1l⟩ := cp_h1 m
  obtain ⟨pal, h2, h2l⟩ := cp_h2 m
  obtain ⟨nam, h3, h3l⟩ := cp_h3 m
  obtain ⟨mas, h4, h4l⟩ := cp_h4 m
  obtain ⟨w, bi, wo, sd, h5', h5, h5l, h7, h7l⟩ := cp_h5 m
  obtain ⟨sn, h6, h6l⟩ := cp_h6 m
  obtain ⟨sw, h8, h8l⟩ := cp_h8 m
  obtain ⟨ma, h9l, h9⟩ := long_mapping hm hl
  obtain ⟨co, h10, h10l⟩ := cp_h10 m
  obtain ⟨us, h11, h11l⟩ := cp_h11 m
  obtain ⟨gs, h12, h12l⟩ := cp_h12 m
  obtain ⟨ur, h13, h13l⟩ := cp_h13 m
  obtain ⟨gr, h14, h14l⟩ := cp_h14 m
  obtain ⟨c5, c6⟩ := cp_kern m
  have h15 : ({ switchedMain with runeMapping := m } : Builder).kernSection
      ({ switchedMain with runeMapping := m } : Builder).horzKern
      ({ switchedMain with runeMapping := m } : Builder).horzKern = .ok [0, 0, 0] := by
    rw [c5]; exact kernSection_nil _
  have h16 : ({ switchedMain with runeMapping := m } : Builder).kernSection
      ({ switchedMain with runeMapping := m } : Builder).vertKern
      ({ switchedMain with runeMapping := m } : Builder).horzKern = .ok [0, 0, 0] := by
    rw [c5, c6]; exact kernSection_nil _
  have c1 : switched.glyphData.length = 4 ∧ switched.glyphOrder.length = 4 ∧
      switched.dyes.length + switched.palettes.length = 0 ∧ switched.metricsStatus = .ok () := by decide +kernel
  obtain ⟨r, hr, _, he⟩ := build_of (b := withCodePoints m) (K := 1000000)
    (by show switched.glyphData.length ≤ 56789; omega)
    (by show switched.glyphData.length = switched.glyphOrder.length; omega)
    (by show switched.glyphData.length ≠ 0; omega) hh c1.2.2.2 c1.2.2.1 (cp_dye m) h1 h2 h3 h4 h5' h5 h6 h7 h8 h9 h10
    h11 h12 h13 h14 c5 c6 h15 h16
    (by simp [Builder.metricsSection, Helpers.appendUint16LE]) (by omega)
    (by simp only [List.length_cons, List.length_nil]; omega)
  exact ⟨r, hr, by omega⟩

end Sample
