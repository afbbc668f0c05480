import Verif.Lemmas.BuildSafe

/-! # What a successful `Build` needs -/

namespace BuilderModel
open Go Helpers Spec

theorem mapRes_mem {α β : Type} {f : α → Res β} {l : List α} {r : List β} (h : mapRes f l = .ok r) :
    ∀ a ∈ l, ∃ x, f a = .ok x := by
  obtain ⟨h1, h2⟩ := mapRes_ok h
  intro a ha
  obtain ⟨i, hi, rfl⟩ := List.getElem_of_mem ha
  exact ⟨_, h2 i hi (by omega)⟩

namespace Builder
variable {b : Builder}

theorem glyphIndexP_mem (hn : b.glyphOrder.Nodup) (hl : b.glyphOrder.length ≤ 65536) {u i : Nat}
    (h : b.glyphIndexP u = .ok i) : u ∈ b.glyphOrder := by
  obtain ⟨hi, hu⟩ := List.getElem?_eq_some_iff.1 ((glyphIndexP_iff hn hl).1 h)
  exact hu ▸ List.getElem_mem hi

theorem groupBytes_needs (hn : b.glyphOrder.Nodup) (hl : b.glyphOrder.length ≤ 65536) {g : MapGroup} {x : Bytes}
    (h : b.groupBytes g = .ok x) : g.glyphs.length ≤ 128 ∧ ∀ u ∈ g.glyphs, u ∈ b.glyphOrder := by
  simp only [groupBytes, ite_panic, Res.bind_eq_ok] at h
  obtain ⟨h1, r, hr, -⟩ := h
  refine ⟨by omega, fun u hu => ?_⟩
  obtain ⟨i, hi⟩ := mapRes_mem hr u hu
  exact glyphIndexP_mem hn hl hi

theorem casesBytes_needs (hn : b.glyphOrder.Nodup) (hl : b.glyphOrder.length ≤ 65536) :
    ∀ {gs : List MapGroup} {len : Nat} {x : Bytes}, b.casesBytes len gs = .ok x →
    ∀ g ∈ gs, g.glyphs.length ≤ 128 ∧ ∀ u ∈ g.glyphs, u ∈ b.glyphOrder
  | [], _, _, _, g, hg => by cases hg
  | g :: gs, len, x, h, g', hg => by
    simp only [casesBytes, Res.bind_eq_ok, ite_err] at h
    obtain ⟨y, hy, _, r, hr, -⟩ := h
    rcases List.mem_cons.1 hg with rfl | hg
    · exact groupBytes_needs hn hl hy
    · exact casesBytes_needs hn hl hr g' hg

theorem entryBytes_needs (hn : b.glyphOrder.Nodup) (hl : b.glyphOrder.length ≤ 65536) {e : MapEntry} {len : Nat}
    {x : Bytes} (h : b.entryBytes len e = .ok x) :
    ∀ g ∈ e.cases, g.glyphs.length ≤ 128 ∧ ∀ u ∈ g.glyphs, u ∈ b.glyphOrder := by
  rw [entryBytes] at h
  split at h
  · split at h
    · rename_i g hc
      rw [hc]
      split at h
      · rename_i u hu
        simp only [Res.bind_eq_ok] at h
        obtain ⟨i, hi, -⟩ := h
        intro g' hg'
        obtain rfl := List.mem_singleton.1 hg'
        rw [hu]
        refine ⟨by simp, fun v hv => ?_⟩
        obtain rfl := List.mem_singleton.1 hv
        exact glyphIndexP_mem hn hl hi
      · cases h
    · cases h
  · split at h
    · split at h
      · rename_i g hc
        rw [hc]
        simp only [ite_panic, Res.bind_eq_ok] at h
        obtain ⟨_, y, hy, -⟩ := h
        intro g' hg'
        obtain rfl := List.mem_singleton.1 hg'
        exact groupBytes_needs hn hl hy
      · cases h
    · simp only [Res.bind_eq_ok] at h
      obtain ⟨y, hy, -⟩ := h
      exact casesBytes_needs hn hl hy

theorem mapping_needs (hn : b.glyphOrder.Nodup) (hl : b.glyphOrder.length ≤ 65536) (hk : b.runeMapping.keys.Nodup)
    {len : Nat} {x : Bytes} (h : b.mappingSection len = .ok x) : b.runeMapping.length ≤ 56789 ∧
    ∀ e ∈ b.runeMapping, ∀ g ∈ e.2.cases, g.glyphs.length ≤ 128 ∧ ∀ u ∈ g.glyphs, u ∈ b.glyphOrder := by
  simp only [mappingSection, ite_panic, Res.bind_eq_ok] at h
  obtain ⟨h1, _, blocks, hb, -⟩ := h
  have h2 : FontModel.maxGlyphs = 56789 := rfl
  refine ⟨by omega, fun e he => ?_⟩
  obtain ⟨h3, h4⟩ := entriesLoop_ok hb
  have hm : e.1 ∈ isort (fun x y : Int => decide (x ≤ y)) b.runeMapping.keys :=
    (isort_perm _ _).mem_iff.2 (List.mem_map.2 ⟨e, he, rfl⟩)
  obtain ⟨i, hi, hie⟩ := List.getElem_of_mem hm
  obtain ⟨e', l, hg, _, hx⟩ := h4 i hi (by omega)
  rw [hie, GoMap.get_of_mem hk he] at hg
  obtain rfl := Option.some.inj hg
  exact entryBytes_needs hn hl hx

theorem sets_needs (hc : Calls b) {x : Bytes} (h : b.glyphSetsSection = .ok x) :
    b.glyphSets.length = b.glyphSetsOrder.length ∧
    ∀ s ∈ b.glyphSets, s.2.ranges.length ≤ 254 ∧ s.2.list.length ≤ 254 := by
  simp only [glyphSetsSection, ite_panic, Res.bind_eq_ok] at h
  obtain ⟨_, h1, _, _, r, hr, -⟩ := h
  refine ⟨Classical.not_not.1 h1, fun s hs => ?_⟩
  obtain ⟨y, hy⟩ := mapRes_mem hr s.2 (List.mem_filterMap.2 ⟨s.1, hc.setOrder s hs, GoMap.get_of_mem hc.setKeys hs⟩)
  simp only [setBytes, ite_panic] at hy
  obtain ⟨h1, h2, -⟩ := hy
  exact ⟨by omega, by omega⟩

theorem rules_needs {group : Nat → Res UInt8} {elem : Nat → Res Bytes} {rules : List Rule} {x : Bytes}
    (h : rulesSection (ruleBytes group elem) rules = .ok x) : rules.length ≤ 65535 ∧
    ∀ r ∈ rules, r.bodyLen ≠ 0 ∧ r.output.length ≤ 255 := by
  simp only [rulesSection, ite_panic, Res.bind_eq_ok] at h
  obtain ⟨h1, blocks, hb, -⟩ := h
  obtain ⟨h2, _, h3⟩ := rulesLoop_ok hb
  refine ⟨by omega, fun r hr => ?_⟩
  obtain ⟨i, hi, rfl⟩ := List.getElem_of_mem hr
  have := h3 i hi (by omega)
  simp only [ruleBytes, ite_panic] at this
  exact ⟨this.2.1, by omega⟩

theorem kern_needs (hn : b.glyphOrder.Nodup) (hl : b.glyphOrder.length ≤ 65536)
    {pairs values : GoMap (Nat × Nat) KernPair} {x : Bytes} (h : b.kernSection pairs values = .ok x) :
    ∀ p ∈ pairs.keys, p.1 ∈ b.glyphOrder ∧ p.2 ∈ b.glyphOrder ∧
      ∃ info, values.get p = some info ∧ info.cls ≤ b.kernClasses.length := by
  simp only [kernSection, Res.bind_eq_ok, ite_panic] at h
  obtain ⟨ks, hks, _, vs, hvs, -⟩ := h
  intro p hp
  obtain ⟨hl1, hks⟩ := mapRes_ok hks
  obtain ⟨a, ha, hap⟩ := List.getElem_of_mem hp
  have hk := hks a ha (by omega)
  rw [hap] at hk
  obtain ⟨i, j, hi, hj, e⟩ := (pairKey_iff hn hl).1 hk
  obtain ⟨v, hv⟩ := mapRes_mem hvs ks[a] ((isort_nat_perm _).mem_iff.2 (List.getElem_mem _))
  rw [e] at hv
  obtain ⟨hi', hi⟩ := List.getElem?_eq_some_iff.1 hi
  obtain ⟨hj', hj⟩ := List.getElem?_eq_some_iff.1 hj
  have e1 : u16 ((i * 65536 + j) >>> 16) = i := by
    rw [Nat.shiftRight_eq_div_pow, u16]; omega
  have e2 : u16 (i * 65536 + j) = j := by rw [u16]; omega
  refine ⟨hi ▸ List.getElem_mem hi', hj ▸ List.getElem_mem hj', ?_⟩
  rw [pairValue, e1, e2, idx_lt hi', idx_lt hj', hi, hj] at hv
  simp only [Res.ok_bind] at hv
  cases hg : values.get p with
  | none => rw [show (p.1, p.2) = p from rfl, hg] at hv; cases hv
  | some info =>
    rw [show (p.1, p.2) = p from rfl, hg] at hv
    refine ⟨info, rfl, ?_⟩
    simp only at hv
    split at hv
    · omega
    · simp only [Res.bind_eq_ok] at hv
      obtain ⟨w, hw, -⟩ := hv
      by_cases hlt : info.cls - 1 < b.kernClasses.length
      · omega
      · rw [idx_ge (by omega)] at hw; cases hw

theorem build_needs (hr : Reachable b) {env : Env} {b' : Builder} {f : FontModel.Font}
    (h : build env b = .ok (b', f)) : Orderly b := by
  obtain ⟨s, w, bi, hb⟩ := build_parts h
  have hm := hb.main
  have key : Reachable b' → b'.dyes.length + b'.palettes.length ≤ 255 → Orderly b' := by
    intro hr hs
    have hi := hr.inv
    have hc := hr.calls
    have hn := hi.kern.order
    have hl : b'.glyphOrder.length ≤ 65536 := by
      have h1 := congrArg List.length hi.sync
      have h2 := hc.count
      simp only [GoMap.keys, List.length_map] at h1
      omega
    obtain ⟨m1, m2⟩ := mapping_needs hn hl hi.mapping.keys hb.mapping
    obtain ⟨s1, s2⟩ := sets_needs hc hb.glyphSets
    obtain ⟨u1, _⟩ := rules_needs hb.utf8Rules
    obtain ⟨g1, g2⟩ := rules_needs hb.glyphRules
    have hh := kern_needs hn hl hb.horzKern
    have hv := kern_needs hn hl hb.vertKern
    refine ⟨hs, m1, fun e he g hg => (m2 e he g hg).2, fun e he g hg => (m2 e he g hg).1, s1,
      fun s hs => (s2 s hs).1, fun s hs => (s2 s hs).2, u1, g1, fun r hr => (g2 r hr).1,
      fun r hr => (g2 r hr).2, hb.horzCount, hb.vertCount, fun e he => ?_, fun e he => ?_, fun e he => ?_⟩
    · obtain ⟨h1, h2, _⟩ := hh e.1 (List.mem_map.2 ⟨e, he, rfl⟩)
      exact ⟨h1, h2⟩
    · obtain ⟨_, _, info, h1, _⟩ := hv e.1 (List.mem_map.2 ⟨e, he, rfl⟩)
      exact ⟨_, GoMap.mem_of_get h1, rfl⟩
    · obtain ⟨_, _, info, h1, h2⟩ := hh e.1 (List.mem_map.2 ⟨e, he, rfl⟩)
      rw [GoMap.get_of_mem hi.kern.horz he] at h1
      rw [Option.some.inj h1]
      exact h2
  obtain ⟨b1, h1, h2⟩ := main_exists (b := b)
  rw [h1] at hm
  obtain rfl := Res.ok.inj hm
  rcases h2 with rfl | ⟨hs, hcall, rfl⟩
  · exact key hr hb.sections
  · obtain ⟨e, he, rfl⟩ := hr
    have h := key ⟨_, he.call hcall, rfl⟩ (by simp; omega)
    exact ⟨by omega, h.mapped, h.mapGlyphs, h.mapGroups, h.sets, h.ranges, h.lists, h.utf8Rules, h.glyphRules,
      h.bodies, h.outputs, h.horzCount, h.vertCount, h.horzGlyphs, h.vertPairs, h.classes⟩

end Builder
end BuilderModel
