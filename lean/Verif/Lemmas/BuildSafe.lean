import Verif.Lemmas.Calls
import Verif.Lemmas.BuiltRewrites
import Verif.Lemmas.Words
import Verif.Lemmas.Kern
import Verif.Spec.Buildable
import Verif.Props.C10
import Verif.Lemmas.EncAppend

/-! # The sections of `Build` do not panic -/

namespace Go

/-- No panic. -/
abbrev Calm {α : Type} (x : Res α) : Prop := x.isPanic = false

theorem Calm.bind {α β : Type} {x : Res α} {f : α → Res β} (hx : Calm x) (hf : ∀ a, x = .ok a → Calm (f a)) :
    Calm (x >>= f) := Res.bind_isPanic_false hx hf

theorem Calm.ok {α : Type} (a : α) : Calm (.ok a) := rfl
theorem Calm.err {α : Type} (m : String) : Calm (.err m : Res α) := rfl
theorem Calm.of {α : Type} {x : Res α} (h : ∃ a, x = .ok a) : Calm x := by
  obtain ⟨a, rfl⟩ := h; rfl

theorem Calm.iff {α : Type} {x : Res α} : Calm x ↔ ∀ m, x ≠ .panic m := by
  cases x <;> simp [Calm]

end Go

namespace BuilderModel
open Go Helpers Spec

theorem mapRes_calm {α β : Type} {f : α → Res β} : ∀ {l : List α}, (∀ a ∈ l, Calm (f a)) → Calm (mapRes f l)
  | [], _ => rfl
  | a :: l, h => (h a (by simp)).bind fun _ _ => (mapRes_calm fun x hx => h x (by simp [hx])).bind fun _ _ => rfl

theorem mapRes_exists {α β : Type} {f : α → Res β} : ∀ {l : List α}, (∀ a ∈ l, ∃ x, f a = .ok x) →
    ∃ r, mapRes f l = .ok r
  | [], _ => ⟨_, rfl⟩
  | a :: l, h => by
    obtain ⟨x, hx⟩ := h a (by simp)
    obtain ⟨r, hr⟩ := mapRes_exists (l := l) fun x hx => h x (by simp [hx])
    exact ⟨x :: r, by rw [mapRes, hx, Res.ok_bind, hr]; rfl⟩

theorem ends8_exists : ∀ {l : List Nat} {off : Nat}, off + l.sum ≤ 255 → ∃ x, ends8 off l = .ok x
  | [], _, _ => ⟨_, rfl⟩
  | n :: l, off, h => by
    rw [List.sum_cons] at h
    obtain ⟨x, hx⟩ := ends8_exists (l := l) (off := off + n) (by omega)
    exact ⟨_, by rw [ends8, if_neg (by omega), hx]; rfl⟩

namespace Builder
variable {b : Builder}

theorem header_exists (h : Calls b) : ∃ x, b.headerSection = .ok x := by
  have h1 := h.name; have h2 := h.family; have h3 := h.author; have h4 := h.about
  simp only [headerSection, appendShortString, appendString]
  rw [if_neg (by omega)]; simp only [Res.ok_bind]
  rw [if_neg (by omega)]; simp only [Res.ok_bind]
  rw [if_neg (by omega)]; simp only [Res.ok_bind]
  rw [if_neg (by omega)]
  exact ⟨_, rfl⟩

theorem main_exists : ∃ b', (if b.dyes.length + b.palettes.length = 0 then b.addDye (ascii "main") [255] else .ok b)
    = .ok b' ∧ (b' = b ∨ b.dyes.length + b.palettes.length = 0 ∧ Call b b' ∧
      b' = { b with dyes := [⟨ascii "main", [255]⟩] }) := by
  split
  · rename_i h
    have hd : b.dyes = [] := List.eq_nil_of_length_eq_zero (by omega)
    have hp : b.palettes = [] := List.eq_nil_of_length_eq_zero (by omega)
    have e : b.addDye (ascii "main") [255] = .ok { b with dyes := [⟨ascii "main", [255]⟩] } := by
      simp [addDye, checkColorName, colorCount, hd, hp]
    exact ⟨_, e, .inr ⟨h, .addDye e, rfl⟩⟩
  · exact ⟨b, rfl, .inl rfl⟩

theorem dyes_exists (h : ColorsOk b) : ∃ x, b.dyesSection = .ok x := by
  have := h.total
  simp only [sectionSizes, List.sum_append] at this
  obtain ⟨x, hx⟩ := ends8_exists (l := b.dyes.map fun d => d.alphas.length) (off := 0) (by omega)
  exact ⟨_, by rw [dyesSection, hx]; rfl⟩

theorem palettes_exists (h : ColorsOk b) : ∃ x, b.palettesSection = .ok x := by
  have := h.total
  simp only [sectionSizes, List.sum_append] at this
  obtain ⟨x, hx⟩ := ends8_exists (l := b.palettes.map fun d => d.colors.length) (off := 0) (by omega)
  exact ⟨_, by rw [palettesSection, hx]; rfl⟩

theorem glyph_exists (h : Inv b) {u : Nat} (hu : u ∈ b.glyphOrder) :
    ∃ g, b.glyph u = .ok g ∧ b.glyphData.get u = some g := by
  rw [glyph]
  cases hg : b.glyphData.get u with
  | none => exact absurd (by rw [h.sync]; exact hu) (GoMap.get_eq_none.1 hg)
  | some g => exact ⟨g, rfl, rfl⟩

theorem namedLoop_exists (h : Inv b) : ∀ {l : List Nat}, (∀ u ∈ l, u ∈ b.glyphOrder) → ∃ x, b.namedLoop l = .ok x
  | [], _ => ⟨_, rfl⟩
  | u :: l, hl => by
    obtain ⟨g, hg, _⟩ := glyph_exists h (hl u (by simp))
    obtain ⟨x, hx⟩ := namedLoop_exists h (l := l) fun v hv => hl v (by simp [hv])
    exact ⟨_, by rw [namedLoop, hg, Res.ok_bind, hx]; rfl⟩

theorem checkDuplicates_calm : ∀ (l : List Bytes) (prev : Bytes), Calm (checkDuplicates prev l)
  | [], _ => rfl
  | n :: l, prev => by
    rw [checkDuplicates]
    split
    · rfl
    · exact checkDuplicates_calm l n

theorem glyphNames_calm (h : Inv b) : Calm b.glyphNamesSection := by
  obtain ⟨x, hx⟩ := namedLoop_exists h (l := b.glyphOrder) fun _ hu => hu
  rw [glyphNamesSection, hx]
  simp only [Res.ok_bind]
  split
  · rfl
  · exact (checkDuplicates_calm _ _).bind fun _ _ => rfl

theorem small_valid {m : Mask.Img} (h : SmallMask m) : C10.ValidMask m := by
  obtain ⟨h1, h2, h3, h4, h5, h6⟩ := h
  refine ⟨⟨h1, h2, h3, h4, ?_⟩, by omega, by omega, by omega, by omega⟩
  have hx : m.rect.x1 - m.rect.x0 ≤ 128 := by omega
  have hy : m.rect.y1 - m.rect.y0 ≤ 128 := by omega
  have := Int.mul_le_mul hx hy (by omega) (by omega)
  omega

theorem small_encodes {env : Env} (ho : ∀ l, (env.fragOrder l).Perm l) {m : Mask.Img} (h : SmallMask m) : Encodes env m := by
  obtain ⟨x, hx, _⟩ := C10.small_masks_encode m (small_valid h) _ ho [] h.x h.y
  exact ⟨_, hx⟩

theorem masks_exists (h : Inv b) {env : Env} (hm : ∀ u g, b.glyphData.get u = some g → Encodes env g.mask) :
    ∃ x, b.glyphMasksSection env = .ok x := by
  obtain ⟨r, hr⟩ := mapRes_exists (f := b.glyphBlock env) (l := b.glyphOrder) (by
    intro u hu
    obtain ⟨g, hg, hd⟩ := glyph_exists h hu
    obtain ⟨x, hx⟩ := hm u g hd
    exact ⟨_, by rw [glyphBlock, hg, Res.ok_bind, Mask.appendRasterOps_data, hx]; rfl⟩)
  exact ⟨_, by rw [glyphMasksSection, hr]; rfl⟩

theorem settingNames_exists (h : SettingsOk b.settings) : ∃ x, b.settingNamesSection = .ok x := by
  have := h.count
  exact ⟨_, by rw [settingNamesSection, if_neg (by omega)]⟩

theorem checkSwitchSizes_ok {n : Nat} : ∀ {l : List (List Nat)}, (∀ s ∈ l, s.length ≤ n) → checkSwitchSizes n l = .ok ()
  | [], _ => rfl
  | s :: l, h => by
    have := h s (by simp)
    rw [checkSwitchSizes, if_neg (by omega)]
    exact checkSwitchSizes_ok fun x hx => h x (by simp [hx])

theorem nodup_length_le {l : List Nat} {n : Nat} (hn : l.Nodup) (h : ∀ k ∈ l, k < n) : l.length ≤ n := by
  have : l.Subperm (List.range n) := List.subperm_of_subset hn fun k hk => List.mem_range.2 (h k hk)
  simpa using this.length_le

theorem switches_exists (h : Calls b) (hs : SettingsOk b.settings) : ∃ x, b.switchesSection = .ok x := by
  have h1 := h.switches
  have h2 := hs.count
  rw [switchesSection, if_neg (by omega), checkSwitchSizes_ok]
  · exact ⟨_, rfl⟩
  · intro s hs
    obtain ⟨h3, h4⟩ := h.switchSettings s hs
    rw [Nat.mod_eq_of_lt (by omega)]
    exact nodup_length_le h3 h4

theorem conditions_exists (h : b.conditions = []) : ∃ x, b.conditionsSection = .ok x :=
  ⟨[0], by rw [conditionsSection, h]; rfl⟩

theorem utf8Sets_exists (h : b.runeSets = []) : ∃ x, b.utf8SetsSection = .ok x :=
  ⟨[0], by rw [utf8SetsSection, h]; rfl⟩

/-! ## Mapping -/

theorem glyphIndexP_exists (h : b.glyphOrder.Nodup) (hl : b.glyphOrder.length ≤ 65536) {u : Nat}
    (hu : u ∈ b.glyphOrder) : ∃ i, b.glyphIndexP u = .ok i :=
  ⟨_, (glyphIndexP_iff h hl).2 (getElem?_idxOf' hu)⟩

theorem groupBytes_exists (h : b.glyphOrder.Nodup) (hl : b.glyphOrder.length ≤ 65536) {g : MapGroup}
    (h0 : g.glyphs ≠ []) (hg : g.glyphs.length ≤ 128) (hu : ∀ u ∈ g.glyphs, u ∈ b.glyphOrder) :
    ∃ x, b.groupBytes g = .ok x := by
  have : g.glyphs.length ≠ 0 := fun e => h0 (List.eq_nil_of_length_eq_zero e)
  obtain ⟨r, hr⟩ := mapRes_exists fun u h' => glyphIndexP_exists h hl (hu u h')
  rw [groupBytes, if_neg (by omega), hr]
  simp only [Res.ok_bind]
  split
  · exact ⟨_, rfl⟩
  · split <;> exact ⟨_, rfl⟩

theorem casesBytes_calm (h : b.glyphOrder.Nodup) (hl : b.glyphOrder.length ≤ 65536) :
    ∀ {gs : List MapGroup} {len : Nat}, (∀ g ∈ gs, g.glyphs ≠ [] ∧ g.glyphs.length ≤ 128 ∧
      ∀ u ∈ g.glyphs, u ∈ b.glyphOrder) → Calm (b.casesBytes len gs)
  | [], _, _ => rfl
  | g :: gs, len, hg => by
    obtain ⟨h1, h2, h3⟩ := hg g (by simp)
    obtain ⟨x, hx⟩ := groupBytes_exists h hl h1 h2 h3
    rw [casesBytes, hx]
    simp only [Res.ok_bind]
    split
    · rfl
    · exact (casesBytes_calm h hl fun g' h' => hg g' (by simp [h'])).bind fun _ _ => rfl

theorem entryBytes_calm (h : b.glyphOrder.Nodup) (hl : b.glyphOrder.length ≤ 65536) {e : MapEntry} {len : Nat}
    (hs : EntryShape b e) (h1 : ∀ g ∈ e.cases, ∀ u ∈ g.glyphs, u ∈ b.glyphOrder)
    (h2 : ∀ g ∈ e.cases, g.glyphs.length ≤ 128) : Calm (b.entryBytes len e) := by
  rcases hs with ⟨ht, u, hc⟩ | ⟨ht, g, hc, hg⟩ | ⟨ht, _, hg⟩
  · obtain ⟨i, hi⟩ := glyphIndexP_exists h hl (h1 ⟨[u], 0⟩ (by rw [hc]; simp) u (by simp))
    rw [entryBytes, if_pos ht, hc]
    simp only [hi]
    rfl
  · obtain ⟨x, hx⟩ := groupBytes_exists h hl (g := g) (fun e => by rw [e] at hg; simp at hg)
      (h2 g (by rw [hc]; simp)) (h1 g (by rw [hc]; simp))
    rw [entryBytes, if_neg (by omega), if_pos ht, hc]
    simp only [hx]
    rw [if_neg (by omega)]
    rfl
  · rw [entryBytes, if_neg (by omega), if_neg (by omega)]
    exact (casesBytes_calm h hl fun g h' => ⟨hg g h', h2 g h', h1 g h'⟩).bind fun _ _ => rfl

theorem entriesLoop_calm (h : Inv b) (hc : Calls b) (hb : Orderly b) : ∀ {cs : List Int} {len : Nat},
    (∀ c ∈ cs, c ∈ b.runeMapping.keys) → Calm (b.entriesLoop len cs)
  | [], _, _ => rfl
  | c :: cs, len, hk => by
    rw [entriesLoop]
    cases hg : b.runeMapping.get c with
    | none => exact absurd (hk c (by simp)) (GoMap.get_eq_none.1 hg)
    | some e =>
      have hm := GoMap.mem_of_get hg
      have hs := hc.entries _ hm
      have hl : b.glyphOrder.length ≤ 65536 := by
        have := hc.count
        have e1 := congrArg List.length h.sync
        simp only [GoMap.keys, List.length_map] at e1
        omega
      have hn : b.computeNumSwitchCases e.switchType = .ok e.cases.length := by
        rcases hs with ⟨ht, u, hc⟩ | ⟨ht, g, hc, _⟩ | ⟨_, hn, _⟩
        · simp only at ht hc; rw [computeNumSwitchCases, if_pos (by omega), hc]; rfl
        · simp only at ht hc; rw [computeNumSwitchCases, if_pos (by omega), hc]; rfl
        · exact hn
      simp only [hn, Res.ok_bind]
      rw [if_neg (fun hne => hne rfl)]
      refine (entryBytes_calm h.kern.order hl hs (hb.mapGlyphs _ hm) (hb.mapGroups _ hm)).bind fun x _ => ?_
      exact (entriesLoop_calm h hc hb fun c' h' => hk c' (by simp [h'])).bind fun _ _ => rfl

theorem mapping_calm (h : Inv b) (hc : Calls b) (hb : Orderly b) (len : Nat) : Calm (b.mappingSection len) := by
  have h1 := hb.mapped
  have h2 : FontModel.maxGlyphs = 56789 := rfl
  have hneg : ¬ (b.runeMapping.keys.any (· < 0)) = true := by
    rw [List.any_eq_true]
    rintro ⟨c, hm, hlt⟩
    obtain ⟨e, he, rfl⟩ := List.mem_map.1 hm
    have := hc.codePoints e he
    simp only [decide_eq_true_eq] at hlt
    omega
  rw [mappingSection]
  simp only
  rw [if_neg (by omega), if_neg hneg]
  refine (entriesLoop_calm h hc hb fun c hm => ?_).bind fun _ _ => rfl
  exact (isort_perm _ _).mem_iff.1 hm

/-! ## Sets -/

theorem glyphIndexE_calm (u : Nat) : Calm (b.glyphIndexE u) := by
  rw [glyphIndexE]; split <;> rfl

theorem rangeBytes_calm (r : Nat × Nat) : Calm (b.rangeBytes r) := by
  rw [rangeBytes]
  refine (glyphIndexE_calm _).bind fun i _ => ?_
  split
  · rfl
  · refine (glyphIndexE_calm _).bind fun j _ => ?_
    split
    · rfl
    · split <;> rfl

theorem setBytes_calm {s : GlyphSet} (h1 : s.ranges.length ≤ 254) (h2 : s.list.length ≤ 254) : Calm (b.setBytes s) := by
  rw [setBytes, if_neg (by omega), if_neg (by omega)]
  refine (mapRes_calm fun r _ => rangeBytes_calm r).bind fun _ _ => ?_
  exact (mapRes_calm fun u _ => (glyphIndexE_calm u).bind fun _ _ => rfl).bind fun _ _ => rfl

theorem checkSets_calm : ∀ {l : List Nat} {off : Nat}, (∀ u ∈ l, ∃ s, b.glyphSets.get u = some s) →
    Calm (b.checkSets off l)
  | [], _, _ => rfl
  | u :: l, off, h => by
    obtain ⟨s, hs⟩ := h u (by simp)
    rw [checkSets, hs]
    simp only
    split
    · rfl
    · exact checkSets_calm fun v hv => h v (by simp [hv])

/-- When no set has been removed the sets of the order exist. -/
theorem sets_exist (hc : Calls b) (hs : b.glyphSets.length = b.glyphSetsOrder.length) :
    ∀ u ∈ b.glyphSetsOrder, ∃ s, b.glyphSets.get u = some s := by
  have hp : b.glyphSets.keys.Perm b.glyphSetsOrder := by
    refine (List.subperm_of_subset hc.setKeys ?_).perm_of_length_le ?_
    · intro u hu
      obtain ⟨e, he, rfl⟩ := List.mem_map.1 hu
      exact hc.setOrder e he
    · rw [← hs]; simp [GoMap.keys]
  intro u hu
  cases hg : b.glyphSets.get u with
  | none => exact absurd (hp.mem_iff.2 hu) (GoMap.get_eq_none.1 hg)
  | some s => exact ⟨s, rfl⟩

theorem glyphSets_calm (hc : Calls b) (hb : Orderly b) : Calm b.glyphSetsSection := by
  have := hc.sets
  rw [glyphSetsSection, if_neg (by omega), if_neg (fun h => h hb.sets)]
  refine (checkSets_calm (sets_exist hc hb.sets)).bind fun _ _ => ?_
  refine (mapRes_calm fun s hs => ?_).bind fun _ _ => rfl
  obtain ⟨u, _, hu⟩ := List.mem_filterMap.1 hs
  have hm := GoMap.mem_of_get hu
  exact setBytes_calm (hb.ranges _ hm) (hb.lists _ hm)

/-! ## Rules -/

/-- The loop is at the `i`-th input. -/
structure Along (r : Rule) (l : List Bool) (s : RuleState) : Prop where
  groups : s.groupsIndex + s.accGroups = (l.take s.inIndex).count true
  elems : s.listIndex + s.accElems = (l.take s.inIndex).count false

theorem count_take_le (l : List Bool) (i : Nat) (v : Bool) : (l.take i).count v ≤ l.count v :=
  (List.take_sublist i l).count_le v

theorem flushFragment_calm {group : Nat → Res UInt8} {elem : Nat → Res Bytes} (hg : ∀ u, Calm (group u))
    (he : ∀ u, Calm (elem u)) {r : Rule} {l : List Bool} (h1 : l.count true = r.inGroups.length)
    (h2 : l.count false = r.inElems.length) {s : RuleState} (h : Along r l s) :
    Calm (flushFragment group elem r s) ∧ ∀ t, flushFragment group elem r s = .ok t →
      Along r l t ∧ t.inIndex = s.inIndex := by
  have g1 := h.groups; have g2 := h.elems
  have l1 := count_take_le l s.inIndex true
  have l2 := count_take_le l s.inIndex false
  rw [flushFragment, slice, if_pos ⟨by omega, by omega⟩, slice, if_pos ⟨by omega, by omega⟩]
  simp only [Res.ok_bind]
  constructor
  · refine Calm.bind ?_ fun _ _ => rfl
    rw [fragmentBytes]
    exact (mapRes_calm fun u _ => hg u).bind fun _ _ => (mapRes_calm fun u _ => he u).bind fun _ _ => rfl
  · intro t ht
    simp only [Res.bind_eq_ok, Res.pure_eq, Res.ok.injEq] at ht
    obtain ⟨_, _, rfl⟩ := ht
    exact ⟨⟨by simpa using g1, by simpa using g2⟩, rfl⟩

theorem blockLoop_calm {group : Nat → Res UInt8} {elem : Nat → Res Bytes} (hg : ∀ u, Calm (group u))
    (he : ∀ u, Calm (elem u)) {r : Rule} {l : List Bool} (hr : C02.Rep r.isGroup l)
    (h1 : l.count true = r.inGroups.length) (h2 : l.count false = r.inElems.length) :
    ∀ {n : Nat} {s : RuleState} {has : Bool}, Along r l s → s.inIndex + n ≤ l.length →
      Calm (blockLoop group elem r n s has) ∧ ∀ t, blockLoop group elem r n s has = .ok t →
        Along r l t.1 ∧ t.1.inIndex = s.inIndex + n
  | 0, s, has, h, hn => ⟨rfl, fun t ht => by rw [blockLoop] at ht; rw [← Res.ok.inj ht]; exact ⟨h, rfl⟩⟩
  | n + 1, s, has, h, hn => by
    have hi : s.inIndex < l.length := by omega
    have hget : r.isGroup.get s.inIndex = .ok l[s.inIndex] := by
      have := hr.size
      rw [BoolList.get, if_neg (by omega)]
      exact C02.get_rep hr hi
    have htake : l.take (s.inIndex + 1) = l.take s.inIndex ++ [l[s.inIndex]] := by
      rw [List.take_succ, List.getElem?_eq_getElem hi]; rfl
    rw [blockLoop, hget]
    simp only [Res.ok_bind]
    -- the state after the flush
    have key : ∀ x : Res RuleState, (Calm x ∧ ∀ t, x = .ok t → Along r l t ∧ t.inIndex = s.inIndex) →
        ∀ f : RuleState → Res (RuleState × Bool), (∀ t, Along r l t → t.inIndex = s.inIndex →
          Calm (f t) ∧ ∀ u, f t = .ok u → Along r l u.1 ∧ u.1.inIndex = s.inIndex + (n + 1)) →
        Calm (x >>= f) ∧ ∀ u, (x >>= f) = .ok u → Along r l u.1 ∧ u.1.inIndex = s.inIndex + (n + 1) := by
      intro x hx f hf
      refine ⟨hx.1.bind fun t ht => (hf t (hx.2 t ht).1 (hx.2 t ht).2).1, fun u hu => ?_⟩
      obtain ⟨t, ht, hu⟩ := Res.bind_eq_ok.1 hu
      exact (hf t (hx.2 t ht).1 (hx.2 t ht).2).2 u hu
    refine key _ ?_ _ ?_
    · generalize (if l[s.inIndex] = true then decide (s.accElems ≠ 0 ∨ s.accGroups = 15)
        else decide (s.accElems = 15)) = fl
      cases fl with
      | true => exact flushFragment_calm hg he h1 h2 h
      | false => exact ⟨rfl, fun t ht => by rw [← Res.ok.inj ht]; exact ⟨h, rfl⟩⟩
    · intro t ht hti
      have step : Along r l { (if l[s.inIndex] = true then { t with accGroups := t.accGroups + 1 }
          else { t with accElems := t.accElems + 1 } : RuleState) with inIndex := t.inIndex + 1 } := by
        have a1 := ht.groups; have a2 := ht.elems
        rw [hti] at a1 a2
        cases hv : l[s.inIndex] with
        | true =>
          rw [if_pos rfl]
          constructor
          · simp only; rw [hti, htake, hv]; simp; omega
          · simp only; rw [hti, htake, hv]; simp; omega
        | false =>
          rw [if_neg (by simp)]
          constructor
          · simp only; rw [hti, htake, hv]; simp; omega
          · simp only; rw [hti, htake, hv]; simp; omega
      have e : ({ (if l[s.inIndex] = true then { t with accGroups := t.accGroups + 1 }
          else { t with accElems := t.accElems + 1 } : RuleState) with inIndex := t.inIndex + 1 } : RuleState) =
          { (if l[s.inIndex] = true then { t with accGroups := t.accGroups + 1 }
          else { t with accElems := t.accElems + 1 } : RuleState) with
            inIndex := (if l[s.inIndex] = true then { t with accGroups := t.accGroups + 1 }
          else { t with accElems := t.accElems + 1 } : RuleState).inIndex + 1 } := by
        split <;> rfl
      rw [e] at step
      have hx : (if l[s.inIndex] = true then { t with accGroups := t.accGroups + 1 }
          else { t with accElems := t.accElems + 1 } : RuleState).inIndex = t.inIndex := by split <;> rfl
      obtain ⟨i1, i2⟩ := blockLoop_calm hg he hr h1 h2 (n := n) (has := has ||
        (if l[s.inIndex] = true then decide (s.accElems ≠ 0 ∨ s.accGroups = 15) else decide (s.accElems = 15)))
        step (by simp only; omega)
      refine ⟨i1, fun u hu => ?_⟩
      obtain ⟨j1, j2⟩ := i2 u hu
      exact ⟨j1, by simp only at j2; omega⟩

theorem blockBytes_calm {group : Nat → Res UInt8} {elem : Nat → Res Bytes} (hg : ∀ u, Calm (group u))
    (he : ∀ u, Calm (elem u)) {r : Rule} {l : List Bool} (hr : C02.Rep r.isGroup l)
    (h1 : l.count true = r.inGroups.length) (h2 : l.count false = r.inElems.length) {n : Nat} {s : RuleState}
    (h : Along r l s) (hn : s.inIndex + n ≤ l.length) :
    Calm (blockBytes group elem r n s) ∧ ∀ t, blockBytes group elem r n s = .ok t →
      Along r l t ∧ t.inIndex = s.inIndex + n := by
  obtain ⟨i1, i2⟩ := blockLoop_calm hg he hr h1 h2 (has := false) h hn
  rw [blockBytes]
  have hf : ∀ t : RuleState × Bool, Along r l t.1 → t.1.inIndex = s.inIndex + n →
      Calm (if t.1.accGroups > 0 ∨ t.1.accElems > 0 then flushFragment group elem r t.1
        else if !t.2 then return { t.1 with data := t.1.data ++ [0] } else return t.1) ∧
      ∀ u, (if t.1.accGroups > 0 ∨ t.1.accElems > 0 then flushFragment group elem r t.1
        else if !t.2 then return { t.1 with data := t.1.data ++ [0] } else return t.1 : Res RuleState) = .ok u →
        Along r l u ∧ u.inIndex = s.inIndex + n := by
    intro t ha hi
    split
    · obtain ⟨j1, j2⟩ := flushFragment_calm hg he h1 h2 ha
      exact ⟨j1, fun u hu => ⟨(j2 u hu).1, by rw [(j2 u hu).2, hi]⟩⟩
    · split
      · exact ⟨rfl, fun u hu => by rw [← Res.ok.inj hu]; exact ⟨⟨ha.groups, ha.elems⟩, hi⟩⟩
      · exact ⟨rfl, fun u hu => by rw [← Res.ok.inj hu]; exact ⟨ha, hi⟩⟩
  refine ⟨i1.bind fun t ht => (hf t (i2 t ht).1 (i2 t ht).2).1, fun u hu => ?_⟩
  obtain ⟨t, ht, hu⟩ := Res.bind_eq_ok.1 hu
  exact (hf t (i2 t ht).1 (i2 t ht).2).2 u hu

theorem count_both : ∀ l : List Bool, l.count true + l.count false = l.length
  | [] => rfl
  | true :: l => by have := count_both l; simp; omega
  | false :: l => by have := count_both l; simp; omega

theorem ruleBytes_calm {group : Nat → Res UInt8} {elem : Nat → Res Bytes} (hg : ∀ u, Calm (group u))
    (he : ∀ u, Calm (elem u)) {r : Rule} (hs : RuleShape r) (h0 : r.bodyLen ≠ 0) (ho : r.output.length ≤ 255) :
    Calm (ruleBytes group elem r) := by
  obtain ⟨l, hr, hl, h1, h2⟩ := hs
  have hb := count_both l
  rw [ruleBytes, if_neg (by omega), if_neg h0, if_neg (by omega)]
  refine (mapRes_calm fun u _ => he u).bind fun out _ => ?_
  obtain ⟨i1, i2⟩ := blockBytes_calm hg he hr h1 h2 (n := r.headLen)
    (s := { data := [byte r.condition, byte r.headLen, byte r.bodyLen, byte r.tailLen, byte r.output.length] ++ out.flatten })
    ⟨by simp, by simp⟩ (by simp only; omega)
  refine i1.bind fun s hs => ?_
  obtain ⟨a1, a2⟩ := i2 s hs
  simp only at a2
  obtain ⟨j1, j2⟩ := blockBytes_calm hg he hr h1 h2 (n := r.bodyLen) a1 (by omega)
  refine j1.bind fun t ht => ?_
  obtain ⟨b1, b2⟩ := j2 t ht
  exact (blockBytes_calm hg he hr h1 h2 (n := r.tailLen) b1 (by omega)).1.bind fun _ _ => rfl

theorem rulesLoop_calm {rule : Rule → Res Bytes} : ∀ {l : List Rule} {off : Nat}, (∀ r ∈ l, Calm (rule r)) →
    Calm (rulesLoop rule off l)
  | [], _, _ => rfl
  | r :: l, off, h => by
    rw [rulesLoop]
    refine (h r (by simp)).bind fun x _ => ?_
    split
    · rfl
    · exact (rulesLoop_calm fun x hx => h x (by simp [hx])).bind fun _ _ => rfl

theorem rulesSection_calm {rule : Rule → Res Bytes} {l : List Rule} (hl : l.length ≤ 65535)
    (h : ∀ r ∈ l, Calm (rule r)) : Calm (rulesSection rule l) := by
  rw [rulesSection, if_neg (by omega)]
  exact (rulesLoop_calm h).bind fun _ _ => rfl

theorem utf8Rules_calm (hc : Calls b) (hb : Orderly b) :
    Calm (rulesSection (ruleBytes noGroup runeElem) b.utf8Rules) :=
  rulesSection_calm hb.utf8Rules fun r hr => by
    obtain ⟨h1, h2, h3⟩ := hc.utf8Rules r hr
    exact ruleBytes_calm (fun _ => rfl) (fun _ => rfl) h1 h2 (by omega)

theorem glyphRules_calm (hc : Calls b) (hb : Orderly b) :
    Calm (rulesSection (ruleBytes b.groupRef b.glyphElem) b.glyphRules) :=
  rulesSection_calm hb.glyphRules fun r hr =>
    ruleBytes_calm (fun u => by rw [groupRef]; split <;> rfl)
      (fun u => (glyphIndexE_calm u).bind fun _ _ => rfl) (hc.glyphRules r hr) (hb.bodies r hr) (hb.outputs r hr)

/-! ## Words -/

theorem settingWords_calm {env : Env} (hf : Fair env)
    (hz : ∃ k, 0 < k ∧ k < 256 ∧ env.predef k = env.predef 0) : Calm (settingWords env b) := by
  obtain ⟨hn, -⟩ := appendWords_spec (b.settings.map (·.options)).flatten [] (by simp [GoMap.keys])
  unfold settingWords
  generalize appendWords (b.settings.map (·.options)).flatten [] = W at *
  simp only
  split
  · rfl
  refine Calm.bind ?_ fun _ _ => rfl
  have hlist := builtin_lists env.predef
  have hpos : ∀ w v, (builtinWords env.predef).get w = some v → 0 < v ∧ v < 256 := by
    intro w v hv
    obtain ⟨h2, h3, h4, h5⟩ := hlist.here w v hv
    obtain ⟨k, hk, hk', hkz⟩ := hz
    by_cases hv0 : v = 0
    · subst hv0
      have := h5 k (by omega) (hkz.trans h4)
      omega
    · omega
  unfold organizeWords
  by_cases hc : W.length > 255
  · rw [if_pos hc]; rfl
  rw [if_neg hc]
  have hp := hf.organize 0 W.keys
  obtain ⟨W1, cust1, minB1, e1, i1, k1, m1⟩ := organizeLoop_spec hpos (env.organizeOrder 0 W.keys) [] 65535 W
    (hp.nodup_iff.2 hn) (fun w hw => hp.mem_iff.1 hw) (by simp)
    ⟨by simp, fun j h => by simp at h, fun w i hw => .inr (.inl (hp.mem_iff.2 (GoMap.mem_keys_of_get hw))),
      fun w i hw _ hw' => absurd (hp.mem_iff.2 (GoMap.mem_keys_of_get hw)) hw', .inl rfl⟩
  rw [List.length_nil] at e1
  rw [e1]
  have hl1 : W1.length = W.length := by
    have := congrArg List.length k1
    simpa [GoMap.keys] using this
  obtain ⟨W2, cust2, e2, -⟩ := resolveLoop_spec (builtin := builtinWords env.predef) hf.organize
    (W1.length + 1) 1 cust1 minB1 W1 (by rw [k1]; exact hn) (by omega) (by omega) i1
  simp only [e2, Res.ok_bind]
  rfl

theorem checkWordsList_ok {n : Nat} : ∀ {l : GoMap Bytes Int}, (∀ e ∈ l, 0 ≤ e.2 ∧ e.2 < n) →
    checkWordsList n l = .ok ()
  | [], _ => rfl
  | (w, i) :: l, h => by
    have := h (w, i) (by simp)
    simp only at this
    rw [checkWordsList, if_neg (by omega)]
    exact checkWordsList_ok fun x hx => h x (by simp [hx])

theorem stores_entries {predef : Nat → Bytes} {words : GoMap Bytes Int} {cust : List Bytes}
    (h : Stores predef b words cust) : ∀ e ∈ words, 0 ≤ e.2 ∧ e.2 < words.length := by
  intro e he
  have hw : e.1 ∈ cust := h.perm.mem_iff.1 (List.mem_map.2 ⟨e, he, rfl⟩)
  obtain ⟨j, hj, hje⟩ := List.getElem_of_mem hw
  have hnd : words.keys.Nodup := h.perm.nodup_iff.2 h.nodup
  have h1 := h.index j hj
  rw [hje] at h1
  have h2 := GoMap.get_of_mem hnd he
  rw [h1] at h2
  have h3 := h.perm.length_eq
  rw [GoMap.keys, List.length_map] at h3
  have := Option.some.inj h2
  omega

theorem words_exists {env : Env} {words : GoMap Bytes Int} {cust : List Bytes}
    (h : Stores env.predef b words cust) : ∃ x, wordsSection env words = .ok x := by
  have h3 := h.perm.length_eq
  rw [GoMap.keys, List.length_map] at h3
  have := h.count
  rw [wordsSection, if_neg (by omega)]
  split
  · exact ⟨_, rfl⟩
  · rw [checkWordsList_ok (stores_entries h)]
    exact ⟨_, rfl⟩

theorem settingDefs_exists {env : Env} {words builtin : GoMap Bytes Int} {cust : List Bytes}
    (h : Stores env.predef b words cust)
    (hb : words = [] ∧ builtin = [] ∧ (∀ w, ¬ IsOption b w) ∨ builtin = builtinWords env.predef) :
    ∃ x, b.settingDefsSection builtin words = .ok x := by
  obtain ⟨r, hr⟩ := mapRes_exists (f := fun s : Setting => mapRes (optionByte builtin words) s.options)
    (l := b.settings) (by
      intro s hs
      refine mapRes_exists fun w hw => ?_
      have ho : IsOption b w := ⟨s, hs, hw⟩
      by_cases hc : w ∈ cust
      · obtain ⟨j, hj, rfl⟩ := List.getElem_of_mem hc
        have := h.count
        rw [optionByte, h.index j hj]
        simp only [Res.ok_bind]
        rw [if_neg (by omega)]
        exact ⟨_, rfl⟩
      · obtain ⟨h1, i, h2, _, h3, _⟩ := h.rest w ho hc
        rcases hb with ⟨_, _, hno⟩ | hb
        · exact absurd ho (hno w)
        · rw [← hb] at h2
          rw [optionByte, h1]
          simp only [h2, Res.ok_bind]
          rw [if_neg (by omega)]
          exact ⟨_, rfl⟩)
  exact ⟨_, by rw [settingDefsSection, hr]; rfl⟩

/-! ## The whole -/

theorem metricsStatus_calm : Calm b.metricsStatus := by
  rw [metricsStatus]
  repeat' split
  all_goals rfl

/-- The builder in use after the main dye has been added. -/
theorem orderly_dyes (h : Orderly b) {l : List Dye} (hl : l.length + b.palettes.length ≤ 255) :
    Orderly { b with dyes := l } :=
  ⟨hl, h.mapped, h.mapGlyphs, h.mapGroups, h.sets, h.ranges, h.lists, h.utf8Rules, h.glyphRules,
    h.bodies, h.outputs, h.horzCount, h.vertCount, h.horzGlyphs, h.vertPairs, h.classes⟩

theorem build_calm (hr : Reachable b) (hb : Orderly b) {env : Env} (hf : Fair env)
    (he : ∀ u g, b.glyphData.get u = some g → Encodes env g.mask) (hz : ∃ k, 0 < k ∧ k < 256 ∧ env.predef k = env.predef 0) :
    Calm (build env b) := by
  have hi := hr.inv
  have hc := hr.calls
  have hlen : b.glyphData.length = b.glyphOrder.length := by
    have := congrArg List.length hi.sync
    simpa [GoMap.keys] using this
  have hmax : FontModel.maxGlyphs = 56789 := rfl
  have h0 := hc.count
  have hsec := hb.sections
  unfold build
  rw [if_neg (by omega), if_neg (fun h => h hlen)]
  split
  · rfl
  refine (Calm.of (header_exists hc)).bind fun header _ => ?_
  refine metricsStatus_calm.bind fun _ _ => ?_
  rw [if_neg (by omega)]
  obtain ⟨b', hm, hb'⟩ := main_exists (b := b)
  rw [hm, Res.ok_bind]
  have hr' : Reachable b' ∧ Orderly b' ∧ ∀ u g, b'.glyphData.get u = some g → Encodes env g.mask := by
    rcases hb' with rfl | ⟨hs, hcall, rfl⟩
    · exact ⟨hr, hb, he⟩
    · obtain ⟨e, hed, rfl⟩ := hr
      exact ⟨⟨_, hed.call hcall, rfl⟩, orderly_dyes hb (by simp; omega), he⟩
  clear hi hc hlen h0 hsec hm hb' hb hr he
  obtain ⟨hr, hb, he⟩ := hr'
  have hi := hr.inv
  have hc := hr.calls
  have hlen : b'.glyphData.length = b'.glyphOrder.length := by
    have := congrArg List.length hi.sync
    simpa [GoMap.keys] using this
  have hord : b'.glyphOrder.length ≤ 65536 := by have := hc.count; omega
  simp only
  refine (Calm.of (dyes_exists hi.colors)).bind fun _ _ => ?_
  refine (Calm.of (palettes_exists hi.colors)).bind fun _ _ => ?_
  refine (glyphNames_calm hi).bind fun _ _ => ?_
  refine (Calm.of (masks_exists hi he)).bind fun _ _ => ?_
  refine (settingWords_calm hf hz).bind fun w hw => ?_
  obtain ⟨words, builtin⟩ := w
  obtain ⟨⟨cust, hst, _⟩, hbu⟩ := settingWords_spec hf hz hw
  simp only
  refine (Calm.of (words_exists hst)).bind fun _ _ => ?_
  refine (Calm.of (settingNames_exists hi.settings)).bind fun _ _ => ?_
  refine (Calm.of (settingDefs_exists hst hbu)).bind fun _ _ => ?_
  refine (Calm.of (switches_exists hc hi.settings)).bind fun _ _ => ?_
  refine (mapping_calm hi hc hb _).bind fun _ _ => ?_
  refine (Calm.of (conditions_exists hi.conditions)).bind fun _ _ => ?_
  refine (Calm.of (utf8Sets_exists hc.runeSets)).bind fun _ _ => ?_
  refine (glyphSets_calm hc hb).bind fun _ _ => ?_
  refine (utf8Rules_calm hc hb).bind fun _ _ => ?_
  refine (glyphRules_calm hc hb).bind fun _ _ => ?_
  have k1 := hb.horzCount
  have k2 := hb.vertCount
  rw [if_neg (by omega), if_neg (by omega)]
  have hg : ∀ p ∈ b'.horzKern.keys, p.1 ∈ b'.glyphOrder ∧ p.2 ∈ b'.glyphOrder := by
    intro p hp
    obtain ⟨e, he, rfl⟩ := List.mem_map.1 hp
    exact hb.horzGlyphs e he
  have hv : ∀ p ∈ b'.vertKern.keys, p ∈ b'.horzKern.keys := by
    intro p hp
    obtain ⟨e, he, rfl⟩ := List.mem_map.1 hp
    obtain ⟨e', he', h'⟩ := hb.vertPairs e he
    exact List.mem_map.2 ⟨e', he', h'⟩
  refine (Calm.of (kernSection_exists hi.kern.order hord hi.kern.horz hg (fun _ h => h) hb.classes)).bind
    fun _ _ => ?_
  refine (Calm.of (kernSection_exists hi.kern.order hord hi.kern.vert (fun p hp => hg p (hv p hp)) hv
    hb.classes)).bind fun _ _ => ?_
  split <;> rfl

end Builder
end BuilderModel
