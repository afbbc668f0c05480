import Verif.Lemmas.Refs
import Verif.Lemmas.BuiltNames
import Verif.Lemmas.RuleCode

/-! # The errors of `Build` -/

namespace Go

/-- The errors satisfy `P`. -/
def Errs {α : Type} (P : String → Prop) (x : Res α) : Prop := ∀ m, x = .err m → P m

variable {α β : Type} {P : String → Prop}

theorem Errs.bind {x : Res α} {f : α → Res β} (hx : Errs P x) (hf : ∀ a, x = .ok a → Errs P (f a)) :
    Errs P (x >>= f) := by
  cases x with
  | ok a => exact hf a rfl
  | err m => intro m' h; cases h; exact hx m rfl
  | panic m => intro m' h; cases h

theorem Errs.ok (a : α) : Errs P (.ok a) := fun _ h => by cases h
theorem Errs.panic (m : String) : Errs P (.panic m : Res α) := fun _ h => by cases h
theorem Errs.err {m : String} (h : P m) : Errs P (.err m : Res α) := fun _ e => by cases e; exact h
theorem Errs.of {x : Res α} (h : ∃ a, x = .ok a) : Errs P x := by
  obtain ⟨a, rfl⟩ := h; exact Errs.ok a

theorem Errs.ite {c : Prop} [Decidable c] {x y : Res α} (hx : c → Errs P x) (hy : ¬ c → Errs P y) :
    Errs P (if c then x else y) := by
  split
  · exact hx ‹_›
  · exact hy ‹_›

end Go

namespace BuilderModel
open Go Helpers Spec

variable {P : String → Prop}

theorem mapRes_errs {α β : Type} {f : α → Res β} : ∀ {l : List α}, (∀ a ∈ l, Errs P (f a)) → Errs P (mapRes f l)
  | [], _ => Errs.ok _
  | a :: l, h => (h a (by simp)).bind fun _ _ => (mapRes_errs fun x hx => h x (by simp [hx])).bind fun _ _ => Errs.ok _

namespace Builder
variable {b : Builder}

/-! ## Rules -/

theorem slice_errs {α : Type} {l : List α} {i j : Nat} : Errs P (slice l i j) := by
  rw [slice]; split
  · exact Errs.ok _
  · exact Errs.panic _

theorem slice_mem {α : Type} {l r : List α} {i j : Nat} (h : slice l i j = .ok r) : ∀ a ∈ r, a ∈ l := by
  rw [slice] at h
  split at h
  · rw [← Res.ok.inj h]
    intro a ha
    first
    | exact List.mem_of_mem_drop (List.mem_of_mem_take ha)
    | exact List.mem_of_mem_take (List.mem_of_mem_drop ha)
  · cases h

section
variable {group : Nat → Res UInt8} {elem : Nat → Res Bytes} {r : Rule}

theorem flushFragment_errs (hg : ∀ u ∈ r.inGroups, Errs P (group u)) (he : ∀ u ∈ r.inElems, Errs P (elem u))
    (s : RuleState) : Errs P (flushFragment group elem r s) := by
  rw [flushFragment]
  refine slice_errs.bind fun gs h1 => slice_errs.bind fun es h2 => Errs.bind ?_ fun _ _ => Errs.ok _
  rw [fragmentBytes]
  exact (mapRes_errs fun u hu => hg u (slice_mem h1 u hu)).bind fun _ _ =>
    (mapRes_errs fun u hu => he u (slice_mem h2 u hu)).bind fun _ _ => Errs.ok _

theorem boolList_get_errs (l : BoolList) (i : Nat) : Errs P (l.get i) := by
  rw [BoolList.get]
  split
  · exact Errs.panic _
  · simp only [idx]
    split
    · exact Errs.ok _
    · exact Errs.panic _

theorem blockLoop_errs (hg : ∀ u ∈ r.inGroups, Errs P (group u)) (he : ∀ u ∈ r.inElems, Errs P (elem u)) :
    ∀ (n : Nat) (s : RuleState) (has : Bool), Errs P (blockLoop group elem r n s has)
  | 0, _, _ => Errs.ok _
  | n + 1, s, has => by
    rw [blockLoop]
    refine (boolList_get_errs _ _).bind fun v _ => ?_
    simp only
    refine Errs.bind ?_ fun t _ => blockLoop_errs hg he n _ _
    generalize (if v = true then decide (s.accElems ≠ 0 ∨ s.accGroups = 15) else decide (s.accElems = 15)) = fl
    cases fl with
    | true => exact flushFragment_errs hg he s
    | false => exact Errs.ok _

theorem blockBytes_errs (hg : ∀ u ∈ r.inGroups, Errs P (group u)) (he : ∀ u ∈ r.inElems, Errs P (elem u))
    (n : Nat) (s : RuleState) : Errs P (blockBytes group elem r n s) := by
  rw [blockBytes]
  refine (blockLoop_errs hg he n s false).bind fun t _ => ?_
  obtain ⟨t, has⟩ := t
  simp only
  split
  · exact flushFragment_errs hg he t
  · split <;> exact Errs.ok _

theorem ruleBytes_errs (hg : ∀ u ∈ r.inGroups, Errs P (group u)) (he : ∀ u ∈ r.inElems, Errs P (elem u))
    (ho : ∀ u ∈ r.output, Errs P (elem u)) : Errs P (ruleBytes group elem r) := by
  rw [ruleBytes]
  refine Errs.ite (fun _ => Errs.panic _) fun _ => Errs.ite (fun _ => Errs.panic _) fun _ =>
    Errs.ite (fun _ => Errs.panic _) fun _ => ?_
  refine (mapRes_errs ho).bind fun _ _ => ?_
  exact (blockBytes_errs hg he _ _).bind fun _ _ => (blockBytes_errs hg he _ _).bind fun _ _ =>
    (blockBytes_errs hg he _ _).bind fun _ _ => Errs.ok _
end

theorem rulesLoop_errs {rule : Rule → Res Bytes} : ∀ {l : List Rule} {off : Nat}, (∀ r ∈ l, Errs TooLarge (rule r)) →
    Errs TooLarge (rulesLoop rule off l)
  | [], _, _ => Errs.ok _
  | r :: l, off, h => by
    rw [rulesLoop]
    refine (h r (by simp)).bind fun x _ => Errs.ite (fun _ => Errs.err (.inr rfl)) fun _ => ?_
    exact (rulesLoop_errs fun x hx => h x (by simp [hx])).bind fun _ _ => Errs.ok _

theorem rulesSection_errs {rule : Rule → Res Bytes} {l : List Rule} (h : ∀ r ∈ l, Errs TooLarge (rule r)) :
    Errs TooLarge (rulesSection rule l) := by
  rw [rulesSection]
  exact Errs.ite (fun _ => Errs.panic _) fun _ => (rulesLoop_errs h).bind fun _ _ => Errs.ok _

theorem utf8Rules_errs (h : Refs b) : Errs TooLarge (rulesSection (ruleBytes noGroup runeElem) b.utf8Rules) :=
  rulesSection_errs fun r hr => ruleBytes_errs (fun u hu => by rw [h.utf8 r hr] at hu; cases hu)
    (fun _ _ => Errs.ok _) (fun _ _ => Errs.ok _)

theorem glyphIndexE_exists (hn : b.glyphOrder.Nodup) (hl : b.glyphOrder.length ≤ 65536) {u : Nat}
    (hu : u ∈ b.glyphOrder) : b.glyphIndexE u = .ok (b.glyphOrder.idxOf u) :=
  (glyphIndexE_iff hn hl).2 (getElem?_idxOf' hu)

theorem glyphRules_errs (h : Refs b) (hn : b.glyphOrder.Nodup) (hl : b.glyphOrder.length ≤ 65536)
    (hs : b.glyphSetsOrder.Nodup) (hsl : b.glyphSetsOrder.length ≤ 65536) :
    Errs TooLarge (rulesSection (ruleBytes b.groupRef b.glyphElem) b.glyphRules) := by
  have he : ∀ u ∈ b.glyphOrder, Errs TooLarge (b.glyphElem u) := fun u hu => by
    rw [glyphElem, glyphIndexE_exists hn hl hu]; exact Errs.ok _
  refine rulesSection_errs fun r hr => ruleBytes_errs (fun u hu => ?_) (fun u hu => he u (h.elems r hr u hu))
    (fun u hu => he u (h.outputs r hr u hu))
  have := (setIndex_iff hs hsl).2 (getElem?_idxOf' (h.groups r hr u hu))
  rw [groupRef, this]
  exact Errs.ok _

/-! ## Sets -/

theorem setCost_eq (s : GlyphSet) : setSize s = setCost s := by
  simp only [setSize, setCost, Nat.shiftLeft_eq]; omega

theorem rangeBytes_iff (hn : b.glyphOrder.Nodup) (hl : b.glyphOrder.length ≤ 65536) {r : Nat × Nat}
    (h1 : r.1 ∈ b.glyphOrder) (h2 : r.2 ∈ b.glyphOrder) : (∃ x, b.rangeBytes r = .ok x) ↔ InOrder b r := by
  rw [rangeBytes, glyphIndexE_exists hn hl h1, InOrder]
  simp only [Res.ok_bind]
  by_cases he : r.1 = r.2
  · rw [if_pos he, he]
    exact ⟨fun _ => ⟨Nat.le_refl _, by omega⟩, fun _ => ⟨_, rfl⟩⟩
  · rw [if_neg he, glyphIndexE_exists hn hl h2]
    simp only [Res.ok_bind]
    by_cases h3 : b.glyphOrder.idxOf r.2 < b.glyphOrder.idxOf r.1
    · rw [if_pos h3]
      exact ⟨fun h => (by obtain ⟨_, h⟩ := h; cases h), fun h => by omega⟩
    · rw [if_neg h3]
      by_cases h4 : b.glyphOrder.idxOf r.2 - b.glyphOrder.idxOf r.1 > 255
      · rw [if_pos h4]
        exact ⟨fun h => (by obtain ⟨_, h⟩ := h; cases h), fun h => by omega⟩
      · rw [if_neg h4]
        exact ⟨fun _ => by omega, fun _ => ⟨_, rfl⟩⟩

theorem checkSets_errs : ∀ {l : List Nat} {off : Nat},
    off + ((l.filterMap fun u => b.glyphSets.get u).map setSize).sum ≤ 65535 → Errs P (b.checkSets off l)
  | [], _, _ => Errs.ok _
  | u :: l, off, h => by
    rw [checkSets]
    cases hs : b.glyphSets.get u with
    | none => exact Errs.panic _
    | some s =>
      simp only [List.filterMap_cons, hs, List.map_cons, List.sum_cons] at h
      simp only
      rw [if_neg (by omega)]
      exact checkSets_errs (by omega)

/-- When no set has been removed the order lists the keys. -/
theorem order_perm (hc : Calls b) (hs : b.glyphSets.length = b.glyphSetsOrder.length) :
    b.glyphSets.keys.Perm b.glyphSetsOrder := by
  refine (List.subperm_of_subset hc.setKeys ?_).perm_of_length_le ?_
  · intro u hu
    obtain ⟨e, he, rfl⟩ := List.mem_map.1 hu
    exact hc.setOrder e he
  · rw [← hs]; simp [GoMap.keys]

theorem sets_sum (hc : Calls b) (hs : b.glyphSets.length = b.glyphSetsOrder.length) :
    (b.setsInOrder.map setSize).sum = (b.glyphSets.map fun s => setCost s.2).sum := by
  have hp := (order_perm hc hs).symm.filterMap fun u => b.glyphSets.get u
  have h1 : (b.setsInOrder.map setSize).sum = ((b.glyphSets.keys.filterMap fun u => b.glyphSets.get u).map setSize).sum :=
    (hp.map setSize).sum_nat
  have h2 : b.glyphSets.keys.filterMap (fun u => b.glyphSets.get u) = b.glyphSets.map Prod.snd := by
    rw [GoMap.keys, List.filterMap_map, ← List.filterMap_eq_map]
    refine List.filterMap_congr fun e he => ?_
    exact GoMap.get_of_mem hc.setKeys he
  rw [h1, h2, List.map_map]
  congr 1
  exact List.map_congr_left fun e _ => setCost_eq e.2

theorem glyphSets_errs (hc : Calls b) (hr : Refs b) (hn : b.glyphOrder.Nodup) (hl : b.glyphOrder.length ≤ 65536)
    (hs : (b.glyphSets.map fun s => setCost s.2).sum ≤ 65535)
    (ho : ∀ s ∈ b.glyphSets, ∀ r ∈ s.2.ranges, InOrder b r) : Errs P b.glyphSetsSection := by
  rw [glyphSetsSection]
  refine Errs.ite (fun _ => Errs.panic _) fun _ => Errs.ite (fun _ => Errs.panic _) fun hlen => ?_
  have hlen := Classical.not_not.1 hlen
  have hsum := sets_sum hc hlen
  rw [setsInOrder] at hsum
  refine (checkSets_errs (by omega)).bind fun _ _ => (mapRes_errs fun s hs => ?_).bind fun _ _ => Errs.ok _
  obtain ⟨u, _, hu⟩ := List.mem_filterMap.1 hs
  have hm := GoMap.mem_of_get hu
  rw [setBytes]
  refine Errs.ite (fun _ => Errs.panic _) fun _ => Errs.ite (fun _ => Errs.panic _) fun _ => ?_
  refine (mapRes_errs fun r hr' => ?_).bind fun _ _ => (mapRes_errs fun u hu => ?_).bind fun _ _ => Errs.ok _
  · obtain ⟨h1, h2⟩ := hr.ranges _ hm r hr'
    exact Errs.of ((rangeBytes_iff hn hl h1 h2).2 (ho _ hm r hr'))
  · rw [glyphIndexE_exists hn hl (hr.lists _ hm u hu)]
    exact Errs.ok _

theorem glyphSets_wellMade (hc : Calls b) (hr : Refs b) (hn : b.glyphOrder.Nodup) (hl : b.glyphOrder.length ≤ 65536)
    {x : Bytes} (h : b.glyphSetsSection = .ok x) : (b.glyphSets.map fun s => setCost s.2).sum ≤ 65535 ∧
      ∀ s ∈ b.glyphSets, ∀ r ∈ s.2.ranges, InOrder b r := by
  simp only [glyphSetsSection, ite_panic, Res.bind_eq_ok] at h
  obtain ⟨_, h1, _, h2, r, h3, -⟩ := h
  have hsum := sets_sum hc (Classical.not_not.1 h1)
  have := (checkSets_ok h2).2.2 (by omega)
  rw [setsInOrder] at hsum
  refine ⟨by omega, fun s hs r hr' => ?_⟩
  obtain ⟨y, hy⟩ := mapRes_mem h3 s.2 (List.mem_filterMap.2 ⟨s.1, hc.setOrder s hs, GoMap.get_of_mem hc.setKeys hs⟩)
  simp only [setBytes, ite_panic, Res.bind_eq_ok] at hy
  obtain ⟨_, _, rs, hrs, -⟩ := hy
  obtain ⟨m1, m2⟩ := hr.ranges s hs r hr'
  exact (rangeBytes_iff hn hl m1 m2).1 (mapRes_mem hrs r hr')

/-! ## Mapping -/

theorem glyphIndexP_errs (u : Nat) : Errs P (b.glyphIndexP u) := by
  rw [glyphIndexP]; split
  · exact Errs.ok _
  · exact Errs.panic _

theorem groupBytes_errs (g : MapGroup) : Errs P (b.groupBytes g) := by
  rw [groupBytes]
  refine Errs.ite (fun _ => Errs.panic _) fun _ => (mapRes_errs fun u _ => glyphIndexP_errs u).bind fun is _ => ?_
  split
  · exact Errs.ok _
  · exact Errs.ite (fun _ => Errs.ok _) fun _ => Errs.ok _

theorem casesBytes_errs : ∀ (gs : List MapGroup) (len : Nat), Errs TooLarge (b.casesBytes len gs)
  | [], _ => Errs.ok _
  | g :: gs, len => by
    rw [casesBytes]
    refine (groupBytes_errs g).bind fun x _ => Errs.ite (fun _ => Errs.err (.inl rfl)) fun _ => ?_
    exact (casesBytes_errs gs _).bind fun _ _ => Errs.ok _

theorem entryBytes_errs (len : Nat) (e : MapEntry) : Errs TooLarge (b.entryBytes len e) := by
  rw [entryBytes]
  split
  · split
    · split
      · exact (glyphIndexP_errs _).bind fun _ _ => Errs.ok _
      · exact Errs.panic _
    · exact Errs.panic _
  · split
    · split
      · exact Errs.ite (fun _ => Errs.panic _) fun _ => (groupBytes_errs _).bind fun _ _ => Errs.ok _
      · exact Errs.panic _
    · exact (casesBytes_errs _ _).bind fun _ _ => Errs.ok _

theorem numCasesLoop_errs : ∀ (l : List Nat) (i : Nat) (n : Int), Errs P (b.numCasesLoop l i n)
  | [], _, _ => Errs.ok _
  | s :: l, i, n => by
    rw [numCasesLoop]
    refine Errs.bind ?_ fun x _ => Errs.ite (fun _ => Errs.panic _) fun _ => numCasesLoop_errs l _ _
    rw [idx]; split
    · exact Errs.ok _
    · exact Errs.panic _

theorem computeNumSwitchCases_errs (i : Nat) : Errs P (b.computeNumSwitchCases i) := by
  rw [computeNumSwitchCases]
  refine Errs.ite (fun _ => Errs.ok _) fun _ => Errs.bind ?_ fun _ _ => numCasesLoop_errs _ _ _
  rw [idx]; split
  · exact Errs.ok _
  · exact Errs.panic _

theorem entriesLoop_errs : ∀ (cs : List Int) (len : Nat), Errs TooLarge (b.entriesLoop len cs)
  | [], _ => Errs.ok _
  | c :: cs, len => by
    rw [entriesLoop]
    split
    · exact Errs.panic _
    · refine (computeNumSwitchCases_errs _).bind fun n _ => Errs.ite (fun _ => Errs.panic _) fun _ => ?_
      exact (entryBytes_errs _ _).bind fun _ _ => (entriesLoop_errs cs _).bind fun _ _ => Errs.ok _

theorem mapping_errs (len : Nat) : Errs TooLarge (b.mappingSection len) := by
  rw [mappingSection]
  exact Errs.ite (fun _ => Errs.panic _) fun _ => Errs.ite (fun _ => Errs.panic _) fun _ =>
    (entriesLoop_errs _ _).bind fun _ _ => Errs.ok _

/-! ## Names -/

theorem checkDuplicates_nodup : ∀ {l : List Bytes} {prev : Bytes}, (prev :: l).Nodup → checkDuplicates prev l = .ok ()
  | [], _, _ => rfl
  | n :: l, prev, h => by
    rw [List.nodup_cons] at h
    rw [checkDuplicates, if_neg fun e => h.1 (by simp [e])]
    exact checkDuplicates_nodup h.2

theorem sorted_names (hi : Inv b) (h : ∀ u v g h, b.glyphData.get u = some g → b.glyphData.get v = some h →
    g.name = h.name → g.name ≠ [] → u = v) {named : List (Nat × Bytes)} (hn : b.namedLoop b.glyphOrder = .ok named) :
    ([] :: (isort nameLe named).map (·.2)).Nodup := by
  obtain ⟨hsub, hmem⟩ := namedLoop_ok hn
  have hnd : (named.map (·.1)).Nodup := hsub.nodup hi.kern.order
  have hp := isort_perm nameLe named
  rw [List.nodup_cons]
  constructor
  · intro hx
    obtain ⟨e, he, h0⟩ := List.mem_map.1 hx
    exact ((hmem e.1 e.2).1 (hp.mem_iff.1 he)).2.1 h0
  · refine (hp.map _).nodup_iff.2 ?_
    refine List.pairwise_map.2 ((List.pairwise_map.1 hnd).imp_of_mem ?_)
    intro x y hx hy hne hxy
    refine hne ?_
    obtain ⟨_, h1, g1, h2, h3⟩ := (hmem x.1 x.2).1 hx
    obtain ⟨_, h4, g2, h5, h6⟩ := (hmem y.1 y.2).1 hy
    exact h x.1 y.1 g1 g2 h2 h5 (by rw [h3, h6, hxy]) (by rw [h3]; exact h1)

theorem glyphNames_exists (hi : Inv b) (h : ∀ u v g h, b.glyphData.get u = some g → b.glyphData.get v = some h →
    g.name = h.name → g.name ≠ [] → u = v) : ∃ x, b.glyphNamesSection = .ok x := by
  obtain ⟨named, hn⟩ := namedLoop_exists hi (l := b.glyphOrder) fun _ hu => hu
  rw [glyphNamesSection, hn]
  simp only [Res.ok_bind]
  split
  · exact ⟨_, rfl⟩
  · rw [checkDuplicates_nodup (sorted_names hi h hn)]
    exact ⟨_, rfl⟩

theorem nodup_map_inj {α β : Type} {f : α → β} : ∀ {l : List α}, (l.map f).Nodup → ∀ {x y}, x ∈ l → y ∈ l →
    f x = f y → x = y
  | a :: l, h, x, y, hx, hy, e => by
    rw [List.map_cons, List.nodup_cons] at h
    by_cases h1 : x = a <;> by_cases h2 : y = a
    · rw [h1, h2]
    · exact absurd (List.mem_map.2 ⟨y, (List.mem_cons.1 hy).resolve_left h2, by rw [← e, h1]⟩) h.1
    · exact absurd (List.mem_map.2 ⟨x, (List.mem_cons.1 hx).resolve_left h1, by rw [e, h2]⟩) h.1
    · exact nodup_map_inj h.2 ((List.mem_cons.1 hx).resolve_left h1) ((List.mem_cons.1 hy).resolve_left h2) e

theorem glyphNames_wellMade (hi : Inv b) {x : Bytes} (h : b.glyphNamesSection = .ok x) :
    ∀ u v g h, b.glyphData.get u = some g → b.glyphData.get v = some h → g.name = h.name → g.name ≠ [] → u = v := by
  simp only [glyphNamesSection, Res.bind_eq_ok] at h
  obtain ⟨named, hn, h⟩ := h
  obtain ⟨hsub, hmem⟩ := namedLoop_ok hn
  have hin : ∀ {u g}, b.glyphData.get u = some g → g.name ≠ [] → (u, g.name) ∈ named := by
    intro u g hg hne
    refine (hmem u g.name).2 ⟨?_, hne, g, hg, rfl⟩
    rw [← hi.sync]; exact GoMap.mem_keys_of_get hg
  intro u v g g' hu hv he hne
  have m1 := hin hu hne
  have m2 := hin hv (he ▸ hne)
  split at h
  · rename_i h0; rw [h0] at m1; cases m1
  · simp only [Res.bind_eq_ok] at h
    obtain ⟨_, hd, -⟩ := h
    have hp := isort_perm nameLe named
    have hle : ((isort nameLe named).map (·.2)).Pairwise (fun x y => x ≤ y) := by
      rw [List.pairwise_map]; exact nameLe_pairwise named
    have := (List.nodup_cons.1 (checkDuplicates_ok hle (fun n _ => List.nil_le n) hd)).2
    have hnd : (named.map (·.2)).Nodup := (hp.map _).nodup_iff.1 this
    have := nodup_map_inj hnd m1 m2 he
    exact congrArg Prod.fst this

/-! ## Words -/

theorem fewWords_iff : FewWords b ↔ (appendWords (b.settings.map (·.options)).flatten []).length ≤ 255 := by
  obtain ⟨hn, hm⟩ := appendWords_spec (b.settings.map (·.options)).flatten [] (by simp [GoMap.keys])
  generalize appendWords (b.settings.map (·.options)).flatten [] = W at *
  have ho : ∀ w, IsOption b w ↔ w ∈ W.keys := by
    intro w
    rw [hm, IsOption]
    simp [GoMap.keys]
  have hl : W.length = W.keys.length := by simp [GoMap.keys]
  constructor
  · rintro ⟨l, h1, h2⟩
    have : W.keys.Subperm l := List.subperm_of_subset hn fun w hw => h2 w ((ho w).2 hw)
    have := this.length_le
    omega
  · intro h
    exact ⟨W.keys, by omega, fun w hw => (ho w).1 hw⟩

theorem resolveLoop_errs (order : Nat → List Bytes → List Bytes) : ∀ (fuel pass : Nat) (words : GoMap Bytes Int)
    (custom minB : Nat), Errs P (resolveLoop order fuel pass words custom minB)
  | 0, _, _, _, _ => by
    rw [resolveLoop]
    exact Errs.ite (fun _ => Errs.panic _) fun _ => Errs.ok _
  | fuel + 1, pass, words, custom, minB => by
    rw [resolveLoop]
    refine Errs.ite (fun _ => ?_) fun _ => Errs.ok _
    exact resolveLoop_errs order fuel _ _ _ _

theorem settingWords_exists {env : Env} (hf : Fair env) (hz : ∃ k, 0 < k ∧ k < 256 ∧ env.predef k = env.predef 0)
    (hw : FewWords b) : ∃ x, settingWords env b = .ok x := by
  have hcalm := settingWords_calm (b := b) hf hz
  rw [fewWords_iff] at hw
  cases he : settingWords env b with
  | ok x => exact ⟨x, rfl⟩
  | panic m => rw [he] at hcalm; cases hcalm
  | err m =>
    exfalso
    refine absurd he ?_
    unfold settingWords
    generalize appendWords (b.settings.map (·.options)).flatten [] = W at *
    simp only
    split
    · intro h; cases h
    · rw [organizeWords, if_neg (by omega)]
      intro h
      have herr : Errs (fun _ => False) (do
          let words ← (do
            let (words, custom, minB) := organizeLoop (builtinWords env.predef) (env.organizeOrder 0 W.keys) W 0 65535
            let words ← resolveLoop env.organizeOrder (words.length + 1) 1 words custom minB
            return words.filter fun e => !decide (e.2 < 0))
          return (words, builtinWords env.predef) : Res (GoMap Bytes Int × GoMap Bytes Int)) := by
        refine Errs.bind ?_ fun _ _ => Errs.ok _
        exact (resolveLoop_errs _ _ _ _ _ _).bind fun _ _ => Errs.ok _
      exact herr m h

theorem settingWords_few {env : Env} {x : GoMap Bytes Int × GoMap Bytes Int} (h : settingWords env b = .ok x) :
    FewWords b := by
  rw [fewWords_iff]
  unfold settingWords at h
  generalize appendWords (b.settings.map (·.options)).flatten [] = W at *
  simp only at h
  split at h
  · rename_i h0; rw [h0]; simp
  · simp only [Res.bind_eq_ok] at h
    obtain ⟨W', h, -⟩ := h
    rw [organizeWords] at h
    split at h
    · cases h
    · omega

/-! ## The whole -/

theorem metrics_iff : b.metricsStatus = .ok () ↔ 0 < b.ascent.toNat ∧ b.extraAscent.toNat < b.ascent.toNat ∧
    b.uppercaseAscent.toNat ≤ b.ascent.toNat ∧ b.midlineAscent.toNat ≤ b.uppercaseAscent.toNat := by
  have e : b.ascent = 0 ↔ b.ascent.toNat = 0 := by
    rw [← UInt8.toNat_inj]; rfl
  simp only [metricsStatus, ite_err, e, UInt8.le_iff_toNat_le, UInt8.lt_iff_toNat_lt, gt_iff_lt]
  constructor
  · rintro ⟨_, _, _, _, _, _⟩; omega
  · intro _
    refine ⟨by omega, by omega, by omega, by omega, by omega, ?_⟩
    trivial

theorem wellMade_dyes {l : List Dye} : WellMade { b with dyes := l } ↔ WellMade b :=
  ⟨fun h => ⟨h.1, h.2, h.3, h.4, h.5, h.6, h.7, h.8, h.9⟩, fun h => ⟨h.1, h.2, h.3, h.4, h.5, h.6, h.7, h.8, h.9⟩⟩

theorem order_length (hr : Reachable b) : b.glyphData.length = b.glyphOrder.length := by
  have := congrArg List.length hr.inv.sync
  simpa [GoMap.keys] using this

theorem order_le (hr : Reachable b) : b.glyphOrder.length ≤ 65536 := by
  have := order_length hr
  have := hr.calls.count
  omega

/-- The builder with the main dye. -/
theorem main_reachable (hr : Reachable b) {b' : Builder} (h : (if b.dyes.length + b.palettes.length = 0 then
    b.addDye (ascii "main") [255] else .ok b) = .ok b') : Reachable b' ∧ ∃ l, b' = { b with dyes := l } := by
  obtain ⟨b1, h1, h2⟩ := main_exists (b := b)
  rw [h1] at h
  obtain rfl := Res.ok.inj h
  rcases h2 with rfl | ⟨hs, hcall, rfl⟩
  · exact ⟨hr, b1.dyes, rfl⟩
  · obtain ⟨e, he, rfl⟩ := hr
    exact ⟨⟨_, he.call hcall, rfl⟩, _, rfl⟩

theorem build_wellMade (hr : Reachable b) {env : Env} {b' : Builder} {f : FontModel.Font}
    (h : build env b = .ok (b', f)) : WellMade b := by
  obtain ⟨s, w, bi, hb⟩ := build_parts h
  obtain ⟨hr', l, rfl⟩ := main_reachable hr hb.main
  have hn := hr'.inv.kern.order
  have hl := order_le hr'
  have h0 := hb.some
  have h1 := hb.order
  obtain ⟨m1, m2, m3, m4⟩ := metrics_iff.1 hb.metricsOk
  obtain ⟨s1, s2⟩ := glyphSets_wellMade hr'.calls hr'.refs hn hl hb.glyphSets
  have hw : FewWords b := settingWords_few hb.wordMap
  have hnames := glyphNames_wellMade hr'.inv hb.glyphNames
  exact ⟨fun e => h0 (by rw [h1, e]; rfl), m1, m2, m3, m4, hnames, hw, s1, s2⟩

theorem kern_errs (pairs values : GoMap (Nat × Nat) KernPair) : Errs P (b.kernSection pairs values) := by
  have hi : ∀ {α : Type} (l : List α) (i : Nat), Errs P (idx l i) := fun l i => by
    rw [idx]; split
    · exact Errs.ok _
    · exact Errs.panic _
  rw [kernSection]
  refine (mapRes_errs fun p _ => ?_).bind fun ks _ => Errs.ite (fun _ => Errs.panic _) fun _ =>
    (mapRes_errs fun p _ => ?_).bind fun _ _ => Errs.ok _
  · exact (glyphIndexP_errs _).bind fun _ _ => (glyphIndexP_errs _).bind fun _ _ => Errs.ok _
  · rw [pairValue]
    refine (hi _ _).bind fun _ _ => (hi _ _).bind fun _ _ => ?_
    split
    · exact Errs.panic _
    · exact Errs.ite (fun _ => Errs.ok _) fun _ => (hi _ _).bind fun _ _ => Errs.ok _

theorem build_errs (hr : Reachable b) (hw : WellMade b) {env : Env}
    (hm : ∀ u g, b.glyphData.get u = some g → Encodes env g.mask) (hf : Fair env)
    (hz : ∃ k, 0 < k ∧ k < 256 ∧ env.predef k = env.predef 0) : Errs TooLarge (build env b) := by
  have hlen := order_length hr
  have hg : b.glyphOrder.length ≠ 0 := fun e => hw.glyphs (List.eq_nil_of_length_eq_zero e)
  unfold build
  refine Errs.ite (fun _ => Errs.panic _) fun _ => Errs.ite (fun _ => Errs.panic _) fun _ => ?_
  rw [if_neg (by omega)]
  refine (Errs.of (header_exists hr.calls)).bind fun header _ => ?_
  refine (Errs.of ⟨_, metrics_iff.2 ⟨hw.ascent, hw.extraAscent, hw.uppercase, hw.midline⟩⟩).bind fun _ _ => ?_
  refine Errs.ite (fun _ => Errs.panic _) fun _ => ?_
  obtain ⟨b1, h1, _⟩ := main_exists (b := b)
  rw [h1, Res.ok_bind]
  obtain ⟨hr', l, rfl⟩ := main_reachable hr h1
  have hw' := wellMade_dyes (l := l).2 hw
  generalize hb1 : ({ b with dyes := l } : Builder) = b1 at *
  have hm' : ∀ u g, b1.glyphData.get u = some g → Encodes env g.mask := by rw [← hb1]; exact hm
  clear hm hw hr h1 hlen hg hb1
  have hi := hr'.inv
  have hc := hr'.calls
  have hrf := hr'.refs
  have hl := order_le hr'
  simp only
  refine (Errs.of (dyes_exists hi.colors)).bind fun _ _ => ?_
  refine (Errs.of (palettes_exists hi.colors)).bind fun _ _ => ?_
  refine (Errs.of (glyphNames_exists hi hw'.names)).bind fun _ _ => ?_
  refine (Errs.of (masks_exists hi hm')).bind fun _ _ => ?_
  refine (Errs.of (settingWords_exists hf hz hw'.words)).bind fun w hw => ?_
  obtain ⟨words, builtin⟩ := w
  obtain ⟨⟨cust, hst, _⟩, hbu⟩ := settingWords_spec hf hz hw
  simp only
  refine (Errs.of (words_exists hst)).bind fun _ _ => ?_
  refine (Errs.of (settingNames_exists hi.settings)).bind fun _ _ => ?_
  refine (Errs.of (settingDefs_exists hst hbu)).bind fun _ _ => ?_
  refine (Errs.of (switches_exists hc hi.settings)).bind fun _ _ => ?_
  refine (mapping_errs _).bind fun _ _ => ?_
  refine (Errs.of (conditions_exists hi.conditions)).bind fun _ _ => ?_
  refine (Errs.of (utf8Sets_exists hc.runeSets)).bind fun _ _ => ?_
  refine (glyphSets_errs hc hrf hi.kern.order hl hw'.setSizes hw'.ranges).bind fun _ hgs => ?_
  have hso := order_perm hc (sets_needs hc hgs).1
  have hsl := hso.length_eq
  have := hc.sets
  simp only [GoMap.keys, List.length_map] at hsl
  refine (utf8Rules_errs hrf).bind fun _ _ => ?_
  refine (glyphRules_errs hrf hi.kern.order hl (hso.nodup_iff.1 hc.setKeys) (by omega)).bind fun _ _ => ?_
  refine Errs.ite (fun _ => Errs.panic _) fun _ => Errs.ite (fun _ => Errs.panic _) fun _ => ?_
  refine (kern_errs _ _).bind fun _ _ => (kern_errs _ _).bind fun _ _ => ?_
  exact Errs.ite (fun _ => Errs.err (.inl rfl)) fun _ => Errs.ok _

/-! ## The errors that come first -/

theorem build_noGlyphs (hr : Reachable b) (h : b.glyphOrder = []) (env : Env) :
    build env b = .err "can't build font with no glyphs" := by
  have hlen := order_length hr
  have hmax : FontModel.maxGlyphs = 56789 := rfl
  rw [h] at hlen
  simp only [List.length_nil] at hlen
  unfold build
  rw [if_neg (by omega), if_neg (by rw [h]; simp [hlen]), if_pos hlen]

theorem build_metrics (hr : Reachable b) (h : b.glyphOrder ≠ []) {m : String} (hm : b.metricsStatus = .err m) (env : Env) :
    build env b = .err m := by
  have hlen := order_length hr
  have hmax : FontModel.maxGlyphs = 56789 := rfl
  have := hr.calls.count
  have hg : b.glyphOrder.length ≠ 0 := fun e => h (List.eq_nil_of_length_eq_zero e)
  obtain ⟨x, hx⟩ := header_exists hr.calls
  unfold build
  rw [if_neg (by omega), if_neg (by omega), if_neg (by omega), hx, Res.ok_bind, hm]
  rfl

theorem checkDuplicates_errs : ∀ (l : List Bytes) (prev : Bytes), Errs (· = "duplicated glyph name") (checkDuplicates prev l)
  | [], _ => Errs.ok _
  | n :: l, prev => by
    rw [checkDuplicates]
    exact Errs.ite (fun _ => Errs.err rfl) fun _ => checkDuplicates_errs l n

theorem names_dup (hi : Inv b) {u v : Nat} {g h : GlyphData} (hu : b.glyphData.get u = some g)
    (hv : b.glyphData.get v = some h) (he : g.name = h.name) (hne : g.name ≠ []) (huv : u ≠ v) :
    b.glyphNamesSection = .err "duplicated glyph name" := by
  have hcalm := glyphNames_calm hi
  cases hx : b.glyphNamesSection with
  | ok x => exact absurd (glyphNames_wellMade hi hx u v g h hu hv he hne) huv
  | panic m => rw [hx] at hcalm; cases hcalm
  | err m =>
    have : Errs (· = "duplicated glyph name") b.glyphNamesSection := by
      obtain ⟨named, hn⟩ := namedLoop_exists hi (l := b.glyphOrder) fun _ hu => hu
      rw [glyphNamesSection, hn]
      simp only [Res.ok_bind]
      exact Errs.ite (fun _ => Errs.ok _) fun _ => (checkDuplicates_errs _ _).bind fun _ _ => Errs.ok _
    rw [this m hx]

theorem build_names (hr : Reachable b) (hm : b.metricsStatus = .ok ()) (hs : b.dyes.length + b.palettes.length ≤ 255)
    {u v : Nat} {g h : GlyphData} (hu : b.glyphData.get u = some g)
    (hv : b.glyphData.get v = some h) (he : g.name = h.name) (hne : g.name ≠ []) (huv : u ≠ v) (env : Env) :
    build env b = .err "duplicated glyph name" := by
  have hlen := order_length hr
  have hmax : FontModel.maxGlyphs = 56789 := rfl
  have := hr.calls.count
  have hg : b.glyphData.length ≠ 0 := fun e => by
    rw [List.eq_nil_of_length_eq_zero e] at hu; cases hu
  obtain ⟨x, hx⟩ := header_exists hr.calls
  obtain ⟨b1, h1, _⟩ := main_exists (b := b)
  obtain ⟨hr', l, rfl⟩ := main_reachable hr h1
  obtain ⟨y, hy⟩ := dyes_exists hr'.inv.colors
  obtain ⟨z, hz⟩ := palettes_exists hr'.inv.colors
  have hd := names_dup hr'.inv (u := u) (v := v) hu hv he hne huv
  unfold build
  rw [if_neg (by omega), if_neg (by omega), if_neg (by omega), hx, Res.ok_bind, hm, Res.ok_bind, if_neg (by omega), h1,
    Res.ok_bind]
  simp only [hy, hz, hd, Res.ok_bind, Res.err_bind]

end Builder
end BuilderModel
