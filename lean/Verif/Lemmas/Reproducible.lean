import Verif.Spec.Reproducible
import Verif.Lemmas.BuildAt
import Verif.Lemmas.Sort
import Verif.Lemmas.GoMap
import Verif.Lemmas.BuiltWords

/-! # Building again, and with other orders of iteration -/

namespace BuilderModel
open Go Spec Helpers

theorem sorted_ext {α : Type} {r : α → α → Prop} (ha : ∀ a b, r a b → r b a → a = b) : ∀ {l l' : List α},
    l.Perm l' → l.Pairwise r → l'.Pairwise r → l = l'
  | [], l', hp, _, _ => (List.nil_perm.1 hp).symm
  | a :: l, [], hp, _, _ => absurd hp.length_eq (by simp)
  | a :: l, b :: l', hp, h, h' => by
    rw [List.pairwise_cons] at h h'
    have hab : a = b := by
      rcases List.mem_cons.1 (hp.mem_iff.1 (List.mem_cons_self ..)) with h1 | h1
      · exact h1
      rcases List.mem_cons.1 (hp.mem_iff.2 (List.mem_cons_self ..)) with h2 | h2
      · exact h2.symm
      exact ha _ _ (h.1 _ h2) (h'.1 _ h1)
    subst hab
    rw [sorted_ext ha ((List.perm_cons a).1 hp) h.2 h'.2]

theorem isort_ext {α : Type} {le : α → α → Bool} (ht : ∀ a b c, le a b → le b c → le a c)
    (hc : ∀ a b, le a b ∨ le b a) (ha : ∀ a b, le a b → le b a → a = b) {l l' : List α} (h : l.Perm l') :
    isort le l = isort le l' :=
  sorted_ext (r := fun a b => le a b) ha ((isort_perm le l).trans (h.trans (isort_perm le l').symm))
    (isort_pairwise ht hc l) (isort_pairwise ht hc l')

theorem isort_nat_ext {l l' : List Nat} (h : l.Perm l') : isort natLe l = isort natLe l' :=
  isort_ext (by simp [natLe]; omega) (by simp [natLe]; omega) (by simp [natLe]; omega) h

theorem mapRes_perm {α β : Type} {f : α → Res β} {l l' : List α} (hp : l.Perm l') {r : List β} (h : mapRes f l = .ok r) :
    ∃ r', mapRes f l' = .ok r' ∧ r.Perm r' := by
  induction hp generalizing r with
  | nil => exact ⟨r, h, .refl _⟩
  | cons a _ ih =>
    simp only [mapRes, Res.bind_eq_ok, Res.pure_eq, Res.ok.injEq] at h
    obtain ⟨x, h1, xs, h2, rfl⟩ := h
    obtain ⟨r', h3, h4⟩ := ih h2
    exact ⟨x :: r', by simp [mapRes, h1, h3], h4.cons x⟩
  | swap a b l =>
    simp only [mapRes, Res.bind_eq_ok, Res.pure_eq, Res.ok.injEq] at h
    obtain ⟨x, h1, _, ⟨y, h2, ys, h3, rfl⟩, rfl⟩ := h
    exact ⟨y :: x :: ys, by simp [mapRes, h1, h2, h3], .swap ..⟩
  | trans _ _ ih1 ih2 =>
    obtain ⟨r', h1, h2⟩ := ih1 h
    obtain ⟨r'', h3, h4⟩ := ih2 h1
    exact ⟨r'', h3, h2.trans h4⟩

end BuilderModel

namespace Spec.SameMap
open BuilderModel
variable {K V : Type} [DecidableEq K] {m m' : GoMap K V}

theorem keys (h : SameMap m m') : m.keys.Perm m'.keys := h.perm.map Prod.fst

theorem symm (h : SameMap m m') : SameMap m' m :=
  ⟨(h.perm.map Prod.fst).nodup_iff.1 h.nodup, h.perm.symm⟩

theorem get (h : SameMap m m') (k : K) : m.get k = m'.get k := by
  cases hg : m.get k with
  | none =>
    cases hg' : m'.get k with
    | none => rfl
    | some v =>
      have := GoMap.get_of_mem h.nodup (h.perm.mem_iff.2 (GoMap.mem_of_get hg'))
      rw [hg] at this; cases this
  | some v =>
    exact (GoMap.get_of_mem h.symm.nodup (h.perm.mem_iff.1 (GoMap.mem_of_get hg))).symm

theorem length (h : SameMap m m') : m.length = m'.length := h.perm.length_eq

theorem refl (h : (m.map Prod.fst).Nodup) : SameMap m m := ⟨h, .refl _⟩

end Spec.SameMap

namespace BuilderModel
open Go Spec Helpers

/-- A builder with other maps. -/
abbrev Builder.withMaps (b : Builder) (gd : GoMap Nat GlyphData) (rm : GoMap Int MapEntry) (gs : GoMap Nat GlyphSet)
    (rs : GoMap Nat RuneSet) (hk vk : GoMap (Nat × Nat) KernPair) : Builder :=
  { b with glyphData := gd, runeMapping := rm, glyphSets := gs, runeSets := rs, horzKern := hk, vertKern := vk }

namespace Builder
variable {b : Builder} {gd : GoMap Nat GlyphData} {rm : GoMap Int MapEntry} {gs : GoMap Nat GlyphSet}
    {rs : GoMap Nat RuneSet} {hk vk : GoMap (Nat × Nat) KernPair}

theorem withMaps_glyph (h : ∀ u, b.glyphData.get u = gd.get u) (u : Nat) :
    (b.withMaps gd rm gs rs hk vk).glyph u = b.glyph u := by
  simp only [glyph, h]

theorem withMaps_named (h : ∀ u, b.glyphData.get u = gd.get u) : ∀ l,
    (b.withMaps gd rm gs rs hk vk).namedLoop l = b.namedLoop l
  | [] => rfl
  | u :: l => by rw [namedLoop, namedLoop, withMaps_glyph h, withMaps_named h l]

theorem withMaps_names (h : ∀ u, b.glyphData.get u = gd.get u) :
    (b.withMaps gd rm gs rs hk vk).glyphNamesSection = b.glyphNamesSection := by
  simp only [glyphNamesSection, withMaps_named h]
  rfl

theorem withMaps_block {env : Env} (h : ∀ u, b.glyphData.get u = gd.get u) :
    (b.withMaps gd rm gs rs hk vk).glyphBlock env = b.glyphBlock env := by
  funext u
  simp only [glyphBlock, withMaps_glyph h]
  rfl

theorem withMaps_numCases : ∀ (s : List Nat) (n : Nat) (m : Int),
    (b.withMaps gd rm gs rs hk vk).numCasesLoop s n m = b.numCasesLoop s n m
  | [], _, _ => rfl
  | k :: s, n, m => by
    rw [numCasesLoop, numCasesLoop]
    simp only [withMaps_numCases s]

theorem withMaps_compute (i : Nat) :
    (b.withMaps gd rm gs rs hk vk).computeNumSwitchCases i = b.computeNumSwitchCases i := by
  rw [computeNumSwitchCases, computeNumSwitchCases]
  simp only [withMaps_numCases]

theorem withMaps_cases : ∀ (l : List MapGroup) (len : Nat),
    (b.withMaps gd rm gs rs hk vk).casesBytes len l = b.casesBytes len l
  | [], _ => rfl
  | g :: l, len => by
    rw [casesBytes, casesBytes]
    simp only [withMaps_cases l]
    rfl

theorem withMaps_entry (len : Nat) (e : MapEntry) :
    (b.withMaps gd rm gs rs hk vk).entryBytes len e = b.entryBytes len e := by
  rw [entryBytes, entryBytes]
  simp only [withMaps_cases]
  rfl

theorem withMaps_entries (h : ∀ c, b.runeMapping.get c = rm.get c) : ∀ (l : List Int) (len : Nat),
    (b.withMaps gd rm gs rs hk vk).entriesLoop len l = b.entriesLoop len l
  | [], _ => rfl
  | c :: l, len => by
    rw [entriesLoop, entriesLoop]
    simp only [withMaps_entry, withMaps_compute, withMaps_entries h l, h]

theorem withMaps_mapping (h : SameMap b.runeMapping rm) (len : Nat) :
    (b.withMaps gd rm gs rs hk vk).mappingSection len = b.mappingSection len := by
  have e1 : isort (fun x y : Int => decide (x ≤ y)) b.runeMapping.keys = isort (fun x y => decide (x ≤ y)) rm.keys :=
    isort_ext (by simp; omega) (by simp; omega) (by simp; omega) h.keys
  have e2 : (b.runeMapping.keys.any (· < 0)) = rm.keys.any (· < 0) := by
    rw [Bool.eq_iff_iff, List.any_eq_true, List.any_eq_true]
    simp only [h.keys.mem_iff]
  simp only [mappingSection, withMaps_entries h.get, e1, e2, h.length]

theorem withMaps_checkSets (h : ∀ u, b.glyphSets.get u = gs.get u) : ∀ (l : List Nat) (off : Nat),
    (b.withMaps gd rm gs rs hk vk).checkSets off l = b.checkSets off l
  | [], _ => rfl
  | u :: l, off => by
    rw [checkSets, checkSets]
    simp only [withMaps_checkSets h l, h]

theorem withMaps_sets (h : SameMap b.glyphSets gs) :
    (b.withMaps gd rm gs rs hk vk).glyphSetsSection = b.glyphSetsSection := by
  simp only [glyphSetsSection, withMaps_checkSets h.get, setsInOrder, h.get, h.length]
  rfl

theorem withMaps_kern {pairs pairs' values values' : GoMap (Nat × Nat) KernPair} (hp : SameMap pairs pairs')
    (hv : ∀ k, values.get k = values'.get k) {bytes : Bytes} (h : b.kernSection pairs values = .ok bytes) :
    (b.withMaps gd rm gs rs hk vk).kernSection pairs' values' = .ok bytes := by
  simp only [kernSection, Res.bind_eq_ok, ite_panic, Res.pure_eq, Res.ok.injEq] at h ⊢
  obtain ⟨keys, h1, h2, bs, h3, h4⟩ := h
  obtain ⟨keys', h5, h6⟩ := mapRes_perm hp.keys h1
  refine ⟨keys', h5, ?_⟩
  rw [← isort_nat_ext h6, ← hp.length]
  refine ⟨h2, bs, ?_, h4⟩
  rw [← h3]
  congr 1
  funext k
  simp only [pairValue, hv]

end Builder

theorem Built.withMaps {env : Env} {b b' : Builder} {f : FontModel.Font} {s : Parts} {w bi : GoMap Bytes Int}
    {gd : GoMap Nat GlyphData} {rm : GoMap Int MapEntry} {gs : GoMap Nat GlyphSet}
    {rs : GoMap Nat RuneSet} {hk vk : GoMap (Nat × Nat) KernPair} (h : Built env b b' f s w bi)
    (h1 : SameMap b.glyphData gd) (h2 : SameMap b.runeMapping rm) (h3 : SameMap b.glyphSets gs)
    (h4 : SameMap b.runeSets rs) (h5 : SameMap b.horzKern hk) (h6 : SameMap b.vertKern vk) :
    Built env (b.withMaps gd rm gs rs hk vk) (b'.withMaps gd rm gs rs hk vk) f s w bi := by
  have e := h.b'_eq
  have g1 : SameMap b'.glyphData gd := by rw [e]; exact h1
  have g2 : SameMap b'.runeMapping rm := by rw [e]; exact h2
  have g3 : SameMap b'.glyphSets gs := by rw [e]; exact h3
  have g5 : SameMap b'.horzKern hk := by rw [e]; exact h5
  have g6 : SameMap b'.vertKern vk := by rw [e]; exact h6
  constructor
  case count => exact h1.length ▸ h.count
  case order => exact h1.length ▸ h.order
  case some => exact h1.length ▸ h.some
  case header => exact h.header
  case metricsOk => exact h.metricsOk
  case sections => exact h.sections
  case main =>
    have hm := h.main
    by_cases h0 : b.dyes.length + b.palettes.length = 0
    · rw [if_pos h0] at hm ⊢
      simp only [Builder.addDye, Res.bind_eq_ok, ite_err, Res.pure_eq, Res.ok.injEq] at hm ⊢
      obtain ⟨a1, a2, a3, rfl⟩ := hm
      exact ⟨a1, a2, a3, rfl⟩
    · rw [if_neg h0] at hm ⊢
      rw [Res.ok.injEq] at hm ⊢
      rw [hm]
  case metrics => rw [h.metrics]; simp only [Builder.metricsSection, g1.length]
  case dyes => exact h.dyes
  case palettes => exact h.palettes
  case glyphNames => rw [Builder.withMaps_names g1.get]; exact h.glyphNames
  case glyphMasks =>
    rw [Builder.glyphMasksSection, Builder.withMaps_block g1.get]
    exact h.glyphMasks
  case wordMap => exact h.wordMap
  case wordBytes => exact h.wordBytes
  case settingNames => exact h.settingNames
  case settingDefs => exact h.settingDefs
  case switches => exact h.switches
  case mapping => rw [Builder.withMaps_mapping g2]; exact h.mapping
  case conditions => exact h.conditions
  case utf8Sets =>
    have := h.utf8Sets
    rw [Builder.utf8SetsSection] at this ⊢
    rw [← this]
    have : b'.runeSets.length = rs.length := by rw [e]; exact h4.length
    simp only [this]
  case glyphSets => rw [Builder.withMaps_sets g3]; exact h.glyphSets
  case utf8Rules => exact h.utf8Rules
  case glyphRules => exact h.glyphRules
  case horzCount => exact g5.length ▸ h.horzCount
  case vertCount => exact g6.length ▸ h.vertCount
  case horzKern => exact Builder.withMaps_kern g5 g5.get h.horzKern
  case vertKern => exact Builder.withMaps_kern g6 g5.get h.vertKern
  case size => exact h.size
  case font => exact h.font

/-- `Build` finds nothing to add when it is called again. -/
theorem Built.again {env : Env} {b b' : Builder} {f : FontModel.Font} {s : Parts} {w bi : GoMap Bytes Int}
    (h : Built env b b' f s w bi) : Built env b' b' f s w bi := by
  have e := Builder.main_eq h.main
  have hne : b'.dyes.length + b'.palettes.length ≠ 0 ∧ b'.dyes.length + b'.palettes.length ≤ 255 := by
    have := h.sections
    rw [e]
    dsimp only
    split
    · rename_i h0; rw [h0.2]; simp
    · rename_i h0
      refine ⟨fun hz => h0 ⟨List.eq_nil_of_length_eq_zero (by omega), List.eq_nil_of_length_eq_zero (by omega)⟩, this⟩
  have e2 := h.b'_eq
  constructor
  case count => rw [e2]; exact h.count
  case order => rw [e2]; exact h.order
  case some => rw [e2]; exact h.some
  case header => rw [e2]; exact h.header
  case metricsOk => rw [e2]; exact h.metricsOk
  case sections => exact hne.2
  case main => rw [if_neg hne.1]
  case metrics => exact h.metrics
  case dyes => exact h.dyes
  case palettes => exact h.palettes
  case glyphNames => exact h.glyphNames
  case glyphMasks => exact h.glyphMasks
  case wordMap => exact h.wordMap
  case wordBytes => exact h.wordBytes
  case settingNames => exact h.settingNames
  case settingDefs => exact h.settingDefs
  case switches => exact h.switches
  case mapping => exact h.mapping
  case conditions => exact h.conditions
  case utf8Sets => exact h.utf8Sets
  case glyphSets => exact h.glyphSets
  case utf8Rules => exact h.utf8Rules
  case glyphRules => exact h.glyphRules
  case horzCount => exact h.horzCount
  case vertCount => exact h.vertCount
  case horzKern => exact h.horzKern
  case vertKern => exact h.vertKern
  case size => exact h.size
  case font => exact h.font

namespace Builder

theorem _root_.BuilderModel.GoMap.ext_keys {m m' : GoMap Bytes Int} (hn : m.keys.Nodup) (hk : m.keys = m'.keys)
    (h : ∀ w ∈ m.keys, m.get w = m'.get w) : m = m' := by
  refine List.ext_getElem (by simpa [GoMap.keys] using congrArg List.length hk) fun i h1 h2 => ?_
  have e1 : (m[i]).1 = (m'[i]).1 := by
    have := List.getElem_of_eq hk (i := i) (by simpa [GoMap.keys] using h1)
    simpa [GoMap.keys] using this
  have g1 := GoMap.get_of_mem hn (k := m[i].1) (v := m[i].2) (List.getElem_mem h1)
  have g2 := GoMap.get_of_mem (hk ▸ hn) (k := m'[i].1) (v := m'[i].2) (List.getElem_mem h2)
  have := h _ (GoMap.mem_keys_of_get g1)
  rw [g1, e1, g2, Option.some.injEq] at this
  exact Prod.ext e1 this

/-- The index of a word: minus the index of the builtin word or the index of the only other one. -/
def firstIndex (builtin : GoMap Bytes Int) (w : Bytes) : Int :=
  match builtin.get w with
  | some i => -i
  | none => 0

theorem get_firstIndex (B : GoMap Bytes Int) {W : GoMap Bytes Int} (hn : W.keys.Nodup) {w : Bytes} (hw : w ∈ W.keys) :
    GoMap.get (W.map fun e => (e.1, firstIndex B e.1) : GoMap Bytes Int) w = some (firstIndex B w) := by
  refine GoMap.get_of_mem ?_ ?_
  · rw [GoMap.keys, List.map_map]; exact hn
  · obtain ⟨e, he, rfl⟩ := List.mem_map.1 hw
    exact List.mem_map.2 ⟨e, he, rfl⟩

/-- The stored words with their indices when at most one is not predefined. -/
def oneWord (predef : Nat → Bytes) (b : Builder) : Res (GoMap Bytes Int × GoMap Bytes Int) :=
  let words := appendWords (b.settings.map (·.options)).flatten []
  if words = [] then .ok ([], []) else
  if words.length > 255 then .err "setting options require too many words" else
  .ok ((words.map fun e => (e.1, firstIndex (builtinWords predef) e.1)).filter fun e => !decide (e.2 < 0), builtinWords predef)

theorem settingWords_one {env : Env} (hf : Fair env) (hz : ∃ k, 0 < k ∧ k < 256 ∧ env.predef k = env.predef 0)
    {b : Builder}
    (hone : ∀ v w, IsOption b v → IsOption b w → ¬ Predefined env.predef v → ¬ Predefined env.predef w → v = w) :
    b.settingWords env = b.oneWord env.predef := by
  obtain ⟨hn, hm⟩ := appendWords_spec (b.settings.map (·.options)).flatten [] (by simp [GoMap.keys])
  have hmem : ∀ w, w ∈ (appendWords (b.settings.map (·.options)).flatten []).keys → IsOption b w := by
    intro w
    rw [hm, List.mem_flatten]
    rintro (h | ⟨l, hl, hw⟩)
    · simp [GoMap.keys] at h
    · obtain ⟨s, hs, rfl⟩ := List.mem_map.1 hl
      exact ⟨s, hs, hw⟩
  unfold settingWords oneWord
  generalize appendWords (b.settings.map (·.options)).flatten [] = W at *
  dsimp only
  by_cases hW : W = []
  · rw [if_pos hW, if_pos hW, Res.pure_eq]
  rw [if_neg hW, if_neg hW]
  have hlist := builtin_lists env.predef
  have hpos : ∀ w v, (builtinWords env.predef).get w = some v → 0 < v ∧ v < 256 := by
    intro w v hv
    obtain ⟨h2, h3, h4, h5⟩ := hlist.here w v hv
    obtain ⟨k, hk, hk', hkz⟩ := hz
    by_cases hv0 : v = 0
    · subst hv0
      have := h5 k (by omega) (hkz.trans h4)
      omega
    · omega
  unfold organizeWords
  by_cases hc : W.length > 255
  · rw [if_pos hc, if_pos hc]; rfl
  rw [if_neg hc, if_neg hc]
  have hp := hf.organize 0 W.keys
  obtain ⟨W1, cust1, minB1, e1, i1, k1, m1⟩ := organizeLoop_spec hpos (env.organizeOrder 0 W.keys) [] 65535 W
    (hp.nodup_iff.2 hn) (fun w hw => hp.mem_iff.1 hw) (by simp)
    ⟨by simp, fun j h => by simp at h, fun w i hw => .inr (.inl (hp.mem_iff.2 (GoMap.mem_keys_of_get hw))),
      fun w i hw _ hw' => absurd (hp.mem_iff.2 (GoMap.mem_keys_of_get hw)) hw', .inl rfl⟩
  rw [List.length_nil] at e1
  rw [e1]
  simp only [List.not_mem_nil, false_or] at m1
  have hc1 : cust1.length ≤ 1 := by
    match cust1, i1.nodup, m1 with
    | [], _, _ => simp
    | [_], _, _ => simp
    | v :: w :: _, hnd, m1 =>
      have hv := (m1 v).1 (by simp)
      have hw := (m1 w).1 (by simp)
      have := hone v w (hmem v (hp.mem_iff.1 hv.1)) (hmem w (hp.mem_iff.1 hw.1)) (builtin_none.1 hv.2)
        (builtin_none.1 hw.2)
      subst this
      simp at hnd
  have hge : ¬ minB1 < cust1.length := by
    intro hlt
    rcases i1.hit with h | ⟨h, _⟩ <;> omega
  dsimp only
  rw [resolveLoop, if_neg hge]
  simp only [Res.ok_bind, Res.pure_eq]
  have key : W1 = (W.map fun e => (e.1, firstIndex (builtinWords env.predef) e.1) : GoMap Bytes Int) := by
    refine GoMap.ext_keys (k1 ▸ hn) ?_ ?_
    · rw [k1, GoMap.keys, GoMap.keys, List.map_map]; rfl
    · intro w hw
      have hwW : w ∈ W.keys := k1 ▸ hw
      rw [get_firstIndex _ hn hwW, firstIndex]
      cases hg : W1.get w with
      | none => exact absurd hw (GoMap.get_eq_none.1 hg)
      | some i =>
        rcases i1.rest w i hg with h | h | ⟨h, hb⟩
        · rw [((m1 w).1 h).2]
          obtain ⟨j, hj, rfl⟩ := List.getElem_of_mem h
          have := i1.index j hj
          rw [hg, Option.some.injEq] at this
          have : j = 0 := by omega
          subst this
          simpa using this
        · cases h
        · rw [hb]; simp
  rw [key]

/-- The words do not depend on the order when at most one of them is not predefined. -/
theorem words_order {env env' : Env} (hf : Fair env) (hf' : Fair env') (hp : env'.predef = env.predef)
    (hz : ∃ k, 0 < k ∧ k < 256 ∧ env.predef k = env.predef 0) {b : Builder}
    (hone : ∀ v w, IsOption b v → IsOption b w → ¬ Predefined env.predef v → ¬ Predefined env.predef w → v = w)
    {w bi : GoMap Bytes Int} (h : b.settingWords env = .ok (w, bi)) :
    b.settingWords env' = .ok (w, bi) ∧ wordsSection env' w = wordsSection env w := by
  have h' : b.settingWords env' = .ok (w, bi) := by
    rw [settingWords_one hf' (by rw [hp]; exact hz) (by rw [hp]; exact hone), hp, ← settingWords_one hf hz hone, h]
  refine ⟨h', ?_⟩
  obtain ⟨⟨cust, st, h1⟩, _⟩ := settingWords_spec hf hz h
  have hl := h1 hone
  have hk : w.keys.length ≤ 1 := by rw [st.perm.length_eq]; exact hl
  have key : ∀ {L : List Bytes}, L.Perm w.keys → L = w.keys := by
    intro L hL
    match hw : w.keys, hk with
    | [], _ => rw [hw] at hL; exact hL.eq_nil
    | [x], _ => rw [hw] at hL; exact List.perm_singleton.1 hL
  rw [wordsSection, wordsSection, key (hf.ends _), key (hf.words _), key (hf'.ends _), key (hf'.words _)]

end Builder

theorem Built.orders {env env' : Env} {b b' : Builder} {f : FontModel.Font} {s : Parts} {w bi : GoMap Bytes Int}
    (hf : Fair env) (hf' : Fair env') (hp : env'.predef = env.predef) (hm : env'.fragOrder = env.fragOrder)
    (hz : ∃ k, 0 < k ∧ k < 256 ∧ env.predef k = env.predef 0)
    (hone : ∀ v w, IsOption b v → IsOption b w → ¬ Predefined env.predef v → ¬ Predefined env.predef w → v = w)
    (h : Built env b b' f s w bi) : Built env' b b' f s w bi := by
  have e : b.settings = b'.settings := by rw [h.b'_eq]
  obtain ⟨h1, h2⟩ := Builder.words_order hf hf' hp hz
    (fun v w hv hw => hone v w ((IsOption.congr e v).2 hv) ((IsOption.congr e w).2 hw)) h.wordMap
  constructor
  case glyphMasks =>
    have : b'.glyphBlock env' = b'.glyphBlock env := by
      funext u
      rw [Builder.glyphBlock, Builder.glyphBlock, hm]
    rw [Builder.glyphMasksSection, this]
    exact h.glyphMasks
  case wordMap => exact h1
  case wordBytes => rw [h2]; exact h.wordBytes
  case count => exact h.count
  case order => exact h.order
  case some => exact h.some
  case header => exact h.header
  case metricsOk => exact h.metricsOk
  case sections => exact h.sections
  case main => exact h.main
  case metrics => exact h.metrics
  case dyes => exact h.dyes
  case palettes => exact h.palettes
  case glyphNames => exact h.glyphNames
  case settingNames => exact h.settingNames
  case settingDefs => exact h.settingDefs
  case switches => exact h.switches
  case mapping => exact h.mapping
  case conditions => exact h.conditions
  case utf8Sets => exact h.utf8Sets
  case glyphSets => exact h.glyphSets
  case utf8Rules => exact h.utf8Rules
  case glyphRules => exact h.glyphRules
  case horzCount => exact h.horzCount
  case vertCount => exact h.vertCount
  case horzKern => exact h.horzKern
  case vertKern => exact h.vertKern
  case size => exact h.size
  case font => exact h.font

end BuilderModel
