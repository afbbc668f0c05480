import Verif.Lemmas.BoolList
import Verif.Spec.Caches

/-! # The settings cache refines its specification -/

namespace Helpers
open Go C02

/-- The bits of a `BoolList`, whatever its size. -/
def Bits (s : BoolList) (k : Nat) (g : Nat → Bool) : Prop :=
  s.bools.length = k ∧ ∀ i, i < 8 * k → bitAt s.bools i = g i

theorem Bits.rep {s : BoolList} {k : Nat} {g : Nat → Bool} (h : Bits s k g) :
    Rep ⟨8 * k, s.bools⟩ ((List.range (8 * k)).map g) := by
  refine ⟨by simp, by simp [h.1]; omega, ?_⟩
  intro i hi
  simp only [List.length_map, List.length_range] at hi
  simp [h.2 i hi]

theorem Bits.get {s : BoolList} {k : Nat} {g : Nat → Bool} (h : Bits s k g) {i : UInt8}
    (hi : i.toNat < 8 * k) : s.getU8 i = .ok (g i.toNat) := by
  have := get_rep h.rep (i := i.toNat) (by simpa using hi)
  simp only [List.getElem_map, List.getElem_range] at this
  exact this

theorem Bits.get_out {s : BoolList} {k : Nat} {g : Nat → Bool} (h : Bits s k g) {i : UInt8}
    (hi : 8 * k ≤ i.toNat) : (s.getU8 i).isPanic = true := by
  rw [BoolList.getU8, idx_ge (by rw [h.1, Nat.shiftRight_eq_div_pow]; omega)]
  rfl

theorem Bits.set {s : BoolList} {k : Nat} {g : Nat → Bool} (h : Bits s k g) {i : UInt8} (v : Bool)
    (hi : i.toNat < 8 * k) : ∃ s', s.setU8 i v = .ok s' ∧
      Bits s' k (fun j => if j = i.toNat then v else g j) := by
  obtain ⟨s', h1, h2⟩ := write_rep h.rep (i := i.toNat) (by simpa using hi) v
  simp only [BoolList.write, Res.bind_eq_ok, Res.pure_eq, Res.ok.injEq] at h1
  obtain ⟨w, hw, bs, hbs, rfl⟩ := h1
  refine ⟨⟨s.size, bs⟩, ?_, ?_, ?_⟩
  · simp only [BoolList.setU8, BoolList.write]
    rw [hw, Res.ok_bind, hbs]
    rfl
  · have := h2.len
    simp at this
    simp only
    omega
  · intro j hj
    have := h2.bits j (by simpa using hj)
    simp only at this
    rw [this, List.getElem_set]
    simp [eq_comm]

theorem Bits.set_out {s : BoolList} {k : Nat} {g : Nat → Bool} (h : Bits s k g) {i : UInt8} (v : Bool)
    (hi : 8 * k ≤ i.toNat) : (s.setU8 i v).isPanic = true := by
  rw [BoolList.setU8, BoolList.write, idx_ge (by rw [h.1, Nat.shiftRight_eq_div_pow]; omega)]
  rfl

theorem Bits.clear {s : BoolList} {k : Nat} {g : Nat → Bool} (h : Bits s k g) :
    Bits s.setAllFalse k (fun _ => false) := by
  refine ⟨by simp [BoolList.setAllFalse, h.1], ?_⟩
  intro i hi
  have : i / 8 < s.bools.length := by rw [h.1]; omega
  simp [BoolList.setAllFalse, bitAt, List.getD_eq_getElem?_getD, this]

theorem Bits.new (n : Nat) : Bits (BoolList.new n) ((n + 7) / 8) (fun _ => false) := by
  have e : (BoolList.new n).bools = List.replicate ((n + 7) / 8) 0 := by
    unfold BoolList.new
    by_cases h : (n : Int) ≤ 0
    · have : n = 0 := by omega
      subst this; rfl
    · rw [if_neg h, Nat.shiftRight_eq_div_pow]
      simp
  refine ⟨by rw [e]; simp, ?_⟩
  intro i hi
  rw [e]
  have : i / 8 < (n + 7) / 8 := by omega
  simp [bitAt, List.getD_eq_getElem?_getD, this]

end Helpers

namespace CacheModel
open Go Helpers Spec.Settings FontModel

/-- The cache represents a state. -/
structure Repr (c : SettingsCache) (s : State) : Prop where
  settings : c.settings = s.settings
  mapRel : C02.Rep c.mappingRelevance (List.replicate s.settings.length true)
  condRel : C02.Rep c.conditionRelevance (List.replicate s.settings.length true)
  caseFlags : Bits c.caseFlags ((s.numSwitches + 7) / 8) (fun i => (s.cases i).isSome)
  caseLen : c.cases.length = s.numSwitches
  cases : ∀ i v, s.cases i = some v → c.cases[i]? = some v
  condFlags : Bits c.conditionFlags ((s.numConditions + 7) / 8) (fun i => (s.conditions i).isSome)
  conds : ∃ g, Bits c.conditions ((s.numConditions + 7) / 8) g ∧
    ∀ i v, s.conditions i = some v → g i = v


theorem setAt_ge {α : Type} {l : List α} {i : Nat} {v : α} (h : l.length ≤ i) :
    setAt l i v = .panic "index out of range" := by
  rw [setAt, if_neg (by omega)]

theorem byte_toNat' (i : UInt8) : byte i.toNat = i := by simp [byte]

theorem isPanic_of {α : Type} {x : Res α} (h : x.isPanic = true) : ∃ m, x = .panic m := by
  cases x <;> simp_all [Res.isPanic]

theorem Repr.new {f : Font} {n s k : Nat} (hn : f.numSettings = .ok n) (hs : f.numSwitchTypes = .ok s)
    (hk : f.numConditions = .ok k) : ∃ c, SettingsCache.new f = .ok c ∧
      Repr c { settings := List.replicate n 0, numSwitches := s, numConditions := k } := by
  rw [SettingsCache.new, hn, Res.ok_bind, hs, Res.ok_bind, hk, Res.ok_bind]
  refine ⟨_, rfl, ?_⟩
  have hall : C02.Rep (BoolList.new n).setAllTrue (List.replicate n true) := by
    have := (C02.step_rep (C02.new_rep n) .setAllTrue .unit (List.replicate n true)
      (by simp [Spec.BoolList.step])).2 (by simp)
    exact this
  exact ⟨rfl, by simpa using hall, by simpa using hall, Bits.new s, by simp, by simp, Bits.new k,
    _, Bits.new k, by simp⟩

theorem Repr.step {c : SettingsCache} {s : State} (h : Repr c s) (op : Op) :
    (opStep c op).1 = (Spec.Settings.step s op).1 ∧
    ((Spec.Settings.step s op).1 ≠ .panic → Repr (opStep c op).2 (Spec.Settings.step s op).2) := by
  cases op with
  | set k v =>
    simp only [opStep, Spec.Settings.step]
    by_cases hk : k.toNat < s.settings.length
    · rw [if_pos hk]
      have hr : ∀ b : BoolList, C02.Rep b (List.replicate s.settings.length true) →
          b.get k.toNat = .ok true := by
        intro b hb
        have h2 := hb.size
        rw [List.length_replicate] at h2
        have h3 := C02.get_rep hb (i := k.toNat) (by simpa using hk)
        rw [BoolList.get, if_neg (by omega)]
        simpa using h3
      have e : c.set k.toNat v = .ok ({ c with
          settings := c.settings.set k.toNat v
          caseFlags := c.caseFlags.setAllFalse
          conditionFlags := c.conditionFlags.setAllFalse }, true, true) := by
        rw [SettingsCache.set, setAt_lt (by rw [h.settings]; exact hk), Res.ok_bind]
        simp only [hr _ h.mapRel, hr _ h.condRel, Res.ok_bind, if_true]
        rfl
      rw [e]
      refine ⟨rfl, fun _ => ?_⟩
      refine ⟨by rw [h.settings], ?_, ?_, h.caseFlags.clear, h.caseLen, by simp, h.condFlags.clear, ?_⟩
      · simpa using h.mapRel
      · simpa using h.condRel
      · obtain ⟨g, hg, _⟩ := h.conds
        exact ⟨g, hg, by simp⟩
    · rw [if_neg hk]
      have e : c.set k.toNat v = .panic "index out of range" := by
        rw [SettingsCache.set, setAt_ge (by rw [h.settings]; omega)]
        rfl
      rw [e]
      exact ⟨rfl, fun h => absurd rfl h⟩
  | get k =>
    simp only [opStep, Spec.Settings.step]
    have e : c.get k.toNat = .ok (s.settings.getD k.toNat 0) := by
      rw [SettingsCache.get, h.settings]
      split
      · rw [List.getD_eq_getElem?_getD, List.getElem?_eq_none (by omega)]; rfl
      · rw [idx_lt (by omega), List.getD_eq_getElem?_getD, List.getElem?_eq_getElem (by omega)]
        rfl
    rw [e]
    exact ⟨rfl, fun _ => h⟩
  | slice => exact ⟨by simp [opStep, Spec.Settings.step, h.settings], fun _ => h⟩
  | getCase t =>
    simp only [opStep, Spec.Settings.step, SettingsCache.getMappingCase]
    by_cases h1 : t.toNat ≥ 254
    · rw [if_pos h1, if_pos h1]; exact ⟨rfl, fun _ => h⟩
    · rw [if_neg h1, if_neg h1, byte_toNat']
      by_cases h2 : t.toNat < padded s.numSwitches
      · rw [if_pos h2, h.caseFlags.get h2, Res.ok_bind]
        cases hc : s.cases t.toNat with
        | none => exact ⟨rfl, fun _ => h⟩
        | some v =>
          have := idx_eq_ok.2 (h.cases _ _ hc)
          simp only [Option.isSome_some, Bool.not_true, Bool.false_eq_true, if_false]
          rw [this]
          exact ⟨rfl, fun _ => h⟩
      · rw [if_neg h2]
        obtain ⟨m, hm⟩ := isPanic_of (h.caseFlags.get_out (Nat.not_lt.1 h2))
        rw [hm]
        exact ⟨rfl, fun h => absurd rfl h⟩
  | storeCase t v =>
    simp only [opStep, Spec.Settings.step, SettingsCache.cacheMappingCase, byte_toNat']
    by_cases h2 : t.toNat < s.numSwitches
    · rw [if_pos h2]
      obtain ⟨b, hb, hB⟩ := h.caseFlags.set true (i := t) (by omega)
      rw [hb, Res.ok_bind, setAt_lt (by rw [h.caseLen]; exact h2)]
      simp only [Res.ok_bind, Res.pure_eq]
      refine ⟨trivial, fun _ => ⟨h.settings, h.mapRel, h.condRel, ?_, by simpa using h.caseLen, ?_,
        h.condFlags, h.conds⟩⟩
      · refine ⟨hB.1, fun i hi => ?_⟩
        rw [hB.2 i hi]
        simp only [put]
        split <;> rfl
      · intro i w hw
        simp only [put] at hw
        have hl := h.caseLen
        split at hw
        · rename_i he
          subst he
          simp only [Option.some.injEq] at hw
          subst hw
          rw [List.getElem?_set_self (by omega)]
        · rw [List.getElem?_set_ne (by omega)]
          exact h.cases _ _ hw
    · rw [if_neg h2]
      by_cases h3 : t.toNat < 8 * ((s.numSwitches + 7) / 8)
      · obtain ⟨b, hb, hB⟩ := h.caseFlags.set true h3
        rw [hb, Res.ok_bind, setAt_ge (by rw [h.caseLen]; omega)]
        exact ⟨rfl, fun h => absurd rfl h⟩
      · obtain ⟨m, hm⟩ := isPanic_of (h.caseFlags.set_out true (Nat.not_lt.1 h3))
        rw [hm]
        exact ⟨rfl, fun h => absurd rfl h⟩
  | getCondition i =>
    simp only [opStep, Spec.Settings.step, SettingsCache.getRewriteCondition]
    by_cases h1 : i.toNat = 255
    · rw [if_pos h1, if_pos h1]; exact ⟨rfl, fun _ => h⟩
    · rw [if_neg h1, if_neg h1, byte_toNat']
      by_cases h2 : i.toNat < padded s.numConditions
      · rw [if_pos h2, h.condFlags.get h2, Res.ok_bind]
        obtain ⟨g, hg, hgv⟩ := h.conds
        cases hc : s.conditions i.toNat with
        | none => exact ⟨rfl, fun _ => h⟩
        | some v =>
          simp only [Option.isSome_some, Bool.not_true, Bool.false_eq_true, if_false]
          rw [hg.get h2, hgv _ _ hc]
          exact ⟨rfl, fun _ => h⟩
      · rw [if_neg h2]
        obtain ⟨m, hm⟩ := isPanic_of (h.condFlags.get_out (Nat.not_lt.1 h2))
        rw [hm]
        exact ⟨rfl, fun h => absurd rfl h⟩
  | storeCondition i v =>
    simp only [opStep, Spec.Settings.step, SettingsCache.cacheRewriteCondition, byte_toNat']
    by_cases h2 : i.toNat < padded s.numConditions
    · rw [if_pos h2]
      obtain ⟨g, hg, hgv⟩ := h.conds
      obtain ⟨b, hb, hB⟩ := h.condFlags.set true h2
      obtain ⟨b2, hb2, hB2⟩ := hg.set v h2
      rw [hb, Res.ok_bind, hb2]
      simp only [Res.ok_bind, Res.pure_eq]
      refine ⟨trivial, fun _ => ⟨h.settings, h.mapRel, h.condRel, h.caseFlags, h.caseLen, h.cases, ?_,
        _, hB2, ?_⟩⟩
      · refine ⟨hB.1, fun j hj => ?_⟩
        rw [hB.2 j hj]
        simp only [put]
        split <;> rfl
      · intro j w hw
        simp only [put] at hw
        split at hw
        · rename_i he
          rw [if_pos he]
          simpa using hw
        · rename_i he
          rw [if_neg he]
          exact hgv _ _ hw
    · rw [if_neg h2]
      obtain ⟨m, hm⟩ := isPanic_of (h.condFlags.set_out true (Nat.not_lt.1 h2))
      rw [hm]
      exact ⟨rfl, fun h => absurd rfl h⟩

theorem Repr.run (ops : List Op) : ∀ {c : SettingsCache} {s : State}, Repr c s →
    opRun c ops = Spec.Settings.run s ops := by
  induction ops with
  | nil => intro c s _; rfl
  | cons op ops ih =>
    intro c s h
    obtain ⟨h1, h2⟩ := h.step op
    rw [opRun, Spec.Settings.run]
    revert h1 h2
    rcases opStep c op with ⟨o, c'⟩
    rcases Spec.Settings.step s op with ⟨o', s'⟩
    intro h1 h2
    simp only at h1 h2
    subst h1
    cases o <;> first | rfl | (simp only [List.cons.injEq, true_and]; exact ih (h2 (by simp)))

end CacheModel
