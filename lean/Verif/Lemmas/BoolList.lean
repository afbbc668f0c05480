import Verif.Model.Helpers
import Verif.Spec.BoolList

/-!
# Refinement of `BoolList` to a plain list of booleans (helper lemmas for C02)
-/

namespace C02
open Go Helpers Spec.BoolList

/-- One client operation on the model. -/
def step (s : BoolList) : Op → Obs × BoolList
  | .push v => match s.push v with
    | .ok s' => (.unit, s')
    | _ => (.panic, s)
  | .get i => match s.get i with
    | .ok b => (.bool b, s)
    | _ => (.panic, s)
  | .set i v => match s.set i v with
    | .ok s' => (.unit, s')
    | _ => (.panic, s)
  | .getU8 i => match s.getU8 i with
    | .ok b => (.bool b, s)
    | _ => (.panic, s)
  | .setU8 i v => match s.setU8 i v with
    | .ok s' => (.unit, s')
    | _ => (.panic, s)
  | .setAllTrue => (.unit, s.setAllTrue)
  | .setAllFalse => (.unit, s.setAllFalse)

/-- Observations of a history on the model; stops after a panic. -/
def run (s : BoolList) : List Op → List Obs
  | [] => []
  | op :: ops => match step s op with
    | (.panic, _) => [.panic]
    | (o, s') => o :: run s' ops

/-! ## Bits -/

theorem mask_toNat (i : Nat) : (BoolList.bitMask i).toNat = 2 ^ (i % 8) := by
  have h : i &&& 7 = i % 8 := Nat.and_two_pow_sub_one_eq_mod i 3
  unfold BoolList.bitMask; rw [h]
  have : i % 8 < 8 := Nat.mod_lt _ (by omega)
  generalize i % 8 = j at this ⊢
  revert j; decide

theorem bit_eq (w : UInt8) (i : Nat) :
    ((w &&& BoolList.bitMask i) != 0) = w.toNat.testBit (i % 8) := by
  have h : ((w &&& BoolList.bitMask i) != 0) = ((w &&& BoolList.bitMask i).toNat != 0) := by
    rw [Bool.eq_iff_iff]; simp [← UInt8.toNat_inj]
  rw [h, UInt8.toNat_and, mask_toNat]
  generalize i % 8 = k
  cases hb : w.toNat.testBit k with
  | false =>
    have : w.toNat &&& 2 ^ k = 0 := by
      apply Nat.eq_of_testBit_eq
      intro j
      rw [Nat.testBit_and, Nat.testBit_two_pow, Nat.zero_testBit]
      by_cases hj : k = j
      · subst hj; simp [hb]
      · simp [hj]
    rw [this]; rfl
  | true =>
    have h2 : (w.toNat &&& 2 ^ k).testBit k = true := by
      rw [Nat.testBit_and, Nat.testBit_two_pow, hb]; simp
    have : w.toNat &&& 2 ^ k ≠ 0 := by
      intro e; rw [e] at h2; simp at h2
    simpa using this

theorem bit_or (w : UInt8) (i k : Nat) :
    (w ||| BoolList.bitMask i).toNat.testBit (k % 8) =
      (decide (i % 8 = k % 8) || w.toNat.testBit (k % 8)) := by
  rw [UInt8.toNat_or, mask_toNat, Nat.testBit_or, Nat.testBit_two_pow, Bool.or_comm]

theorem not_mask_testBit (i k : Nat) :
    (~~~ BoolList.bitMask i).toNat.testBit (k % 8) = !decide (i % 8 = k % 8) := by
  have h : i &&& 7 = i % 8 := Nat.and_two_pow_sub_one_eq_mod i 3
  unfold BoolList.bitMask; rw [h]
  have hi : i % 8 < 8 := Nat.mod_lt _ (by omega)
  have hk : k % 8 < 8 := Nat.mod_lt _ (by omega)
  generalize i % 8 = j at hi ⊢
  generalize k % 8 = l at hk ⊢
  revert j l; decide

theorem bit_andnot (w : UInt8) (i k : Nat) :
    (w &&& ~~~ BoolList.bitMask i).toNat.testBit (k % 8) =
      (!decide (i % 8 = k % 8) && w.toNat.testBit (k % 8)) := by
  rw [UInt8.toNat_and, Nat.testBit_and, not_mask_testBit, Bool.and_comm]

/-! ## Refinement -/

/-- Bit `i` of the packed storage. -/
def bitAt (bs : Bytes) (i : Nat) : Bool := (bs.getD (i / 8) 0).toNat.testBit (i % 8)

/-- The packed list `s` represents the plain list `l`. -/
structure Rep (s : BoolList) (l : List Bool) : Prop where
  size : s.size = l.length
  len : s.bools.length = (l.length + 7) / 8
  bits : ∀ i (h : i < l.length), bitAt s.bools i = l[i]

theorem rep_idx {s : BoolList} {l : List Bool} (h : Rep s l) {i : Nat} (hi : i < l.length) :
    idx s.bools (i >>> 3) = .ok (s.bools.getD (i / 8) 0) := by
  have := h.len
  have hlt : i / 8 < s.bools.length := by omega
  rw [Nat.shiftRight_eq_div_pow, idx_lt (by simpa using hlt)]
  simp [List.getD_eq_getElem?_getD, hlt]

theorem write_rep {s : BoolList} {l : List Bool} (hr : Rep s l) {i : Nat} (hi : i < l.length)
    (v : Bool) : ∃ s', s.write i v = .ok s' ∧ Rep s' (l.set i v) := by
  have hlt : i / 8 < s.bools.length := by have := hr.len; omega
  unfold BoolList.write
  rw [rep_idx hr hi]
  simp only [Res.ok_bind, Nat.shiftRight_eq_div_pow]
  rw [setAt_lt (by simpa using hlt)]
  refine ⟨_, rfl, ⟨?_, ?_, ?_⟩⟩
  · simpa using hr.size
  · simpa using hr.len
  · intro k hk
    have hk' : k < l.length := by simpa using hk
    have hold := hr.bits k hk'
    simp only [bitAt] at hold ⊢
    rw [List.getElem_set]
    by_cases hw : i / 8 = k / 8
    · have hget : (s.bools.set (i / 2 ^ 3)
          (if v = true then s.bools.getD (i / 8) 0 ||| BoolList.bitMask i
            else s.bools.getD (i / 8) 0 &&& ~~~BoolList.bitMask i)).getD (k / 8) 0 =
          (if v = true then s.bools.getD (i / 8) 0 ||| BoolList.bitMask i
            else s.bools.getD (i / 8) 0 &&& ~~~BoolList.bitMask i) := by
        have h23 : (2 : Nat) ^ 3 = 8 := rfl
        rw [h23, hw, List.getD_eq_getElem?_getD, List.getElem?_set_self (by omega)]; rfl
      rw [hget]
      rw [← hw] at hold
      by_cases hik : i = k
      · subst hik
        cases v
        · simp only [Bool.false_eq_true, if_false, bit_andnot]; simp
        · simp only [if_true, bit_or]; simp
      · have hne : ¬ (i % 8 = k % 8) := by omega
        cases v
        · simp only [Bool.false_eq_true, if_false, bit_andnot, hold]; simp [hne, hik]
        · simp only [if_true, bit_or, hold]; simp [hne, hik]
    · have hik : ¬ i = k := by intro e; subst e; exact hw rfl
      have hget : (s.bools.set (i / 2 ^ 3)
          (if v = true then s.bools.getD (i / 8) 0 ||| BoolList.bitMask i
            else s.bools.getD (i / 8) 0 &&& ~~~BoolList.bitMask i)).getD (k / 8) 0 =
          s.bools.getD (k / 8) 0 := by
        rw [List.getD_eq_getElem?_getD, List.getElem?_set_ne (by simpa using hw),
          List.getD_eq_getElem?_getD]
      rw [hget, hold]; simp [hik]

theorem get_rep {s : BoolList} {l : List Bool} (hr : Rep s l) {i : Nat} (hi : i < l.length) :
    (do let w ← idx s.bools (i >>> 3); return (w &&& BoolList.bitMask i) != 0 : Res Bool) =
      .ok l[i] := by
  rw [rep_idx hr hi, ← hr.bits i hi]
  simp only [Res.ok_bind, Res.pure_eq, bit_eq, bitAt]

theorem push_rep {s : BoolList} {l : List Bool} (hr : Rep s l) (v : Bool) :
    ∃ s', s.push v = .ok s' ∧ Rep s' (l ++ [v]) := by
  -- the state after growing
  have hgrow : Rep { (if s.size >>> 3 ≥ s.bools.length then { s with bools := s.bools ++ [0] }
      else s : BoolList) with size := s.size + 1 }
      (l ++ [bitAt (if s.size >>> 3 ≥ s.bools.length then s.bools ++ [0] else s.bools)
        l.length]) := by
    have hs := hr.size
    have hl := hr.len
    refine ⟨?_, ?_, ?_⟩
    · simp [hs]
    · by_cases hc : s.size >>> 3 ≥ s.bools.length
      · simp only [hc, if_true, List.length_append, List.length_singleton]
        rw [Nat.shiftRight_eq_div_pow] at hc; omega
      · simp only [hc, if_false, List.length_append, List.length_singleton]
        rw [Nat.shiftRight_eq_div_pow] at hc; omega
    · intro i hi
      by_cases hil : i < l.length
      · rw [List.getElem_append_left hil, ← hr.bits i hil]
        by_cases hc : s.size >>> 3 ≥ s.bools.length
        · simp only [hc, if_true, bitAt]
          have : i / 8 < s.bools.length := by omega
          simp [List.getD_eq_getElem?_getD, List.getElem?_append_left this]
        · simp only [hc, if_false]
      · have hi' : i = l.length := by simp at hi; omega
        subst hi'
        rw [List.getElem_append_right (Nat.le_refl _)]
        by_cases hc : s.size >>> 3 ≥ s.bools.length <;> simp [hc]
  unfold BoolList.push
  by_cases hc : s.size >>> 3 ≥ s.bools.length
  · simp only [hc, if_true] at hgrow ⊢
    have hi : l.length < (l ++ [bitAt (s.bools ++ [0]) l.length]).length := by simp
    obtain ⟨s', e, r⟩ := write_rep hgrow hi v
    refine ⟨s', ?_, ?_⟩
    · unfold BoolList.set
      have hsz := hr.size
      rw [if_neg (by simp only []; omega)]
      have : (((s.size + 1 : Nat) : Int) - 1).toNat = l.length := by omega
      rw [this]; exact e
    · simpa [List.set_append] using r
  · simp only [hc, if_false] at hgrow ⊢
    have hi : l.length < (l ++ [bitAt s.bools l.length]).length := by simp
    obtain ⟨s', e, r⟩ := write_rep hgrow hi v
    refine ⟨s', ?_, ?_⟩
    · unfold BoolList.set
      have hsz := hr.size
      rw [if_neg (by simp only []; omega)]
      have : (((s.size + 1 : Nat) : Int) - 1).toNat = l.length := by omega
      rw [this]; exact e
    · simpa [List.set_append] using r

theorem step_rep {s : BoolList} {l : List Bool} (hr : Rep s l) (op : Op) (o : Obs)
    (l' : List Bool) (h : Spec.BoolList.step l op = some (o, l')) :
    (step s op).1 = o ∧ (o ≠ .panic → Rep (step s op).2 l') := by
  have hs := hr.size
  cases op with
  | push v =>
    simp only [Spec.BoolList.step, Option.some.injEq, Prod.mk.injEq] at h
    obtain ⟨rfl, rfl⟩ := h
    obtain ⟨s', e, r⟩ := push_rep hr v
    simp [step, e, r]
  | get i =>
    simp only [Spec.BoolList.step] at h
    by_cases hi : 0 ≤ i
    · rw [if_pos hi] at h
      by_cases hil : i.toNat < l.length
      · rw [List.getElem?_eq_getElem hil] at h
        simp only [Option.some.injEq, Prod.mk.injEq] at h
        obtain ⟨rfl, rfl⟩ := h
        have hcond : ¬ (i < 0 ∨ i ≥ (s.size : Int)) := by omega
        have hg : s.get i = .ok l[i.toNat] := by
          unfold BoolList.get; rw [if_neg hcond]; exact get_rep hr hil
        simp [step, hg, hr]
      · rw [List.getElem?_eq_none (by omega)] at h
        simp only [Option.some.injEq, Prod.mk.injEq] at h
        obtain ⟨rfl, rfl⟩ := h
        have hcond : i < 0 ∨ i ≥ (s.size : Int) := by omega
        have hg : s.get i = .panic "out of bounds" := by unfold BoolList.get; rw [if_pos hcond]
        simp [step, hg]
    · rw [if_neg hi] at h
      simp only [Option.some.injEq, Prod.mk.injEq] at h
      obtain ⟨rfl, rfl⟩ := h
      have hcond : i < 0 ∨ i ≥ (s.size : Int) := by omega
      have hg : s.get i = .panic "out of bounds" := by unfold BoolList.get; rw [if_pos hcond]
      simp [step, hg]
  | set i v =>
    simp only [Spec.BoolList.step] at h
    by_cases hi : 0 ≤ i ∧ i < l.length
    · rw [if_pos hi] at h
      simp only [Option.some.injEq, Prod.mk.injEq] at h
      obtain ⟨rfl, rfl⟩ := h
      obtain ⟨s', e, r⟩ := write_rep hr (i := i.toNat) (by omega) v
      have hg : s.set i v = .ok s' := by
        unfold BoolList.set; rw [if_neg (by omega)]; exact e
      simp [step, hg, r]
    · rw [if_neg hi] at h
      simp only [Option.some.injEq, Prod.mk.injEq] at h
      obtain ⟨rfl, rfl⟩ := h
      have hg : s.set i v = .panic "out of bounds" := by
        unfold BoolList.set; rw [if_pos (by omega)]
      simp [step, hg]
  | getU8 i =>
    simp only [Spec.BoolList.step] at h
    by_cases hil : i.toNat < l.length
    · rw [List.getElem?_eq_getElem hil] at h
      simp only [Option.some.injEq, Prod.mk.injEq] at h
      obtain ⟨rfl, rfl⟩ := h
      have hg : s.getU8 i = .ok l[i.toNat] := get_rep hr hil
      simp [step, hg, hr]
    · rw [List.getElem?_eq_none (by omega)] at h; simp at h
  | setU8 i v =>
    simp only [Spec.BoolList.step] at h
    by_cases hil : i.toNat < l.length
    · rw [if_pos hil] at h
      simp only [Option.some.injEq, Prod.mk.injEq] at h
      obtain ⟨rfl, rfl⟩ := h
      obtain ⟨s', e, r⟩ := write_rep hr hil v
      have hg : s.setU8 i v = .ok s' := e
      simp [step, hg, r]
    · rw [if_neg hil] at h; simp at h
  | setAllTrue =>
    simp only [Spec.BoolList.step, Option.some.injEq, Prod.mk.injEq] at h
    obtain ⟨rfl, rfl⟩ := h
    refine ⟨rfl, fun _ => ⟨by simpa [step, BoolList.setAllTrue] using hs,
      by simpa [step, BoolList.setAllTrue] using hr.len, ?_⟩⟩
    intro i hi
    have hi' : i < l.length := by simpa using hi
    have hlt : i / 8 < s.bools.length := by have := hr.len; omega
    have : i % 8 < 8 := Nat.mod_lt _ (by omega)
    simp only [step, BoolList.setAllTrue, bitAt, List.getElem_replicate]
    rw [List.getD_eq_getElem?_getD, List.getElem?_map, List.getElem?_eq_getElem hlt]
    generalize i % 8 = j at this ⊢
    simp only [Option.map_some, Option.getD_some]
    revert j; decide
  | setAllFalse =>
    simp only [Spec.BoolList.step, Option.some.injEq, Prod.mk.injEq] at h
    obtain ⟨rfl, rfl⟩ := h
    refine ⟨rfl, fun _ => ⟨by simpa [step, BoolList.setAllFalse] using hs,
      by simpa [step, BoolList.setAllFalse] using hr.len, ?_⟩⟩
    intro i hi
    have hi' : i < l.length := by simpa using hi
    have hlt : i / 8 < s.bools.length := by have := hr.len; omega
    simp only [step, BoolList.setAllFalse, bitAt, List.getElem_replicate]
    rw [List.getD_eq_getElem?_getD, List.getElem?_map, List.getElem?_eq_getElem hlt]
    simp

theorem run_rep (ops : List Op) : ∀ (s : BoolList) (l : List Bool), Rep s l → ∀ obs,
    Spec.BoolList.run l ops = some obs → run s ops = obs := by
  induction ops with
  | nil => intro s l _ obs h; simp [Spec.BoolList.run] at h; simp [run, h]
  | cons op ops ih =>
    intro s l hr obs h
    unfold Spec.BoolList.run at h
    cases hst : Spec.BoolList.step l op with
    | none => rw [hst] at h; simp at h
    | some r =>
      obtain ⟨o, l'⟩ := r
      obtain ⟨h1, h2⟩ := step_rep hr op o l' hst
      rw [hst] at h
      unfold run
      cases o with
      | panic =>
        simp only [Option.some.injEq] at h
        subst h
        split
        · rfl
        · rename_i hne heq; rw [heq] at h1; exact absurd h1 (by intro e; exact hne e)
      | unit =>
        simp only [Option.map_eq_some_iff] at h
        obtain ⟨t, ht, rfl⟩ := h
        have hrep := h2 (by simp)
        split
        · rename_i heq; rw [heq] at h1; simp at h1
        · rename_i s' _ heq
          rw [heq] at h1 hrep
          simp only at h1 hrep
          rw [h1, ih _ _ hrep _ ht]
      | bool b =>
        simp only [Option.map_eq_some_iff] at h
        obtain ⟨t, ht, rfl⟩ := h
        have hrep := h2 (by simp)
        split
        · rename_i heq; rw [heq] at h1; simp at h1
        · rename_i s' _ heq
          rw [heq] at h1 hrep
          simp only at h1 hrep
          rw [h1, ih _ _ hrep _ ht]

theorem new_rep (n : Nat) : Rep (BoolList.new n) (List.replicate n false) := by
  unfold BoolList.new
  by_cases h : (n : Int) ≤ 0
  · have : n = 0 := by omega
    subst this; exact ⟨by simp, by simp, by simp⟩
  · rw [if_neg h]
    refine ⟨by simp, by simp [Nat.shiftRight_eq_div_pow], ?_⟩
    intro i hi
    have hlt : i / 8 < (n + 7) / 8 := by simp at hi; omega
    simp [bitAt, Nat.shiftRight_eq_div_pow, List.getD_eq_getElem?_getD,
      List.getElem?_replicate, hlt]

end C02
