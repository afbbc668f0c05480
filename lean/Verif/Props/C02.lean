import Verif.Lemmas.BoolList
import Verif.Model.BoolListRaw

/-!
# C02: `BoolList` behaves as a list of booleans
-/

namespace C02
open Go Helpers Spec.BoolList

/-- **C02.** For every initial size and every history of operations, the packed `BoolList` shows the
same results (values and panics) as a plain list of booleans that starts all false. The only
histories left out are those in which the unchecked `U8` accessors are used past the size. -/
theorem boolList_refines_list (n : Nat) (ops : List Op) (obs : List Obs)
    (h : Spec.BoolList.run (List.replicate n false) ops = some obs) :
    run (BoolList.new n) ops = obs :=
  run_rep ops _ _ (new_rep n) obs h

/-- A history crossing a byte boundary, with writes, global sets, reads and a final panic. -/
example : Spec.BoolList.run (List.replicate 7 false)
    [.push true, .push true, .set 3 true, .get 3, .get 8, .setAllTrue, .set 8 false, .get 8, .getU8 0,
      .get 9] =
    some [.unit, .unit, .unit, .bool true, .bool true, .unit, .unit, .bool false, .bool true, .panic] := by
  decide

/-- The reported size is the number of elements after every push. -/
theorem size_after_push (s : BoolList) (l : List Bool) (h : Rep s l) (v : Bool) :
    ∃ s', s.push v = .ok s' ∧ s'.size = l.length + 1 := by
  obtain ⟨s', e, r⟩ := push_rep h v
  exact ⟨s', e, by simpa using r.size⟩

example : Rep (BoolList.new 9) (List.replicate 9 false) := new_rep 9

/-- Reading through a word index and a bit mask is reading the element: for every list that
represents `l` and every index, `RawGetU8` on the results of `GetWordAndBitMaskU8` is the element. -/
theorem raw_get (s : BoolList) (l : List Bool) (h : Rep s l) (i : UInt8) (v : Bool)
    (hi : l[i.toNat]? = some v) :
    s.rawGetU8 (BoolList.wordAndBitMaskU8 i).1 (BoolList.wordAndBitMaskU8 i).2 = .ok v := by
  have hlt : i.toNat < l.length := (List.getElem?_eq_some_iff.mp hi).1
  have hv : l[i.toNat] = v := (List.getElem?_eq_some_iff.mp hi).2
  have hw : (BoolList.wordAndBitMaskU8 i).1.toNat = i.toNat >>> 3 := by
    simp [BoolList.wordAndBitMaskU8]
  have hm : (BoolList.wordAndBitMaskU8 i).2 = BoolList.bitMask i.toNat := by
    have h7 : UInt8.ofNat (i.toNat &&& 7) = i &&& 7 := by
      rw [← UInt8.toNat_inj, UInt8.toNat_ofNat', UInt8.toNat_and]
      exact Nat.mod_eq_of_lt (Nat.lt_of_le_of_lt Nat.and_le_right (by decide))
    rw [BoolList.bitMask, h7]
    rfl
  rw [BoolList.rawGetU8, hw, hm, rep_idx h hlt]
  simp only [Res.ok_bind, Res.pure_eq, bit_eq]
  rw [← hv, ← h.bits _ hlt]
  rfl

/-- `IsUnset` and `IsUnsetU8` answer the negation of the element; `IsUnset` panics exactly outside
of the list. -/
theorem unset (s : BoolList) (l : List Bool) (h : Rep s l) :
    (∀ (i : Nat) (v : Bool), l[i]? = some v → s.isUnset i = .ok (!v)) ∧
    (∀ (i : UInt8) (v : Bool), l[i.toNat]? = some v → s.isUnsetU8 i = .ok (!v)) ∧
    ∀ i : Int, (s.isUnset i).isPanic = true ↔ (i < 0 ∨ (l.length : Int) ≤ i) := by
  have hb : ∀ (i : Nat) (v : Bool), l[i]? = some v → i < l.length ∧
      ((s.bools.getD (i / 8) 0 &&& BoolList.bitMask i) != 0) = v := by
    intro i v hi
    have hlt : i < l.length := (List.getElem?_eq_some_iff.mp hi).1
    refine ⟨hlt, ?_⟩
    rw [bit_eq, ← (List.getElem?_eq_some_iff.mp hi).2, ← h.bits _ hlt]
    rfl
  have hsz := h.size
  refine ⟨?_, ?_, ?_⟩
  · intro i v hi
    obtain ⟨hlt, hv⟩ := hb i v hi
    rw [BoolList.isUnset, BoolList.get, if_neg (by omega), Int.toNat_natCast, rep_idx h hlt]
    simp only [Res.ok_bind, Res.pure_eq, hv]
  · intro i v hi
    obtain ⟨hlt, hv⟩ := hb i.toNat v hi
    rw [BoolList.isUnsetU8, BoolList.getU8, rep_idx h hlt]
    simp only [Res.ok_bind, Res.pure_eq, hv]
  · intro i
    rw [BoolList.isUnset, BoolList.get]
    by_cases hi : i < 0 ∨ i ≥ s.size
    · rw [if_pos hi]
      simp only [show (i < 0 ∨ (l.length : Int) ≤ i) by omega, iff_true]
      rfl
    · rw [if_neg hi, rep_idx h (show i.toNat < l.length by omega)]
      simp only [show ¬ (i < 0 ∨ (l.length : Int) ≤ i) by omega, iff_false]
      simp [Res.isPanic]

example : Rep ⟨9, [255, 0]⟩ [true, true, true, true, true, true, true, true, false] :=
  ⟨rfl, rfl, by decide⟩

/-- What is left out above really differs: the unchecked accessor reads past the size without
panicking (the padding bits of the last byte), while the checked one panics. -/
theorem getU8_unchecked : (BoolList.new 3).getU8 5 = .ok false ∧
    (BoolList.new 3).get 5 = .panic "out of bounds" := by decide

end C02
