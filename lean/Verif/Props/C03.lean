import Verif.Lemmas.Search

/-!
# C03: ordered insertion and search keep a sorted set
-/

namespace C03
open Go Helpers

/-- Searching a sorted slice never panics; it returns the number of smaller elements (the position
of the first element that is not smaller) and whether the element is a member. -/
theorem search_correct (l : List Nat) (hs : l.Pairwise (· ≤ ·)) (t : Nat) :
    ∃ i found, badBinarySearch l t = .ok (i, found) ∧ i ≤ l.length ∧
      (∀ j (h : j < l.length), l[j] < t ↔ j < i) ∧ (found = true ↔ t ∈ l) ∧
      (found = true → l[i]? = some t) := by
  obtain ⟨r, hr, hrl, h1, h2⟩ := badBinarySearchLoop_spec hs t (l.length + 1) 0 l.length
    (by omega) (by omega) (by omega) (by intro j h hj; omega) (by intro j h hj; omega)
  have hmem : ∀ hlt : r < l.length, t ∈ l → l[r] = t := by
    intro hlt hm
    obtain ⟨k, hk, hkt⟩ := List.mem_iff_getElem.mp hm
    have hrk : r ≤ k := by
      rcases Nat.lt_or_ge k r with h | h
      · have := h1 k hk h; omega
      · exact h
    have := pairwise_getElem_le hs hrk hk
    have := h2 r hlt (Nat.le_refl _)
    omega
  have hiff : ∀ j (h : j < l.length), l[j] < t ↔ j < r := by
    intro j h
    constructor
    · intro hl
      rcases Nat.lt_or_ge j r with h' | h'
      · exact h'
      · have := h2 j h h'; omega
    · exact h1 j h
  by_cases hlt : r < l.length
  · refine ⟨r, l[r] == t, ?_, hrl, hiff, ?_, ?_⟩
    · simp [badBinarySearch, hr, hlt, idx_lt hlt]
    · rw [beq_iff_eq]
      exact ⟨fun e => e ▸ List.getElem_mem _, hmem hlt⟩
    · rw [beq_iff_eq]; intro e; simp [hlt, e]
  · refine ⟨r, false, ?_, hrl, hiff, ?_, by simp⟩
    · simp [badBinarySearch, hr, hlt]
    · simp only [Bool.false_eq_true, false_iff]
      intro hm
      obtain ⟨k, hk, hkt⟩ := List.mem_iff_getElem.mp hm
      have := h1 k hk (by omega)
      omega

example : [1, 4, 4, 9, 12].Pairwise (· ≤ ·) := by decide
example : badBinarySearch [1, 4, 4, 9, 12] 9 = .ok (3, true) := by decide
example : badBinarySearch [1, 4, 4, 9, 12] 10 = .ok (4, false) := by decide

/-- Inserting in a sorted duplicate-free slice never panics, keeps it sorted and duplicate-free,
adds exactly the new element, and leaves the slice untouched when the element was present. -/
theorem insert_correct (l : List Nat) (hs : l.Pairwise (· < ·)) (e : Nat) :
    ∃ l', basicOrderedNonRepeatInsert l e = .ok l' ∧ l'.Pairwise (· < ·) ∧
      (∀ x, x ∈ l' ↔ x = e ∨ x ∈ l) ∧ (e ∈ l → l' = l) ∧
      l'.length = if e ∈ l then l.length else l.length + 1 := by
  obtain ⟨r, hr, hspec⟩ := orderedInsertPos_spec hs e l.length (Nat.le_refl _)
    (by intro j h hj; omega)
  cases r with
  | none =>
    have hm : e ∈ l := hspec
    refine ⟨l, by simp [basicOrderedNonRepeatInsert, hr], hs, ?_, fun _ => rfl, by simp [hm]⟩
    intro x; constructor
    · exact Or.inr
    · rintro (rfl | h)
      · exact hm
      · exact h
  | some p =>
    obtain ⟨hp, hge, hlt⟩ := hspec
    have hnm : e ∉ l := by
      intro hm
      obtain ⟨k, hk, hke⟩ := List.mem_iff_getElem.mp hm
      rcases Nat.lt_or_ge k p with h | h
      · have := hlt k hk h; omega
      · have := hge k hk h; omega
    have hsplit : l.take p ++ l.drop p = l := List.take_append_drop p l
    refine ⟨l.take p ++ e :: l.drop p, by simp [basicOrderedNonRepeatInsert, hr], ?_, ?_, ?_, ?_⟩
    · have hs' := hs
      rw [← hsplit, List.pairwise_append] at hs'
      obtain ⟨ha, hb, hab⟩ := hs'
      have hle : ∀ x ∈ l.take p, x < e := by
        intro x hx
        obtain ⟨k, hk, hkx⟩ := List.mem_iff_getElem.mp hx
        rw [List.length_take] at hk
        rw [List.getElem_take] at hkx
        have := hlt k (by omega) (by omega)
        omega
      have hgt : ∀ x ∈ l.drop p, e < x := by
        intro x hx
        obtain ⟨k, hk, hkx⟩ := List.mem_iff_getElem.mp hx
        rw [List.length_drop] at hk
        rw [List.getElem_drop] at hkx
        have := hge (p + k) (by omega) (by omega)
        omega
      rw [List.pairwise_append]
      refine ⟨ha, List.pairwise_cons.mpr ⟨hgt, hb⟩, ?_⟩
      intro a ha' b hb'
      rcases List.mem_cons.mp hb' with rfl | hb'
      · exact hle a ha'
      · exact hab a ha' b hb'
    · intro x
      have : x ∈ l ↔ x ∈ l.take p ∨ x ∈ l.drop p := by
        rw [← List.mem_append, hsplit]
      rw [this, List.mem_append, List.mem_cons]
      constructor
      · rintro (h | h | h)
        · exact Or.inr (Or.inl h)
        · exact Or.inl h
        · exact Or.inr (Or.inr h)
      · rintro (h | h | h)
        · exact Or.inr (Or.inl h)
        · exact Or.inl h
        · exact Or.inr (Or.inr h)
    · intro h; exact absurd h hnm
    · simp [hnm]; omega

example : [2, 5, 9].Pairwise (· < ·) ∧ basicOrderedNonRepeatInsert [2, 5, 9] 7 = .ok [2, 5, 7, 9] ∧
    basicOrderedNonRepeatInsert [2, 5, 9] 5 = .ok [2, 5, 9] := by decide

/-- Deleting at an index removes exactly that element, and nothing when the index is out of range. -/
theorem delete_correct {α : Type u} (l : List α) (i : Nat) :
    deleteElementAt l i = l.eraseIdx i := by
  unfold deleteElementAt
  simp only
  by_cases h1 : i + 1 > l.length
  · rw [if_pos h1, List.eraseIdx_of_length_le (by omega)]
  · rw [if_neg h1]
    by_cases h2 : i + 1 = l.length
    · rw [if_pos h2, List.eraseIdx_eq_take_drop_succ, ← h2, List.drop_eq_nil_of_le (by omega)]
      simp
    · rw [if_neg h2, List.eraseIdx_eq_take_drop_succ]

example : deleteElementAt [1, 2, 3] 1 = [1, 3] ∧ deleteElementAt [1, 2, 3] 3 = [1, 2, 3] := by decide

end C03
