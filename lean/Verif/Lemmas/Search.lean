import Verif.Model.Helpers

/-!
# Lemmas for C03: binary search and ordered insertion
-/

namespace Helpers
open Go

theorem pairwise_getElem_lt {l : List Nat} (h : l.Pairwise (· < ·)) {i j : Nat} (hij : i < j)
    (hj : j < l.length) : l[i]'(by omega) < l[j] :=
  List.pairwise_iff_getElem.mp h i j (by omega) hj hij

theorem pairwise_getElem_le {l : List Nat} (h : l.Pairwise (· ≤ ·)) {i j : Nat} (hij : i ≤ j)
    (hj : j < l.length) : l[i]'(by omega) ≤ l[j] := by
  rcases Nat.lt_or_ge i j with h1 | h1
  · exact List.pairwise_iff_getElem.mp h i j (by omega) hj h1
  · have : i = j := by omega
    subst this; exact Nat.le_refl _

theorem badBinarySearchLoop_spec {l : List Nat} (hs : l.Pairwise (· ≤ ·)) (t : Nat) :
    ∀ (fuel lo hi : Nat), lo ≤ hi → hi ≤ l.length → hi - lo < fuel →
      (∀ j (h : j < l.length), j < lo → l[j] < t) →
      (∀ j (h : j < l.length), hi ≤ j → t ≤ l[j]) →
      ∃ r, badBinarySearchLoop l t fuel lo hi = .ok r ∧ r ≤ l.length ∧
        (∀ j (h : j < l.length), j < r → l[j] < t) ∧
        (∀ j (h : j < l.length), r ≤ j → t ≤ l[j]) := by
  intro fuel
  induction fuel with
  | zero => intro lo hi _ _ h; omega
  | succ fuel ih =>
    intro lo hi hle hlen hf h1 h2
    unfold badBinarySearchLoop
    by_cases hlt : lo < hi
    · rw [if_pos hlt]
      have hc : (lo + hi) >>> 1 = (lo + hi) / 2 := by rw [Nat.shiftRight_eq_div_pow]
      simp only [hc]
      have hmid : (lo + hi) / 2 < l.length := by omega
      rw [idx_lt hmid, Res.ok_bind]
      by_cases hv : l[(lo + hi) / 2] < t
      · rw [if_pos hv]
        refine ih _ _ (by omega) hlen (by omega) ?_ h2
        intro j hj hjl
        have := pairwise_getElem_le hs (i := j) (j := (lo + hi) / 2) (by omega) hmid
        omega
      · rw [if_neg hv]
        refine ih _ _ (by omega) (by omega) (by omega) h1 ?_
        intro j hj hjl
        have := pairwise_getElem_le hs (i := (lo + hi) / 2) (j := j) hjl hj
        omega
    · rw [if_neg hlt]
      have : lo = hi := by omega
      subst this
      exact ⟨lo, rfl, hlen, h1, h2⟩

theorem orderedInsertPos_spec {l : List Nat} (hs : l.Pairwise (· < ·)) (e : Nat) :
    ∀ i, i ≤ l.length → (∀ j (h : j < l.length), i ≤ j → e < l[j]) →
      ∃ r, orderedInsertPos l e i = .ok r ∧
        match r with
        | none => e ∈ l
        | some p => p ≤ l.length ∧ (∀ j (h : j < l.length), p ≤ j → e < l[j]) ∧
            (∀ j (h : j < l.length), j < p → l[j] < e) := by
  intro i
  induction i with
  | zero =>
    intro hi hgt
    exact ⟨some 0, rfl, by omega, hgt, by intro j h hj; omega⟩
  | succ i ih =>
    intro hi hgt
    unfold orderedInsertPos
    rw [idx_lt (by omega : i < l.length), Res.ok_bind]
    by_cases h1 : l[i] < e
    · refine ⟨some (i + 1), by simp [h1], hi, hgt, ?_⟩
      intro j hj hji
      rcases Nat.lt_or_ge j i with h | h
      · have := pairwise_getElem_lt hs h (by omega : i < l.length); omega
      · have : j = i := by omega
        subst this; exact h1
    · by_cases h2 : l[i] = e
      · refine ⟨none, by simp [h2], ?_⟩
        show e ∈ l
        rw [← h2]; exact List.getElem_mem _
      · obtain ⟨r, hr, hspec⟩ := ih (by omega) (by
          intro j hj hij
          rcases Nat.lt_or_ge i j with h | h
          · exact hgt j hj h
          · have : j = i := by omega
            subst this; omega)
        refine ⟨r, ?_, hspec⟩
        simp [h1, h2, hr]

end Helpers
