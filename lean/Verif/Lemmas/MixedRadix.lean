import Verif.Spec.Mapping

/-! # Mixed radix numbers -/

namespace Spec

theorem mixedRadix_snoc (l : List (Nat × Nat)) (d : Nat × Nat) :
    mixedRadix (l ++ [d]) = mixedRadix l * d.1 + d.2 := by simp [mixedRadix]

theorem combinations_snoc (l : List Nat) (d : Nat) : combinations (l ++ [d]) = combinations l * d := by
  simp [combinations]

/-- Induction from the end. -/
theorem snoc_induction {α : Type} {P : List α → Prop} (h0 : P []) (h1 : ∀ l a, P l → P (l ++ [a])) :
    ∀ l, P l := by
  intro l
  rw [← List.reverse_reverse l]
  induction l.reverse with
  | nil => exact h0
  | cons a l ih => rw [List.reverse_cons]; exact h1 _ _ ih

theorem mixedRadix_lt : ∀ l : List (Nat × Nat), (∀ d ∈ l, d.2 < d.1) →
    mixedRadix l < combinations (l.map Prod.fst) := by
  apply snoc_induction
  · intro _; decide
  · intro l d ih h
    rw [mixedRadix_snoc, List.map_append, List.map_cons, List.map_nil, combinations_snoc]
    have h1 := ih (fun x hx => h x (by simp [hx]))
    have h2 := h d (by simp)
    calc mixedRadix l * d.1 + d.2 < mixedRadix l * d.1 + d.1 := by omega
      _ = (mixedRadix l + 1) * d.1 := by rw [Nat.add_mul, Nat.one_mul]
      _ ≤ _ := Nat.mul_le_mul_right _ h1

theorem mixedRadix_inj : ∀ (l : List (Nat × Nat)) (m : List (Nat × Nat)),
    l.map Prod.fst = m.map Prod.fst → (∀ d ∈ l, d.2 < d.1) → (∀ d ∈ m, d.2 < d.1) →
    mixedRadix l = mixedRadix m → l = m := by
  apply snoc_induction
  · intro m hm _ _ _
    simp at hm
    exact hm.symm
  · intro l d ih m hm hl hm' he
    have hne : m ≠ [] := by
      intro h0; subst h0; simp at hm
    obtain ⟨m1, e, rfl⟩ : ∃ m1 e, m = m1 ++ [e] := ⟨_, _, (List.dropLast_concat_getLast hne).symm⟩
    simp only [List.map_append, List.map_cons, List.map_nil] at hm
    obtain ⟨hm1, hm2⟩ := List.append_inj' hm rfl
    simp only [List.cons.injEq, and_true] at hm2
    rw [mixedRadix_snoc, mixedRadix_snoc, ← hm2] at he
    have h1 := hl d (by simp)
    have h2 := hm' e (by simp)
    have hmod : d.2 = e.2 := by
      have := congrArg (· % d.1) he
      simp only [Nat.mul_add_mod_self_right] at this
      rwa [Nat.mod_eq_of_lt h1, Nat.mod_eq_of_lt (by omega)] at this
    have hdiv : mixedRadix l = mixedRadix m1 := by
      rw [hmod] at he
      have := Nat.add_right_cancel he
      exact Nat.eq_of_mul_eq_mul_right (by omega) this
    have := ih m1 hm1 (fun x hx => hl x (by simp [hx])) (fun x hx => hm' x (by simp [hx])) hdiv
    rw [this, show d = e from Prod.ext hm2 hmod]

theorem mixedRadix_surj : ∀ (bases : List Nat) (k : Nat), k < combinations bases →
    ∃ l : List (Nat × Nat), l.map Prod.fst = bases ∧ (∀ d ∈ l, d.2 < d.1) ∧ mixedRadix l = k := by
  apply snoc_induction
  · intro k hk
    have : k = 0 := by simp [combinations] at hk; exact hk
    exact ⟨[], rfl, by simp, by subst this; rfl⟩
  · intro bases d ih k hk
    rw [combinations_snoc] at hk
    have hd : 0 < d := by
      rcases Nat.eq_zero_or_pos d with h | h
      · subst h; simp at hk
      · exact h
    obtain ⟨l, h1, h2, h3⟩ := ih (k / d) (Nat.div_lt_of_lt_mul (by rwa [Nat.mul_comm]))
    refine ⟨l ++ [(d, k % d)], by simp [h1], ?_, ?_⟩
    · intro x hx
      rcases List.mem_append.1 hx with hx | hx
      · exact h2 x hx
      · simp only [List.mem_singleton] at hx
        subst hx
        exact Nat.mod_lt _ hd
    · rw [mixedRadix_snoc, h3]
      exact Nat.div_add_mod' k d

end Spec
