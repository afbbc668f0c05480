import Verif.Model.Helpers

/-!
# Lemmas for C42
-/

namespace C42
open Go Helpers

theorem patterns_sum (n : Nat) : ∀ (v a b c d : Nat),
    let r := entropyPatterns n v (a, b, c, d)
    r.1 + r.2.1 + r.2.2.1 + r.2.2.2 = a + b + c + d + n := by
  induction n with
  | zero => intro v a b c d; simp [entropyPatterns]
  | succ n ih =>
    intro v a b c d
    simp only [entropyPatterns]
    split <;> (have := ih (v >>> 1); simp only at this; rw [this]; omega)

/-- The distance accumulated by the code (in a `uint8`) is the L1 distance of the pattern counts to
the uniform distribution, and at most 48: nothing wraps. -/
theorem dist_le (v : Nat) : entropyDist v ≤ 48 := by
  have h := patterns_sum 32 v 0 0 0 0
  simp only at h
  unfold entropyDist
  revert h
  generalize entropyPatterns 32 v (0, 0, 0, 0) = r
  obtain ⟨a, b, c, d⟩ := r
  intro h
  simp only at h
  simp only [entropyDistStep, u8]
  split <;> split <;> split <;> split <;> omega

theorem patterns_low (n : Nat) : ∀ (v k : Nat) (c : Nat × Nat × Nat × Nat), n + 1 ≤ k →
    entropyPatterns n (v % 2 ^ k) c = entropyPatterns n v c := by
  induction n with
  | zero => intro v k c _; obtain ⟨a, b, c, d⟩ := c; rfl
  | succ n ih =>
    intro v k c hk
    obtain ⟨a, b, c, d⟩ := c
    have h3 : v % 2 ^ k &&& 3 = v &&& 3 := by
      have e : ∀ x : Nat, x &&& 3 = x % 4 := fun x => Nat.and_two_pow_sub_one_eq_mod x 2
      rw [e, e]
      exact Nat.mod_mod_of_dvd v (by
        have : (4 : Nat) = 2 ^ 2 := rfl
        rw [this]; exact Nat.pow_dvd_pow 2 (by omega))
    have hs : (v % 2 ^ k) >>> 1 = (v >>> 1) % 2 ^ (k - 1) := by
      obtain ⟨j, rfl⟩ : ∃ j, k = j + 1 := ⟨k - 1, by omega⟩
      simp only [Nat.shiftRight_eq_div_pow, Nat.pow_one, Nat.add_sub_cancel]
      rw [Nat.pow_succ, Nat.mul_comm, Nat.mod_mul_right_div_self]
    simp only [entropyPatterns, h3, hs]
    split <;> exact ih _ (k - 1) _ (by omega)

end C42
