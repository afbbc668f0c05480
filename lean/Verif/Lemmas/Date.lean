import Verif.Model.Date
import Verif.Spec.Date

/-!
# Lemmas for C08
-/

namespace C08
open Go DateModel Spec.Calendar

theorem leap_iff (y : Nat) : isLeapYear y = true ↔ Leap y := by
  have e : y &&& 3 = y % 4 := Nat.and_two_pow_sub_one_eq_mod y 2
  unfold isLeapYear Leap
  rw [e]
  simp only [Nat.dvd_iff_mod_eq_zero]
  split
  · constructor
    · simp
    · intro h; omega
  · split
    · simp; omega
    · simp only [beq_iff_eq]; omega

/-- The table lookup gives the number of days of the month for every month of the year. -/
theorem monthDays_spec (d : Date) (h1 : 1 ≤ d.month) (h2 : d.month ≤ 12) :
    ∃ n, d.monthDays = .ok n ∧ ∀ k, Days d.year d.month k ↔ k = n := by
  obtain ⟨y, m, dd⟩ := d
  simp only at h1 h2
  have hl := leap_iff y
  have hm : m = 1 ∨ m = 2 ∨ m = 3 ∨ m = 4 ∨ m = 5 ∨ m = 6 ∨ m = 7 ∨ m = 8 ∨ m = 9 ∨ m = 10 ∨
    m = 11 ∨ m = 12 := by omega
  rcases hm with rfl | rfl | rfl | rfl | rfl | rfl | rfl | rfl | rfl | rfl | rfl | rfl
  case inr.inl =>
    cases hb : isLeapYear y with
    | true =>
      refine ⟨29, by simp only [Date.monthDays, hb]; decide, ?_⟩
      intro k; constructor
      · intro h; cases h with
        | febLeap => rfl
        | feb hn => exact absurd (hl.mp hb) hn
      · rintro rfl; exact .febLeap (hl.mp hb)
    | false =>
      have hn : ¬ Leap y := by rw [← hl, hb]; simp
      refine ⟨28, by simp only [Date.monthDays, hb]; decide, ?_⟩
      intro k; constructor
      · intro h; cases h with
        | febLeap hx => exact absurd hx hn
        | feb => rfl
      · rintro rfl; exact .feb hn
  all_goals
    refine ⟨_, by simp only [Date.monthDays]; rfl, ?_⟩
    intro k; constructor
    · intro h; cases h; rfl
    · rintro rfl; constructor

end C08
