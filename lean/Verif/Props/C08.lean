import Verif.Lemmas.Date
import Verif.Lemmas.Bytes

/-!
# C08: date validation is exactly the Gregorian calendar

The code violates the property: it panics for every date without a month (also the completely
undefined date and the year-only date, which the format allows).
-/

namespace C08
open Go DateModel Spec.Calendar

/-- Exact behaviour of `IsValid` on all dates: it panics precisely when there is neither month nor
day, and otherwise decides calendar validity. -/
theorem isValid_partial (d : Date) :
    (d.month = 0 ∧ d.day = 0 → d.isValid.isPanic) ∧
    (¬ (d.month = 0 ∧ d.day = 0) →
      ∃ b, d.isValid = .ok b ∧ (b = true ↔ Valid d.year d.month d.day)) := by
  obtain ⟨y, m, dd⟩ := d
  constructor
  · rintro ⟨h1, h2⟩
    simp only at h1 h2
    subst h1 h2
    simp [Date.isValid, Date.monthDays, idx, monthDaysTable, sub8]
  · intro hne
    simp only at hne
    unfold Date.isValid
    simp only
    by_cases c1 : m = 0 ∧ dd ≠ 0
    · rw [if_pos c1]
      refine ⟨false, rfl, ?_⟩
      constructor
      · simp
      · intro h; obtain ⟨rfl, hd⟩ := c1
        cases h with
        | unknown => exact absurd rfl hd
        | year => exact absurd rfl hd
        | month _ hdays => cases hdays
        | full _ hdays => cases hdays
    rw [if_neg c1]
    have hm : m ≠ 0 := by intro e; apply c1; refine ⟨e, ?_⟩; intro e2; exact hne ⟨e, e2⟩
    by_cases c2 : y = 0 ∧ (m ≠ 0 ∨ dd ≠ 0)
    · rw [if_pos c2]
      refine ⟨false, rfl, ?_⟩
      constructor
      · simp
      · intro h; cases h with
        | unknown => exact absurd rfl hm
        | year hy => exact absurd c2.1 hy
        | month hy => exact absurd c2.1 hy
        | full hy => exact absurd c2.1 hy
    rw [if_neg c2]
    have hy : y ≠ 0 := fun e => c2 ⟨e, Or.inl hm⟩
    by_cases c3 : m > 12
    · rw [if_pos c3]
      refine ⟨false, rfl, ?_⟩
      constructor
      · simp
      · intro h; cases h with
        | unknown => exact absurd rfl hm
        | year => exact absurd rfl hm
        | month _ hd => cases hd <;> omega
        | full _ hd => cases hd <;> omega
    rw [if_neg c3]
    obtain ⟨n, hn, hdays⟩ := monthDays_spec ⟨y, m, dd⟩ (by simp only; omega) (by simp only; omega)
    rw [hn, Res.ok_bind]
    simp only at hdays
    by_cases c4 : dd > n
    · rw [if_pos c4]
      refine ⟨false, rfl, ?_⟩
      constructor
      · simp
      · intro h; cases h with
        | unknown => exact absurd rfl hm
        | year => exact absurd rfl hm
        | month => omega
        | full _ hd _ hle => have := (hdays _).mp hd; omega
    · rw [if_neg c4]
      refine ⟨true, rfl, ?_⟩
      simp only [true_iff]
      by_cases h0 : dd = 0
      · subst h0; exact .month hy ((hdays n).mpr rfl)
      · exact .full hy ((hdays n).mpr rfl) (by omega) (by omega)

example : (⟨2024, 2, 29⟩ : Date).isValid = .ok true ∧ (⟨1900, 2, 29⟩ : Date).isValid = .ok false ∧
    (⟨2000, 2, 29⟩ : Date).isValid = .ok true ∧ (⟨2023, 4, 31⟩ : Date).isValid = .ok false := by decide

/-- **C08 is violated.** `IsValid` panics on the year-only date 2020 and on the undefined date,
which are valid: `monthDays[self.Month - 1]` is evaluated with `Month == 0`. -/
theorem isValid_violated :
    Valid 2020 0 0 ∧ (⟨2020, 0, 0⟩ : Date).isValid.isPanic ∧
    Valid 0 0 0 ∧ (⟨0, 0, 0⟩ : Date).isValid.isPanic :=
  ⟨.year (by decide), rfl, .unknown, rfl⟩

/-- Dates stored in a header are read back unchanged, at any offset. -/
theorem date_roundtrip (d : Date) (hy : d.year < 2 ^ 16) (hm : d.month < 2 ^ 8) (hd : d.day < 2 ^ 8)
    (pre post : Bytes) :
    Helpers.decodeDate ((d.appendTo pre ++ post).drop pre.length) =
      .ok (d.year, d.month, d.day) := by
  have h : d.appendTo pre ++ post =
      pre ++ (byte d.year :: byte (d.year >>> 8) :: byte d.month :: byte d.day :: post) := by
    simp [Date.appendTo, Helpers.appendUint16LE]
  rw [h, List.drop_left]
  simp only [Helpers.decodeDate, Helpers.decodeUint16LE_cons, Res.ok_bind, Res.pure_eq, byte_toNat,
    Nat.shiftRight_eq_div_pow]
  congr 2
  · omega
  · congr 1 <;> omega

example : Helpers.decodeDate (((⟨2024, 11, 16⟩ : Date).appendTo [1, 2] ++ [3]).drop 2) =
    .ok (2024, 11, 16) := by decide

end C08
