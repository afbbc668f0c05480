import Verif.Model.DateText
import Verif.Spec.DateText
import Verif.Lemmas.Date

/-! # Dates as text -/

namespace DateModel
open Go Spec.Calendar

theorem numberOf_append (x : Bytes) (b : UInt8) : numberOf (x ++ [b]) = 10 * numberOf x + (b.toNat - 48) := by
  simp [numberOf]

theorem digit_val {n : Nat} (h : n < 10) : (byte (48 + n)).toNat = 48 + n := by
  simp [byte]; omega

theorem digitsUpTo_plain : ∀ fuel n, n < fuel → Digits (digitsUpTo fuel n) ∧ numberOf (digitsUpTo fuel n) = n ∧
    ∃ b r, digitsUpTo fuel n = b :: r ∧ (b = 48 → r = [] ∧ n = 0)
  | 0, n, h => by omega
  | fuel + 1, n, h => by
    unfold digitsUpTo
    split
    · rename_i hn
      have hv := digit_val hn
      refine ⟨?_, ?_, _, _, rfl, ?_⟩
      · intro b hb
        rw [List.mem_singleton] at hb
        subst hb
        omega
      · simp only [numberOf, List.foldl_cons, List.foldl_nil, hv]; omega
      · intro e
        rw [e] at hv
        have : (48 : UInt8).toNat = 48 := rfl
        exact ⟨rfl, by omega⟩
    · rename_i hn
      obtain ⟨h1, h2, b, r, h3, h4⟩ := digitsUpTo_plain fuel (n / 10) (by omega)
      have hv := digit_val (n := n % 10) (by omega)
      refine ⟨?_, ?_, b, r ++ [byte (48 + n % 10)], by rw [h3]; rfl, ?_⟩
      · intro b hb
        rcases List.mem_append.1 hb with hb | hb
        · exact h1 b hb
        · rw [List.mem_singleton] at hb
          subst hb
          omega
      · rw [numberOf_append, h2, hv]; omega
      · intro e
        have := (h4 e).2
        omega

theorem sprintD_plain (n : Nat) : Plain n (sprintD n) := by
  obtain ⟨h1, h2, b, r, h3, h4⟩ := digitsUpTo_plain (n + 1) n (by omega)
  exact ⟨h1, h2, b, r, h3, fun e => (h4 e).1⟩

theorem numberOf_zeros (k : Nat) (x : Bytes) : numberOf (List.replicate k 48 ++ x) = numberOf x := by
  unfold numberOf
  rw [List.foldl_append]
  congr 1
  induction k with
  | zero => rfl
  | succ k ih => rw [List.replicate_succ]; exact ih

theorem sprint04D_padded (n : Nat) : Padded n (sprint04D n) := by
  obtain ⟨h1, h2, b, r, h3, h4⟩ := sprintD_plain n
  refine ⟨?_, ?_, ?_, ?_⟩
  · intro c hc
    rcases List.mem_append.1 hc with hc | hc
    · rw [List.eq_of_mem_replicate hc]; decide
    · exact h1 c hc
  · rw [sprint04D, numberOf_zeros]; exact h2
  · simp [sprint04D]; omega
  · intro hh
    rw [sprint04D] at hh ⊢
    rcases Nat.lt_or_ge (sprintD n).length 4 with hl | hl
    · simp; omega
    · rw [Nat.sub_eq_zero_of_le hl, List.replicate_zero, List.nil_append] at hh
      rw [h3, List.head?_cons, Option.some.injEq] at hh
      have := h4 hh
      rw [h3, this] at hl
      simp at hl

theorem monthName_text {m : Nat} (h : 1 ≤ m) (h' : m ≤ 12) (y d : Nat) :
    ∃ s, MonthName m s ∧ Date.monthName ⟨y, m, d⟩ = .ok (letters s) := by
  have : m = 1 ∨ m = 2 ∨ m = 3 ∨ m = 4 ∨ m = 5 ∨ m = 6 ∨ m = 7 ∨ m = 8 ∨ m = 9 ∨ m = 10 ∨ m = 11 ∨ m = 12 := by omega
  rcases this with rfl | rfl | rfl | rfl | rfl | rfl | rfl | rfl | rfl | rfl | rfl | rfl
  · exact ⟨_, .jan, rfl⟩
  · exact ⟨_, .feb, rfl⟩
  · exact ⟨_, .mar, rfl⟩
  · exact ⟨_, .apr, rfl⟩
  · exact ⟨_, .may, rfl⟩
  · exact ⟨_, .jun, rfl⟩
  · exact ⟨_, .jul, rfl⟩
  · exact ⟨_, .aug, rfl⟩
  · exact ⟨_, .sep, rfl⟩
  · exact ⟨_, .oct, rfl⟩
  · exact ⟨_, .nov, rfl⟩
  · exact ⟨_, .dec, rfl⟩

theorem monthName_letters {m : Nat} {s : String} (h : MonthName m s) :
    (∃ b r, letters s = b :: r ∧ 65 ≤ b.toNat ∧ b.toNat ≤ 90) ∧ (32 : UInt8) ∉ letters s := by
  cases h <;> exact ⟨⟨_, _, rfl, by decide, by decide⟩, by decide⟩

theorem monthName_inj {m m' : Nat} {s s' : String} (h : MonthName m s) (h' : MonthName m' s')
    (e : letters s = letters s') : m = m' := by
  cases h <;> cases h' <;> first | rfl | (exfalso; revert e; decide)

/-- Texts that end at the first space. -/
theorem space_split {a a' r r' : Bytes} (h : (32 : UInt8) ∉ a) (h' : (32 : UInt8) ∉ a') (e : a ++ 32 :: r = a' ++ 32 :: r') :
    a = a' ∧ r = r' := by
  induction a generalizing a' with
  | nil =>
    cases a' with
    | nil => simpa using e
    | cons b a' =>
      simp only [List.nil_append, List.cons_append, List.cons.injEq] at e
      exact absurd e.1 (fun e => h' (by rw [← e]; simp))
  | cons b a ih =>
    cases a' with
    | nil =>
      simp only [List.nil_append, List.cons_append, List.cons.injEq] at e
      exact absurd e.1 (fun e => h (by rw [e]; simp))
    | cons b' a' =>
      simp only [List.cons_append, List.cons.injEq] at e
      obtain ⟨i1, i2⟩ := ih (fun x => h (by simp [x])) (fun x => h' (by simp [x])) e.2
      exact ⟨by rw [e.1, i1], i2⟩

theorem digits_noSpace {x : Bytes} (h : Digits x) : (32 : UInt8) ∉ x := by
  intro hm
  have := h _ hm
  revert this; decide

theorem digits_head {b : UInt8} {x : Bytes} (h : Digits (b :: x)) : 48 ≤ b.toNat ∧ b.toNat ≤ 57 := h b (by simp)

/-- The four kinds of texts. -/
theorem text_kind {y m d : Nat} {x : Bytes} (h : Text y m d x) :
    (x = letters "(Unknown Date)" ∧ y = 0 ∧ m = 0 ∧ d = 0) ∨
    (Digits x ∧ 4 ≤ x.length ∧ numberOf x = y ∧ m = 0 ∧ d = 0) ∨
    (∃ s ys, x = letters s ++ 32 :: ys ∧ MonthName m s ∧ Digits ys ∧ numberOf ys = y ∧ d = 0) ∨
    (∃ s ys ds, x = ds ++ 32 :: (letters s ++ 32 :: ys) ∧ MonthName m s ∧ Digits ys ∧ numberOf ys = y ∧
      Digits ds ∧ ds ≠ [] ∧ numberOf ds = d) := by
  cases h with
  | unknown => exact Or.inl ⟨rfl, rfl, rfl, rfl⟩
  | year _ hp => exact Or.inr (Or.inl ⟨hp.digits, hp.four, hp.value, rfl, rfl⟩)
  | @month _ _ ys s hm hp => exact Or.inr (Or.inr (Or.inl ⟨s, ys, by simp, hm, hp.digits, hp.value, rfl⟩))
  | @full _ _ _ ys ds s _ hd hm hp =>
    refine Or.inr (Or.inr (Or.inr ⟨s, ys, ds, by simp, hm, hp.digits, hp.value, hd.digits, ?_, hd.value⟩))
    obtain ⟨b, r, e, _⟩ := hd.first
    rw [e]; simp

theorem text_inj {y m d y' m' d' : Nat} {x : Bytes} (h : Text y m d x) (h' : Text y' m' d' x) :
    y = y' ∧ m = m' ∧ d = d' := by
  have hu : letters "(Unknown Date)" = 40 :: letters "Unknown Date)" := by decide
  have hD : ∀ {r : Bytes}, ¬ Digits (40 :: r) := fun h => by have := digits_head h; revert this; decide
  have hM : ∀ {m s} {r z : Bytes}, MonthName m s → letters s ++ r = z → ¬ Digits z := by
    intro m s r z hm e hz
    obtain ⟨⟨b, q, e', h1, h2⟩, _⟩ := monthName_letters hm
    rw [e'] at e
    subst e
    have := digits_head hz
    omega
  have hS : ∀ {a r z : Bytes}, a ++ 32 :: r = z → ¬ Digits z := by
    intro a r z e hz
    exact digits_noSpace hz (by rw [← e]; simp)
  have hUM : ∀ {m s} {r : Bytes}, MonthName m s → letters s ++ r ≠ letters "(Unknown Date)" := by
    intro m s r hm e
    obtain ⟨⟨b, q, e', h1, h2⟩, _⟩ := monthName_letters hm
    rw [e', hu, List.cons_append, List.cons.injEq] at e
    rw [e.1] at h1
    revert h1; decide
  have hUD : ∀ {ds r : Bytes}, Digits ds → ds ≠ [] → ds ++ r ≠ letters "(Unknown Date)" := by
    intro ds r hd h0 e
    cases ds with
    | nil => exact h0 rfl
    | cons b ds =>
      rw [hu, List.cons_append, List.cons.injEq] at e
      rw [e.1] at hd
      exact hD hd
  have hMD : ∀ {m s} {ds r q : Bytes}, MonthName m s → Digits ds → ds ≠ [] → ds ++ r ≠ letters s ++ q := by
    intro m s ds r q hm hd h0 e
    cases ds with
    | nil => exact h0 rfl
    | cons b ds =>
      obtain ⟨⟨b', q', e', h1, h2⟩, _⟩ := monthName_letters hm
      rw [e', List.cons_append, List.cons_append, List.cons.injEq] at e
      have := digits_head hd
      rw [e.1] at this
      omega
  rcases text_kind h with ⟨k1, k2, k3, k4⟩ | ⟨k1, k2, k3, k4, k5⟩ | ⟨s, ys, k1, k2, k3, k4, k5⟩ |
      ⟨s, ys, ds, k1, k2, k3, k4, k5, k6, k7⟩ <;>
    rcases text_kind h' with ⟨j1, j2, j3, j4⟩ | ⟨j1, j2, j3, j4, j5⟩ | ⟨s', ys', j1, j2, j3, j4, j5⟩ |
      ⟨s', ys', ds', j1, j2, j3, j4, j5, j6, j7⟩
  · exact ⟨by omega, by omega, by omega⟩
  · rw [k1, hu] at j1; exact absurd j1 hD
  · rw [k1] at j1; exact absurd j1.symm (hUM j2)
  · rw [k1] at j1; exact absurd j1.symm (hUD j5 j6)
  · rw [j1, hu] at k1; exact absurd k1 hD
  · exact ⟨by omega, by omega, by omega⟩
  · exact absurd k1 (hM j2 j1.symm)
  · exact absurd k1 (hS j1.symm)
  · rw [j1] at k1; exact absurd k1.symm (hUM k2)
  · exact absurd j1 (hM k2 k1.symm)
  · rw [k1] at j1
    obtain ⟨e1, e2⟩ := space_split (monthName_letters k2).2 (monthName_letters j2).2 j1
    subst e2
    exact ⟨by omega, monthName_inj k2 j2 e1, by omega⟩
  · rw [k1] at j1; exact absurd j1.symm (hMD k2 j5 j6)
  · rw [j1] at k1; exact absurd k1.symm (hUD k5 k6)
  · exact absurd j1 (hS k1.symm)
  · rw [j1] at k1; exact absurd k1.symm (hMD j2 k5 k6)
  · rw [k1] at j1
    obtain ⟨e1, e2⟩ := space_split (digits_noSpace k5) (digits_noSpace j5) j1
    obtain ⟨e3, e4⟩ := space_split (monthName_letters k2).2 (monthName_letters j2).2 e2
    subst e1 e4
    exact ⟨by omega, monthName_inj k2 j2 e3, by omega⟩

end DateModel
