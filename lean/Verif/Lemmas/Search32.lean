import Verif.Lemmas.Accessors

/-! # The binary search over 32-bit keys -/

namespace FontModel.Font
open Go FontModel Spec

/-- The search stays in its range, ends, and partitions the keys. -/
theorem search32_spec {D : Bytes} {base target n : Nat} (hb : base + 4 * n ≤ D.length) :
    ∀ fuel lo hi, lo ≤ hi → hi < n → hi - lo < fuel →
    ∃ i, search32 D base target fuel lo hi = .ok i ∧ lo ≤ i ∧ i ≤ hi ∧
      ((∀ a b, a ≤ b → b < n → u32At D (base + 4 * a) ≤ u32At D (base + 4 * b)) →
        (∀ j, lo ≤ j → j < i → u32At D (base + 4 * j) < target) ∧
        (i < hi → target ≤ u32At D (base + 4 * i))) := by
  intro fuel
  induction fuel with
  | zero => intro lo hi _ _ h; omega
  | succ fuel ih =>
    intro lo hi h1 h2 h3
    simp only [search32, shl2]
    by_cases hlt : lo < hi
    · rw [if_pos hlt]
      have hm : (lo + hi) >>> 1 = (lo + hi) / 2 := by rw [Nat.shiftRight_eq_div_pow]
      rw [hm, rd32_eq (by omega), Res.ok_bind]
      by_cases hv : u32At D (base + 4 * ((lo + hi) / 2)) < target
      · rw [if_pos hv]
        obtain ⟨i, e1, e2, e3, e4⟩ := ih ((lo + hi) / 2 + 1) hi (by omega) h2 (by omega)
        refine ⟨i, e1, by omega, e3, fun hs => ⟨fun j hj hji => ?_, (e4 hs).2⟩⟩
        by_cases hc : (lo + hi) / 2 + 1 ≤ j
        · exact (e4 hs).1 j hc hji
        · have := hs j ((lo + hi) / 2) (by omega) (by omega); omega
      · rw [if_neg hv]
        obtain ⟨i, e1, e2, e3, e4⟩ := ih lo ((lo + hi) / 2) (by omega) (by omega) (by omega)
        refine ⟨i, e1, e2, by omega, fun hs => ⟨(e4 hs).1, fun _ => ?_⟩⟩
        by_cases hc : i < (lo + hi) / 2
        · exact (e4 hs).2 hc
        · have : i = (lo + hi) / 2 := by omega
          subst this; omega
    · rw [if_neg hlt]
      refine ⟨lo, rfl, by omega, by omega, fun _ => ⟨fun j _ _ => by omega, fun _ => by omega⟩⟩

/-- A search over a non-empty table whose keys strictly increase finds exactly the keys in it. -/
theorem search32_find {D : Bytes} {base target n : Nat} (hb : base + 4 * n ≤ D.length) (hn : 0 < n)
    (hs : ∀ a b, a < b → b < n → u32At D (base + 4 * a) < u32At D (base + 4 * b)) :
    ∃ i, i < n ∧ search32 D base target (n + 1) 0 (n - 1) = .ok i ∧
      ∀ j, j < n → u32At D (base + 4 * j) = target → j = i := by
  obtain ⟨i, e1, e2, e3, e4⟩ := search32_spec hb (target := target) (n + 1) 0 (n - 1) (by omega)
    (by omega) (by omega)
  refine ⟨i, by omega, e1, fun j hj hv => ?_⟩
  obtain ⟨e5, e6⟩ := e4 (fun a b hab hb' => by
    by_cases h : a = b
    · subst h; exact Nat.le_refl _
    · exact Nat.le_of_lt (hs a b (by omega) hb'))
  by_cases c1 : j < i
  · have := e5 j (by omega) c1; omega
  · by_cases c2 : j = i
    · exact c2
    · have h1 := hs i j (by omega) hj
      have h2 := e6 (by omega)
      omega

theorem search32_empty {D : Bytes} {base target : Nat} :
    search32 D base target 1 0 0 = .ok 0 := by
  simp [search32]

end FontModel.Font
