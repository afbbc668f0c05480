import Verif.Spec.NameTable
import Verif.Lemmas.Accessors

/-! # Lookup in tables of glyph names -/

namespace FontModel.Font
open Go Spec

/-- What `bytesSmallerThanStr` computes. -/
theorem smaller_iff {x y : Bytes} :
    bytesSmallerThanStr x y = true ↔ Below x y ∧ x.length ≠ y.length := by
  unfold bytesSmallerThanStr
  suffices h : ∀ x y : Bytes, (smallerLoop x y = some false ↔ ¬ Below x y) ∧
      (smallerLoop x y = some true → y.length < x.length) by
    obtain ⟨h1, h2⟩ := h x y
    split
    · rename_i b hb
      cases b
      · have := h1.1 hb
        simp [this]
      · have h2 := h2 hb
        have : Below x y := by
          apply Classical.byContradiction
          intro hn
          rw [h1.2 hn] at hb; cases hb
        simp [this]; omega
    · rename_i hb
      have : Below x y := by
        apply Classical.byContradiction
        intro hn
        rw [h1.2 hn] at hb; cases hb
      simp [this]
  intro x
  induction x with
  | nil => intro y; cases y <;> simp [smallerLoop, Below]
  | cons a x ih =>
    intro y
    cases y with
    | nil => simp [smallerLoop, Below]
    | cons b y =>
      simp only [smallerLoop, Below, List.length_cons, Nat.add_lt_add_iff_right]
      obtain ⟨i1, i2⟩ := ih y
      split
      · rename_i h
        have : ¬ a ≤ b := by
          rw [UInt8.le_iff_toNat_le]
          have := UInt8.lt_iff_toNat_lt.1 h
          omega
        simp [this]
      · rename_i h
        have : a ≤ b := by
          rw [UInt8.le_iff_toNat_le]
          have h : ¬ b.toNat < a.toNat := fun e => h (UInt8.lt_iff_toNat_lt.2 e)
          omega
        simp only [this, true_and]
        exact ⟨i1, i2⟩

theorem nameSearch_spec {f : Font} {names : List Bytes} {ids : List Nat} (ht : NameTable f names ids)
    (x : Bytes) : ∀ fuel lo hi, lo ≤ hi → hi < names.length → hi - lo < fuel →
    ∃ i, f.nameSearch x names.length fuel lo hi = .ok i ∧ lo ≤ i ∧ i ≤ hi ∧
      ∀ p (hp : p < names.length), lo ≤ p → p ≤ hi →
        (∀ m (hm : m < p), bytesSmallerThanStr (names[m]'(by omega)) x = true) →
        (∀ m (_ : p ≤ m) (hm : m < names.length), bytesSmallerThanStr names[m] x = false) → i = p := by
  intro fuel
  induction fuel with
  | zero => intro lo hi _ _ h; omega
  | succ fuel ih =>
    intro lo hi h1 h2 h3
    rw [nameSearch]
    by_cases hlt : lo < hi
    · rw [if_pos hlt]
      have hmid : (lo + hi) >>> 1 = (lo + hi) / 2 := by rw [Nat.shiftRight_eq_div_pow]
      simp only [hmid]
      have hm : (lo + hi) / 2 < names.length := by omega
      rw [ht.name _ hm, Res.ok_bind]
      cases hs : bytesSmallerThanStr names[(lo + hi) / 2] x
      · rw [if_neg (by simp)]
        obtain ⟨i, e1, e2, e3, e4⟩ := ih lo ((lo + hi) / 2) (by omega) hm (by omega)
        refine ⟨i, e1, e2, by omega, fun p hp a1 a2 b1 b2 => e4 p hp a1 ?_ b1 b2⟩
        apply Classical.byContradiction
        intro hn
        have := b1 ((lo + hi) / 2) (by omega)
        rw [hs] at this; cases this
      · rw [if_pos rfl]
        obtain ⟨i, e1, e2, e3, e4⟩ := ih ((lo + hi) / 2 + 1) hi (by omega) h2 (by omega)
        refine ⟨i, e1, by omega, e3, fun p hp a1 a2 b1 b2 => e4 p hp ?_ a2 b1 b2⟩
        apply Classical.byContradiction
        intro hn
        have := b2 ((lo + hi) / 2) (by omega) hm
        rw [hs] at this; cases this
    · rw [if_neg hlt]
      exact ⟨lo, rfl, by omega, by omega, fun p _ a1 a2 _ _ => by omega⟩

/-- The result of a lookup: the entry where the search ends. -/
theorem findIndexByName_eq {f : Font} {names : List Bytes} {ids : List Nat} (ht : NameTable f names ids)
    (x : Bytes) :
    f.findIndexByName x = .ok glyphMissing ∨
    ∃ i, ∃ hi : i < names.length, ∃ hi' : i < ids.length, names[i] = x ∧
      f.findIndexByName x = .ok ids[i] := by
  unfold findIndexByName
  rw [ht.count, Res.ok_bind]
  by_cases h0 : names.length = 0
  · rw [if_pos h0]; exact .inl rfl
  · rw [if_neg h0]
    obtain ⟨i, e1, e2, e3, _⟩ := nameSearch_spec ht x (names.length + 1) 0 (names.length - 1) (by omega)
      (by omega) (by omega)
    have hi : i < names.length := by omega
    rw [e1, Res.ok_bind, if_neg (by omega), ht.name i hi, Res.ok_bind]
    by_cases hx : names[i] = x
    · rw [if_pos (by simpa [bytesEqStr] using hx), shl1]
      have hi' : i < ids.length := by rw [ht.same]; exact hi
      exact .inr ⟨i, hi, hi', hx, ht.id i hi'⟩
    · rw [if_neg (by simpa [bytesEqStr] using hx)]
      exact .inl rfl

theorem findIndexByName_found {f : Font} {names : List Bytes} {ids : List Nat}
    (ht : NameTable f names ids) (x : Bytes) {p : Nat} (hp : p < names.length) (hx : names[p] = x)
    (hlo : ∀ m (hm : m < p), bytesSmallerThanStr (names[m]'(by omega)) x = true)
    (hhi : ∀ m (_ : p < m) (hm : m < names.length), bytesSmallerThanStr names[m] x = false) :
    ∃ hp' : p < ids.length, f.findIndexByName x = .ok ids[p] := by
  have hp' : p < ids.length := by rw [ht.same]; exact hp
  refine ⟨hp', ?_⟩
  obtain ⟨i, e1, e2, e3, e4⟩ := nameSearch_spec ht x (names.length + 1) 0 (names.length - 1) (by omega)
      (by omega) (by omega)
  have hself : bytesSmallerThanStr x x = false := by
    rw [← Bool.not_eq_true, smaller_iff]; simp
  have := e4 p hp (by omega) (by omega) hlo (fun m h1 hm => by
    by_cases he : m = p
    · subst he; rw [hx]; exact hself
    · exact hhi m (by omega) hm)
  subst this
  unfold findIndexByName
  rw [ht.count, Res.ok_bind, if_neg (by omega), e1, Res.ok_bind, if_neg (by omega), ht.name i hp,
    Res.ok_bind, if_pos (by simpa [bytesEqStr] using hx), shl1]
  exact ht.id i hp'

end FontModel.Font
