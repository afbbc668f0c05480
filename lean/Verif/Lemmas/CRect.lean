import Verif.Lemmas.Img

/-! # Lemmas about `computeRect` -/

open Go

namespace Mask

/-- Every pixel of the rectangle has a byte. -/
def Img.Addressable (m : Img) : Prop :=
  ∀ x y, m.rect.Has x y → 0 ≤ m.at x y ∧ (m.at x y).toNat < m.pix.length

theorem read_addr {m : Img} (hp : m.Addressable) {x y i : Int} (h : m.rect.Has x y)
    (hi : i = m.at x y) : m.read i = .ok (m.alphaAt x y) := by
  subst hi
  have hb := hp x y h
  unfold Img.read
  rw [if_pos hb.1, idx_lt hb.2, alphaAt_in h, List.getD_eq_getElem?_getD,
    List.getElem?_eq_getElem hb.2]
  rfl

/-- How the horizontal bounds may have moved. -/
structure RowRel (P : Int → Prop) (b b' : Bounds) : Prop where
  minY : b'.minY = b.minY
  maxY : b'.maxY = b.maxY
  leX : b'.minX ≤ b.minX
  geX : b.maxX ≤ b'.maxX
  cover : ∀ x, P x → b'.minX ≤ x ∧ x ≤ b'.maxX
  lo : b'.minX = b.minX ∨ P b'.minX
  hi : b'.maxX = b.maxX ∨ P b'.maxX

theorem scanRow_spec {m : Img} (hp : m.Addressable) {y : Int} (hy : m.rect.y0 ≤ y ∧ y < m.rect.y1) :
    ∀ (n : Nat) (x index : Int) (active : Bool) (b : Bounds), m.rect.x0 ≤ x → x + n ≤ m.rect.x1 →
      index = m.at x y →
      ∃ active' b', scanRow m n x index active b = .ok (active', b') ∧
        (active' = true ↔ active = true ∨ ∃ x', x ≤ x' ∧ x' < x + n ∧ m.alphaAt x' y ≠ 0) ∧
        RowRel (fun x' => x ≤ x' ∧ x' < x + n ∧ m.alphaAt x' y ≠ 0) b b'
  | 0, x, index, active, b, _, _, _ => by
    refine ⟨active, b, rfl, ⟨Or.inl, ?_⟩, ⟨rfl, rfl, le_refl _, le_refl _, ?_, Or.inl rfl, Or.inl rfl⟩⟩
    · rintro (h | ⟨x', h1, h2, _⟩)
      · exact h
      · simp at h2; omega
    · rintro x' ⟨h1, h2, _⟩
      simp at h2; omega
  | n + 1, x, index, active, b, hx0, hx1, hi => by
    push_cast at hx1
    have hr := read_addr hp (x := x) (y := y) (i := index) ⟨hx0, by omega, hy.1, hy.2⟩ hi
    have hnext : index + 1 = m.at (x + 1) y := by rw [hi]; unfold Img.at; ring
    rw [scanRow, hr]
    simp only [Res.ok_bind]
    by_cases hv : m.alphaAt x y = 0
    · obtain ⟨a', b', e, ha, hb⟩ := scanRow_spec hp hy n (x + 1) (index + 1) active b (by omega)
        (by omega) hnext
      rw [if_neg (by simpa using hv)]
      have hiff : ∀ x', (x + 1 ≤ x' ∧ x' < x + 1 + n ∧ m.alphaAt x' y ≠ 0) ↔
          (x ≤ x' ∧ x' < x + (n + 1 : Nat) ∧ m.alphaAt x' y ≠ 0) := by
        intro x'
        push_cast
        constructor
        · rintro ⟨h1, h2, h3⟩; exact ⟨by omega, by omega, h3⟩
        · rintro ⟨h1, h2, h3⟩
          refine ⟨?_, by omega, h3⟩
          by_contra hlt
          have : x' = x := by omega
          subst this; exact h3 hv
      simp only [hiff] at ha hb
      exact ⟨a', b', e, ha, hb⟩
    · rw [if_pos (by simpa using hv)]
      obtain ⟨a', b', e, ha, hb⟩ := scanRow_spec hp hy n (x + 1) (index + 1) true
        { b with minX := if x < b.minX then x else b.minX, maxX := if x > b.maxX then x else b.maxX }
        (by omega) (by omega) hnext
      refine ⟨a', b', e, ?_, ?_⟩
      · rw [ha]
        simp only [true_or, true_iff]
        exact Or.inr ⟨x, by omega, by push_cast; omega, hv⟩
      · obtain ⟨h1, h2, h3, h4, h5, h6, h7⟩ := hb
        simp only at h1 h2 h3 h4 h6 h7
        have h3' : b'.minX ≤ x ∧ b'.minX ≤ b.minX := by split at h3 <;> omega
        have h4' : x ≤ b'.maxX ∧ b.maxX ≤ b'.maxX := by split at h4 <;> omega
        refine ⟨h1, h2, h3'.2, h4'.2, ?_, ?_, ?_⟩
        · rintro x' ⟨g1, g2, g3⟩
          push_cast at g2
          by_cases hxx : x' = x
          · subst hxx; omega
          · exact h5 x' ⟨by omega, by omega, g3⟩
        · rcases h6 with h6 | ⟨g1, g2, g3⟩
          · split at h6
            · right; rw [h6]; exact ⟨by omega, by push_cast; omega, hv⟩
            · left; exact h6
          · right; exact ⟨by omega, by push_cast; omega, g3⟩
        · rcases h7 with h7 | ⟨g1, g2, g3⟩
          · split at h7
            · right; rw [h7]; exact ⟨by omega, by push_cast; omega, hv⟩
            · left; exact h7
          · right; exact ⟨by omega, by push_cast; omega, g3⟩

/-- How the bounds may have moved. -/
structure RowsRel (P : Int → Int → Prop) (b b' : Bounds) : Prop where
  leX : b'.minX ≤ b.minX
  geX : b.maxX ≤ b'.maxX
  leY : b'.minY ≤ b.minY
  geY : b.maxY ≤ b'.maxY
  cover : ∀ x y, P x y → b'.minX ≤ x ∧ x ≤ b'.maxX ∧ b'.minY ≤ y ∧ y ≤ b'.maxY
  lox : b'.minX = b.minX ∨ ∃ y, P b'.minX y
  hix : b'.maxX = b.maxX ∨ ∃ y, P b'.maxX y
  loy : b'.minY = b.minY ∨ ∃ x, P x b'.minY
  hiy : b'.maxY = b.maxY ∨ ∃ x, P x b'.maxY

/-- Visible pixels of the rows `y..y+n-1`. -/
def VisRows (m : Img) (y : Int) (n : Nat) (x' y' : Int) : Prop :=
  y ≤ y' ∧ y' < y + n ∧ m.alphaAt x' y' ≠ 0

theorem vis_has {m : Img} {x y : Int} (h : m.alphaAt x y ≠ 0) : m.rect.Has x y := by
  by_contra hc
  exact h (alphaAt_out hc)

theorem scanRows_spec {m : Img} (hp : m.Addressable) :
    ∀ (n : Nat) (y : Int) (empty : Bool) (b : Bounds), m.rect.y0 ≤ y → y + n ≤ m.rect.y1 →
      ∃ empty' b', scanRows m n y empty b = .ok (empty', b') ∧
        (empty' = false ↔ empty = false ∨ ∃ x' y', VisRows m y n x' y') ∧
        RowsRel (VisRows m y n) b b'
  | 0, y, empty, b, _, _ => by
    have hno : ∀ x' y', ¬ VisRows m y 0 x' y' := by
      rintro x' y' ⟨h1, h2, _⟩; simp at h2; omega
    refine ⟨empty, b, rfl, ⟨Or.inl, ?_⟩, ⟨le_refl _, le_refl _, le_refl _, le_refl _, ?_, Or.inl rfl,
      Or.inl rfl, Or.inl rfl, Or.inl rfl⟩⟩
    · rintro (h | ⟨x', y', h⟩)
      · exact h
      · exact absurd h (hno _ _)
    · intro x' y' h; exact absurd h (hno _ _)
  | n + 1, y, empty, b, hy0, hy1 => by
    push_cast at hy1
    rw [scanRows]
    obtain ⟨a, b1, e1, ha, hb⟩ : ∃ a b1, scanRow m (m.rect.x1 - m.rect.x0).toNat m.rect.x0
        ((y - m.rect.y0) * m.stride) false b = .ok (a, b1) ∧
        (a = true ↔ ∃ x', m.alphaAt x' y ≠ 0) ∧ RowRel (fun x' => m.alphaAt x' y ≠ 0) b b1 := by
      by_cases hx : m.rect.x0 ≤ m.rect.x1
      · obtain ⟨a, b1, e1, ha, hb⟩ := scanRow_spec hp (y := y) ⟨hy0, by omega⟩
          (m.rect.x1 - m.rect.x0).toNat m.rect.x0 ((y - m.rect.y0) * m.stride) false b (by omega)
          (by omega) (by unfold Img.at; ring)
        have hiff : ∀ x', (m.rect.x0 ≤ x' ∧ x' < m.rect.x0 + ((m.rect.x1 - m.rect.x0).toNat : Int) ∧
            m.alphaAt x' y ≠ 0) ↔ m.alphaAt x' y ≠ 0 := by
          intro x'
          refine ⟨fun h => h.2.2, fun h => ?_⟩
          obtain ⟨g1, g2, _⟩ := vis_has h
          exact ⟨g1, by omega, h⟩
        simp only [hiff] at ha hb
        exact ⟨a, b1, e1, by simpa using ha, hb⟩
      · have h0 : (m.rect.x1 - m.rect.x0).toNat = 0 := by omega
        have hno : ∀ x', m.alphaAt x' y = 0 := by
          intro x'
          exact alphaAt_out (by rintro ⟨g1, g2, _⟩; omega)
        rw [h0]
        refine ⟨false, b, rfl, by simp [hno], ⟨rfl, rfl, le_refl _, le_refl _, ?_, Or.inl rfl,
          Or.inl rfl⟩⟩
        intro x' h; exact absurd (hno x') h
    rw [e1]
    simp only [Res.ok_bind]
    obtain ⟨r1, r2, r3, r4, r5, r6, r7⟩ := hb
    have hsplit : ∀ x' y', VisRows m y (n + 1) x' y' ↔
        (y' = y ∧ m.alphaAt x' y ≠ 0) ∨ VisRows m (y + 1) n x' y' := by
      intro x' y'
      unfold VisRows
      push_cast
      constructor
      · rintro ⟨h1, h2, h3⟩
        by_cases hyy : y' = y
        · left; subst hyy; exact ⟨rfl, h3⟩
        · right; exact ⟨by omega, by omega, h3⟩
      · rintro (⟨rfl, h3⟩ | ⟨h1, h2, h3⟩)
        · exact ⟨by omega, by omega, h3⟩
        · exact ⟨by omega, by omega, h3⟩
    by_cases hact : a = true
    · subst hact
      rw [if_pos rfl]
      obtain ⟨x0, hx0⟩ := ha.mp rfl
      obtain ⟨e', b', he, hem, hrel⟩ := scanRows_spec hp n (y + 1) false
        { b1 with minY := if y < b1.minY then y else b1.minY, maxY := if y > b1.maxY then y else b1.maxY }
        (by omega) (by omega)
      refine ⟨e', b', he, ?_, ?_⟩
      · rw [hem]
        simp only [true_or, true_iff]
        exact Or.inr ⟨x0, y, (hsplit _ _).mpr (Or.inl ⟨rfl, hx0⟩)⟩
      · obtain ⟨q1, q2, q3, q4, q5, q6, q7, q8, q9⟩ := hrel
        simp only at q1 q2 q3 q4 q6 q7 q8 q9
        have q3' : b'.minY ≤ y ∧ b'.minY ≤ b.minY := by split at q3 <;> omega
        have q4' : y ≤ b'.maxY ∧ b.maxY ≤ b'.maxY := by split at q4 <;> omega
        refine ⟨by omega, by omega, by omega, by omega, ?_, ?_, ?_, ?_, ?_⟩
        · intro x' y' h
          rcases (hsplit _ _).mp h with ⟨rfl, h3⟩ | h
          · have := r5 x' h3; omega
          · exact q5 x' y' h
        · rcases q6 with h | ⟨y', h⟩
          · rcases r6 with g | g
            · left; omega
            · right; rw [h]; exact ⟨y, (hsplit _ _).mpr (Or.inl ⟨rfl, g⟩)⟩
          · right; exact ⟨y', (hsplit _ _).mpr (Or.inr h)⟩
        · rcases q7 with h | ⟨y', h⟩
          · rcases r7 with g | g
            · left; omega
            · right; rw [h]; exact ⟨y, (hsplit _ _).mpr (Or.inl ⟨rfl, g⟩)⟩
          · right; exact ⟨y', (hsplit _ _).mpr (Or.inr h)⟩
        · rcases q8 with h | ⟨x', h⟩
          · split at h
            · right; rw [h]; exact ⟨x0, (hsplit _ _).mpr (Or.inl ⟨rfl, hx0⟩)⟩
            · left; omega
          · right; exact ⟨x', (hsplit _ _).mpr (Or.inr h)⟩
        · rcases q9 with h | ⟨x', h⟩
          · split at h
            · right; rw [h]; exact ⟨x0, (hsplit _ _).mpr (Or.inl ⟨rfl, hx0⟩)⟩
            · left; omega
          · right; exact ⟨x', (hsplit _ _).mpr (Or.inr h)⟩
    · rw [if_neg hact]
      have hno : ∀ x', m.alphaAt x' y = 0 := by
        intro x'
        by_contra h
        exact hact (ha.mpr ⟨x', h⟩)
      have hbb : b1 = b := by
        have e1 : b1.minX = b.minX := by
          rcases r6 with h | h
          · exact h
          · exact absurd (hno _) h
        have e2 : b1.maxX = b.maxX := by
          rcases r7 with h | h
          · exact h
          · exact absurd (hno _) h
        cases b; cases b1; simp_all
      subst hbb
      obtain ⟨e', b', he, hem, hrel⟩ := scanRows_spec hp n (y + 1) empty b1 (by omega) (by omega)
      have hs : VisRows m y (n + 1) = VisRows m (y + 1) n := by
        funext x' y'
        apply propext
        rw [hsplit]
        constructor
        · rintro (⟨_, h⟩ | h)
          · exact absurd (hno _) h
          · exact h
        · exact Or.inr
      rw [hs]
      exact ⟨e', b', he, hem, hrel⟩

end Mask
