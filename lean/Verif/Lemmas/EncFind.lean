import Verif.Model.Encoder
import Verif.Lemmas.Img

/-! # Lemmas about the fragment search of the mask encoder -/

open Go

namespace Mask

/-- The pixels of a fragment. -/
def Frag.Covers (f : Frag) (x y : Int) : Prop :=
  f.minX ≤ x ∧ x ≤ f.maxX ∧
  match f.diag with
  | .none => f.minY ≤ y ∧ y ≤ f.maxY
  | .desc => y - f.minY = x - f.minX
  | .asc => y - f.minY = f.maxX - x

/-- Non-empty, and square when diagonal. -/
structure Frag.WF (f : Frag) : Prop where
  x : f.minX ≤ f.maxX
  y : f.minY ≤ f.maxY
  sq : f.diag ≠ .none → f.maxX - f.minX = f.maxY - f.minY

/-- A fragment that may be taken from `m`. -/
structure Good (m : Img) (f : Frag) : Prop where
  wf : f.WF
  ne : f.value ≠ 0
  val : ∀ x y, f.Covers x y → m.alphaAt x y = f.value

theorem has_of_ne {m : Img} {x y : Int} {v : UInt8} (hv : v ≠ 0) (h : m.alphaAt x y = v) :
    m.rect.Has x y := by
  by_contra hc
  rw [alphaAt_out hc] at h
  exact hv h.symm

theorem Good.has {m : Img} {f : Frag} (h : Good m f) {x y : Int} (hc : f.Covers x y) :
    m.rect.Has x y := has_of_ne h.ne (h.val x y hc)

theorem at_step {m : Img} (x y dx dy : Int) : m.at (x + dx) (y + dy) = m.at x y + (dy * m.stride + dx) := by
  unfold Img.at; ring

theorem eqAt_spec {m : Img} (hp : m.Packed) {x y i : Int} {v : UInt8} {c : Bool} (hv : v ≠ 0)
    (hc : c = true ↔ m.rect.Has x y) (hi : i = m.at x y) :
    eqAt m c i v = .ok (m.alphaAt x y == v) := by
  unfold eqAt
  by_cases h : m.rect.Has x y
  · rw [if_pos (hc.mpr h), read_eq hp h hi]; rfl
  · rw [if_neg (fun g => h (hc.mp g)), alphaAt_out h]
    have : ((0 : UInt8) == v) = false := by simpa using hv.symm
    rw [this]

theorem eqAt_up {m : Img} (hp : m.Packed) {x y : Int} {v : UInt8} (hv : v ≠ 0) (h : m.rect.Has x y) :
    eqAt m (decide (y > m.rect.y0)) (m.at x y - m.stride) v = .ok (m.alphaAt x (y - 1) == v) := by
  obtain ⟨h1, h2, h3, h4⟩ := h
  apply eqAt_spec hp hv
  · rw [decide_eq_true_iff]
    exact ⟨fun g => ⟨h1, h2, by omega, by omega⟩, fun g => by have := g.2.2.1; omega⟩
  · unfold Img.at; ring

theorem eqAt_down {m : Img} (hp : m.Packed) {x y : Int} {v : UInt8} (hv : v ≠ 0) (h : m.rect.Has x y) :
    eqAt m (decide (y + 1 < m.rect.y1)) (m.at x y + m.stride) v = .ok (m.alphaAt x (y + 1) == v) := by
  obtain ⟨h1, h2, h3, h4⟩ := h
  apply eqAt_spec hp hv
  · rw [decide_eq_true_iff]
    exact ⟨fun g => ⟨h1, h2, by omega, by omega⟩, fun g => by have := g.2.2.2; omega⟩
  · unfold Img.at; ring

theorem eqAt_left {m : Img} (hp : m.Packed) {x y : Int} {v : UInt8} (hv : v ≠ 0) (h : m.rect.Has x y) :
    eqAt m (decide (x > m.rect.x0)) (m.at x y - 1) v = .ok (m.alphaAt (x - 1) y == v) := by
  obtain ⟨h1, h2, h3, h4⟩ := h
  apply eqAt_spec hp hv
  · rw [decide_eq_true_iff]
    exact ⟨fun g => ⟨by omega, by omega, h3, h4⟩, fun g => by have := g.1; omega⟩
  · unfold Img.at; ring

theorem eqAt_right {m : Img} (hp : m.Packed) {x y : Int} {v : UInt8} (hv : v ≠ 0) (h : m.rect.Has x y) :
    eqAt m (decide (x + 1 < m.rect.x1)) (m.at x y + 1) v = .ok (m.alphaAt (x + 1) y == v) := by
  obtain ⟨h1, h2, h3, h4⟩ := h
  apply eqAt_spec hp hv
  · rw [decide_eq_true_iff]
    exact ⟨fun g => ⟨by omega, by omega, h3, h4⟩, fun g => by have := g.2.1; omega⟩
  · unfold Img.at; ring

theorem countNeighbours_spec {m : Img} (hp : m.Packed) {x y i : Int} {v : UInt8} (hv : v ≠ 0)
    (h : m.rect.Has x y) (hi : i = m.at x y) :
    countNeighbours m x y i v = .ok (b2n (m.alphaAt x (y - 1) == v) + b2n (m.alphaAt x (y + 1) == v) +
      b2n (m.alphaAt (x - 1) y == v) + b2n (m.alphaAt (x + 1) y == v)) := by
  subst hi
  unfold countNeighbours
  rw [if_neg (by simp [getPixelIndex, Img.at]), eqAt_up hp hv h, eqAt_down hp hv h, eqAt_left hp hv h,
    eqAt_right hp hv h]
  rfl

theorem extend_spec {m : Img} (hp : m.Packed) {v : UInt8} (dx dy : Int) :
    ∀ (n : Nat) (x y i : Int), (∀ k : Nat, k < n → m.rect.Has (x + k * dx) (y + k * dy)) →
      i = m.at x y →
      ∃ k, extend m v (dy * m.stride + dx) n i = .ok k ∧ k ≤ n ∧
        ∀ j : Nat, j < k → m.alphaAt (x + j * dx) (y + j * dy) = v
  | 0, _, _, _, _, _ => ⟨0, rfl, le_refl _, by simp⟩
  | n + 1, x, y, i, h, hi => by
    have h0 := h 0 (by omega)
    simp only [Nat.cast_zero, Int.zero_mul, Int.add_zero] at h0
    rw [extend, read_eq hp h0 hi]
    simp only [Res.ok_bind]
    by_cases hv : m.alphaAt x y = v
    · rw [if_pos hv]
      obtain ⟨k, e, hk, ha⟩ := extend_spec hp (v := v) dx dy n (x + dx) (y + dy)
        (i + (dy * m.stride + dx))
        (by
          intro k hk
          have := h (k + 1) (by omega)
          push_cast at this
          have e1 : x + (k + 1 : Int) * dx = x + dx + k * dx := by ring
          have e2 : y + (k + 1 : Int) * dy = y + dy + k * dy := by ring
          rw [e1, e2] at this
          exact this)
        (by rw [hi, at_step])
      rw [e]
      refine ⟨k + 1, rfl, by omega, ?_⟩
      intro j hj
      cases j with
      | zero => simpa using hv
      | succ j =>
        have := ha j (by omega)
        push_cast
        have e1 : x + (j + 1 : Int) * dx = x + dx + j * dx := by ring
        have e2 : y + (j + 1 : Int) * dy = y + dy + j * dy := by ring
        rw [e1, e2]; exact this
    · rw [if_neg hv]
      exact ⟨0, rfl, by omega, by simp⟩

theorem b2n_true : b2n true = 1 := rfl
theorem b2n_false : b2n false = 0 := rfl

theorem findLine_spec {m : Img} (hp : m.Packed) {x y i : Int} {v : UInt8} (hv : v ≠ 0)
    (hx : m.alphaAt x y = v) (hi : i = m.at x y)
    (hn : countNeighbours m x y i v = .ok 1) :
    ∃ f, findLine m x y i v = .ok f ∧ Good m f ∧ f.Covers x y := by
  have h := has_of_ne hv hx
  have h' := h
  obtain ⟨b1, b2, b3, b4⟩ := h'
  have hc := countNeighbours_spec hp hv h hi
  rw [hn] at hc
  simp only [Res.ok.injEq] at hc
  have hread : m.read i = .ok v := by rw [read_eq hp h hi, hx]
  unfold findLine
  rw [if_neg (by rw [hi]; simp [getPixelIndex, Img.at]), hread]
  simp only [Res.ok_bind, ne_eq, not_true, if_false, hn]
  subst hi
  simp only [eqAt_left hp hv h, eqAt_up hp hv h, eqAt_down hp hv h, eqAt_right hp hv h, Res.ok_bind]
  cases hl : m.alphaAt (x - 1) y == v with
  | true =>
    have hu : (m.alphaAt x (y - 1) == v) = false := by
      by_contra g; simp only [Bool.not_eq_false] at g; rw [hl, g, b2n_true] at hc; omega
    have hd : (m.alphaAt x (y + 1) == v) = false := by
      by_contra g; simp only [Bool.not_eq_false] at g; rw [hl, g, b2n_true] at hc; omega
    have hr : (m.alphaAt (x + 1) y == v) = false := by
      by_contra g; simp only [Bool.not_eq_false] at g; rw [hl, g, b2n_true] at hc; omega
    simp only [hu, hd, hr, if_true, Bool.false_eq_true, if_false]
    have hl' : m.alphaAt (x - 1) y = v := by simpa using hl
    obtain ⟨c1, c2, c3, c4⟩ := has_of_ne hv hl'
    obtain ⟨k, e, hk, ha⟩ := extend_spec hp (v := v) (-1) 0 (x - 1 - m.rect.x0).toNat (x - 2) y
      (m.at x y - 2) (by intro k hk; refine ⟨?_, ?_, ?_, ?_⟩ <;> omega) (by unfold Img.at; ring)
    have e0 : (0 * m.stride + (-1) : Int) = -1 := by ring
    rw [e0] at e
    rw [e]
    refine ⟨_, rfl, ⟨⟨by simp only; omega, by simp, by simp⟩, hv, ?_⟩, ?_⟩
    · rintro x' y' ⟨g1, g2, g3, g4⟩
      simp only at g1 g2 g3 g4 ⊢
      have hy : y' = y := by omega
      subst hy
      by_cases gx : x' = x
      · subst gx; exact hx
      · by_cases gx2 : x' = x - 1
        · subst gx2; exact hl'
        · have := ha (x - 2 - x').toNat (by omega)
          have e1 : x - 2 + ((x - 2 - x').toNat : Int) * (-1) = x' := by omega
          rw [e1] at this
          simpa using this
    · refine ⟨?_, ?_, ?_, ?_⟩ <;> simp only <;> omega
  | false =>
    simp only [Bool.false_eq_true, if_false]
    cases hu : m.alphaAt x (y - 1) == v with
    | true =>
      have hd : (m.alphaAt x (y + 1) == v) = false := by
        by_contra g; simp only [Bool.not_eq_false] at g; rw [hu, g, b2n_true] at hc; omega
      have hr : (m.alphaAt (x + 1) y == v) = false := by
        by_contra g; simp only [Bool.not_eq_false] at g; rw [hu, g, b2n_true] at hc; omega
      simp only [hd, hr, if_true, Bool.false_eq_true, if_false]
      have hl' : m.alphaAt x (y - 1) = v := by simpa using hu
      obtain ⟨c1, c2, c3, c4⟩ := has_of_ne hv hl'
      obtain ⟨k, e, hk, ha⟩ := extend_spec hp (v := v) 0 (-1) (y - 1 - m.rect.y0).toNat x (y - 2)
        (m.at x y - m.stride * 2) (by intro k hk; refine ⟨?_, ?_, ?_, ?_⟩ <;> omega)
        (by unfold Img.at; ring)
      have e0 : (-1 * m.stride + 0 : Int) = -m.stride := by ring
      rw [e0] at e
      rw [e]
      refine ⟨_, rfl, ⟨⟨by simp, by simp only; omega, by simp⟩, hv, ?_⟩, ?_⟩
      · rintro x' y' ⟨g1, g2, g3, g4⟩
        simp only at g1 g2 g3 g4 ⊢
        have hy : x' = x := by omega
        subst hy
        by_cases gx : y' = y
        · subst gx; exact hx
        · by_cases gx2 : y' = y - 1
          · subst gx2; exact hl'
          · have := ha (y - 2 - y').toNat (by omega)
            have e1 : y - 2 + ((y - 2 - y').toNat : Int) * (-1) = y' := by omega
            rw [e1] at this
            simpa using this
      · refine ⟨?_, ?_, ?_, ?_⟩ <;> simp only <;> omega
    | false =>
      simp only [Bool.false_eq_true, if_false]
      cases hd : m.alphaAt x (y + 1) == v with
      | true =>
        have hr : (m.alphaAt (x + 1) y == v) = false := by
          by_contra g; simp only [Bool.not_eq_false] at g; rw [hd, g, b2n_true] at hc; omega
        simp only [hr, if_true, Bool.false_eq_true, if_false]
        have hl' : m.alphaAt x (y + 1) = v := by simpa using hd
        obtain ⟨c1, c2, c3, c4⟩ := has_of_ne hv hl'
        obtain ⟨k, e, hk, ha⟩ := extend_spec hp (v := v) 0 1 (m.rect.y1 - 1 - (y + 1)).toNat x (y + 2)
          (m.at x y + m.stride * 2) (by intro k hk; refine ⟨?_, ?_, ?_, ?_⟩ <;> omega)
          (by unfold Img.at; ring)
        have e0 : (1 * m.stride + 0 : Int) = m.stride := by ring
        rw [e0] at e
        rw [e]
        refine ⟨_, rfl, ⟨⟨by simp, by simp only; omega, by simp⟩, hv, ?_⟩, ?_⟩
        · rintro x' y' ⟨g1, g2, g3, g4⟩
          simp only at g1 g2 g3 g4 ⊢
          have hy : x' = x := by omega
          subst hy
          by_cases gx : y' = y
          · subst gx; exact hx
          · by_cases gx2 : y' = y + 1
            · subst gx2; exact hl'
            · have := ha (y' - (y + 2)).toNat (by omega)
              have e1 : y + 2 + ((y' - (y + 2)).toNat : Int) * 1 = y' := by omega
              rw [e1] at this
              simpa using this
        · refine ⟨?_, ?_, ?_, ?_⟩ <;> simp only <;> omega
      | false =>
        simp only [Bool.false_eq_true, if_false]
        cases hr : m.alphaAt (x + 1) y == v with
        | false => rw [hl, hu, hd, hr] at hc; simp [b2n_false] at hc
        | true =>
          simp only [if_true]
          have hl' : m.alphaAt (x + 1) y = v := by simpa using hr
          obtain ⟨c1, c2, c3, c4⟩ := has_of_ne hv hl'
          obtain ⟨k, e, hk, ha⟩ := extend_spec hp (v := v) 1 0 (m.rect.x1 - 1 - (x + 1)).toNat (x + 2) y
            (m.at x y + 2) (by intro k hk; refine ⟨?_, ?_, ?_, ?_⟩ <;> omega)
            (by unfold Img.at; ring)
          have e0 : (0 * m.stride + 1 : Int) = 1 := by ring
          rw [e0] at e
          rw [e]
          refine ⟨_, rfl, ⟨⟨by simp only; omega, by simp, by simp⟩, hv, ?_⟩, ?_⟩
          · rintro x' y' ⟨g1, g2, g3, g4⟩
            simp only at g1 g2 g3 g4 ⊢
            have hy : y' = y := by omega
            subst hy
            by_cases gx : x' = x
            · subst gx; exact hx
            · by_cases gx2 : x' = x + 1
              · subst gx2; exact hl'
              · have := ha (x' - (x + 2)).toNat (by omega)
                have e1 : x + 2 + ((x' - (x + 2)).toNat : Int) * 1 = x' := by omega
                rw [e1] at this
                simpa using this
          · refine ⟨?_, ?_, ?_, ?_⟩ <;> simp only <;> omega

/-! ### Rectangles -/

theorem allEq_spec {m : Img} (hp : m.Packed) {v : UInt8} (dx dy : Int) :
    ∀ (n : Nat) (x y i : Int), (∀ k : Nat, k < n → m.rect.Has (x + k * dx) (y + k * dy)) →
      i = m.at x y →
      ∃ b, allEq m v (dy * m.stride + dx) n i = .ok b ∧
        (b = true → ∀ j : Nat, j < n → m.alphaAt (x + j * dx) (y + j * dy) = v)
  | 0, _, _, _, _, _ => ⟨true, rfl, by simp⟩
  | n + 1, x, y, i, h, hi => by
    have h0 := h 0 (by omega)
    simp only [Nat.cast_zero, Int.zero_mul, Int.add_zero] at h0
    rw [allEq, read_eq hp h0 hi]
    simp only [Res.ok_bind]
    by_cases hv : m.alphaAt x y = v
    · rw [if_pos hv]
      obtain ⟨b, e, ha⟩ := allEq_spec hp (v := v) dx dy n (x + dx) (y + dy)
        (i + (dy * m.stride + dx))
        (by
          intro k hk
          have := h (k + 1) (by omega)
          push_cast at this
          have e1 : x + (k + 1 : Int) * dx = x + dx + k * dx := by ring
          have e2 : y + (k + 1 : Int) * dy = y + dy + k * dy := by ring
          rw [e1, e2] at this
          exact this)
        (by rw [hi, at_step])
      rw [e]
      refine ⟨b, rfl, ?_⟩
      intro hb j hj
      cases j with
      | zero => simpa using hv
      | succ j =>
        have := ha hb j (by omega)
        push_cast
        have e1 : x + (j + 1 : Int) * dx = x + dx + j * dx := by ring
        have e2 : y + (j + 1 : Int) * dy = y + dy + j * dy := by ring
        rw [e1, e2]; exact this
    · rw [if_neg hv]
      exact ⟨false, rfl, by simp⟩

/-- Invariant of the search for a rectangle. -/
structure SearchInv (m : Img) (x y : Int) (v : UInt8) (s : RectSearch) : Prop where
  hx : x ≤ s.maxX
  hy : y ≤ s.maxY
  w : (s.width : Int) = s.maxX - x + 1
  h : (s.height : Int) = s.maxY - y + 1
  mx : s.maxX < m.rect.x1
  my : s.maxY < m.rect.y1
  down : s.stopDown = false → s.maxY + 1 < m.rect.y1
  right : s.stopRight = false → s.maxX + 1 < m.rect.x1
  val : ∀ x' y', x ≤ x' → x' ≤ s.maxX → y ≤ y' → y' ≤ s.maxY → m.alphaAt x' y' = v

def searchMeasure (m : Img) (s : RectSearch) : Nat :=
  (if s.stopDown then 0 else (m.rect.y1 - s.maxY).toNat) +
  (if s.stopRight then 0 else (m.rect.x1 - s.maxX).toNat)

theorem expandDown_spec {m : Img} (hp : m.Packed) {x y : Int} {v : UInt8} {s : RectSearch}
    (hx : m.rect.x0 ≤ x) (hy : m.rect.y0 ≤ y) (inv : SearchInv m x y v s) :
    ∃ s', expandDown m x v s = .ok s' ∧ SearchInv m x y v s' ∧ searchMeasure m s' ≤ searchMeasure m s ∧
      (s.stopDown = false → searchMeasure m s' < searchMeasure m s) ∧ s'.stopRight = s.stopRight := by
  unfold expandDown
  cases hs : s.stopDown with
  | true => exact ⟨s, rfl, inv, le_refl _, by simp, rfl⟩
  | false =>
    simp only [Bool.false_eq_true, if_false]
    have hd := inv.down hs
    obtain ⟨b, e, ha⟩ := allEq_spec hp (v := v) 1 0 s.width x (s.maxY + 1)
      ((s.maxY + 1 - m.rect.y0) * m.stride + (x - m.rect.x0))
      (by
        intro k hk
        have := inv.w; have := inv.mx; have := inv.hy
        refine ⟨?_, ?_, ?_, ?_⟩ <;> omega) rfl
    have e0 : (0 * m.stride + 1 : Int) = 1 := by ring
    rw [e0] at e
    rw [e]
    simp only [Res.ok_bind]
    have hx1 := inv.hx
    have hy1 := inv.hy
    have hmx := inv.mx
    have hmy := inv.my
    have hw := inv.w
    have hh := inv.h
    cases b with
    | false =>
      simp only [Bool.false_eq_true, if_false]
      refine ⟨_, rfl, ⟨hx1, hy1, hw, hh, hmx, hmy, by simp, inv.right, inv.val⟩, ?_, fun _ => ?_, rfl⟩
      · simp only [searchMeasure, if_true]; omega
      · simp only [searchMeasure, if_true, hs, Bool.false_eq_true, if_false]; omega
    | true =>
      simp only [if_true]
      refine ⟨_, rfl, ⟨hx1, by simp only; omega, hw, by simp only; push_cast; omega, hmx, by simp only; omega,
        by simp only [decide_eq_false_iff_not]; omega, inv.right, ?_⟩, ?_, fun _ => ?_, rfl⟩
      · intro x' y' g1 g2 g3 g4
        simp only at g2 g4
        by_cases hyy : y' = s.maxY + 1
        · have := ha rfl (x' - x).toNat (by omega)
          have e1 : x + ((x' - x).toNat : Int) * 1 = x' := by omega
          rw [e1] at this
          rw [hyy]; simpa using this
        · exact inv.val x' y' g1 g2 g3 (by omega)
      · simp only [searchMeasure, hs, Bool.false_eq_true, if_false]; split <;> omega
      · simp only [searchMeasure, hs, Bool.false_eq_true, if_false]; split <;> omega

theorem expandRight_spec {m : Img} (hp : m.Packed) {x y : Int} {v : UInt8} {s : RectSearch}
    (hx : m.rect.x0 ≤ x) (hy : m.rect.y0 ≤ y) (inv : SearchInv m x y v s) :
    ∃ s', expandRight m y v s = .ok s' ∧ SearchInv m x y v s' ∧ searchMeasure m s' ≤ searchMeasure m s ∧
      (s.stopRight = false → searchMeasure m s' < searchMeasure m s) := by
  unfold expandRight
  cases hs : s.stopRight with
  | true => exact ⟨s, rfl, inv, le_refl _, by simp⟩
  | false =>
    simp only [Bool.false_eq_true, if_false]
    have hd := inv.right hs
    obtain ⟨b, e, ha⟩ := allEq_spec hp (v := v) 0 1 s.height (s.maxX + 1) y
      ((y - m.rect.y0) * m.stride + (s.maxX - m.rect.x0) + 1)
      (by
        intro k hk
        have := inv.h; have := inv.my; have := inv.hx
        refine ⟨?_, ?_, ?_, ?_⟩ <;> omega) (by unfold Img.at; ring)
    have e0 : (1 * m.stride + 0 : Int) = m.stride := by ring
    rw [e0] at e
    rw [e]
    simp only [Res.ok_bind]
    have hx1 := inv.hx
    have hy1 := inv.hy
    have hmx := inv.mx
    have hmy := inv.my
    have hw := inv.w
    have hh := inv.h
    cases b with
    | false =>
      simp only [Bool.false_eq_true, if_false]
      refine ⟨_, rfl, ⟨hx1, hy1, hw, hh, hmx, hmy, inv.down, by simp, inv.val⟩, ?_, fun _ => ?_⟩
      · simp only [searchMeasure, if_true]; omega
      · simp only [searchMeasure, if_true, hs, Bool.false_eq_true, if_false]; omega
    | true =>
      simp only [if_true]
      refine ⟨_, rfl, ⟨by simp only; omega, hy1, by simp only; push_cast; omega, hh, by simp only; omega, hmy,
        inv.down, by simp only [decide_eq_false_iff_not]; omega, ?_⟩, ?_, fun _ => ?_⟩
      · intro x' y' g1 g2 g3 g4
        simp only at g2 g4
        by_cases hyy : x' = s.maxX + 1
        · have := ha rfl (y' - y).toNat (by omega)
          have e1 : y + ((y' - y).toNat : Int) * 1 = y' := by omega
          rw [e1] at this
          rw [hyy]; simpa using this
        · exact inv.val x' y' g1 (by omega) g3 g4
      · simp only [searchMeasure, hs, Bool.false_eq_true, if_false]; split <;> split <;> omega
      · simp only [searchMeasure, hs, Bool.false_eq_true, if_false]; split <;> split <;> omega

theorem searchLoop_spec {m : Img} (hp : m.Packed) {x y : Int} {v : UInt8}
    (hx : m.rect.x0 ≤ x) (hy : m.rect.y0 ≤ y) :
    ∀ (fuel : Nat) (s : RectSearch), SearchInv m x y v s → searchMeasure m s < fuel →
      ∃ s', searchLoop m x y v fuel s = .ok s' ∧ SearchInv m x y v s'
  | 0, _, _, h => by omega
  | fuel + 1, s, inv, hf => by
    rw [searchLoop]
    by_cases hst : (s.stopDown && s.stopRight) = true
    · rw [if_pos hst]; exact ⟨s, rfl, inv⟩
    · rw [if_neg hst]
      obtain ⟨s1, e1, inv1, m1, l1, r1⟩ := expandDown_spec hp hx hy inv
      obtain ⟨s2, e2, inv2, m2, l2⟩ := expandRight_spec hp hx hy inv1
      rw [e1]
      simp only [Res.ok_bind]
      rw [e2]
      simp only [Res.ok_bind]
      apply searchLoop_spec hp hx hy fuel s2 inv2
      cases hd : s.stopDown with
      | false => have := l1 hd; omega
      | true =>
        have hr : s.stopRight = false := by simpa [hd] using hst
        have := l2 (r1.trans hr)
        omega

theorem findRect_spec {m : Img} (hp : m.Packed) {x y : Int} {v : UInt8} (hv : v ≠ 0)
    (hx : m.alphaAt x y = v) : ∃ f, findRect m x y v = .ok f ∧ Good m f ∧ f.Covers x y := by
  have h := has_of_ne hv hx
  have h' := h
  obtain ⟨b1, b2, b3, b4⟩ := h'
  unfold findRect
  rw [read_eq hp h (i := getPixelIndex m x y) rfl, hx]
  simp only [Res.ok_bind, ne_eq, not_true, if_false]
  obtain ⟨s', e, inv⟩ := searchLoop_spec hp (x := x) (y := y) (v := v) b1 b3
    ((m.rect.x1 - x).toNat + (m.rect.y1 - y).toNat + 1)
    ⟨x, y, 1, 1, decide (y + 1 ≥ m.rect.y1), decide (x + 1 ≥ m.rect.x1)⟩
    ⟨le_refl _, le_refl _, by simp, by simp, b2, b4, by simp, by simp, by
      intro x' y' g1 g2 g3 g4
      have : x' = x := by simp only at g2; omega
      have : y' = y := by simp only at g4; omega
      simp_all⟩
    (by simp only [searchMeasure]; split <;> split <;> omega)
  rw [e]
  refine ⟨_, rfl, ⟨⟨inv.hx, inv.hy, by simp⟩, hv, ?_⟩, ?_⟩
  · rintro x' y' ⟨g1, g2, g3, g4⟩
    exact inv.val x' y' g1 g2 g3 g4
  · exact ⟨le_refl _, inv.hx, le_refl _, inv.hy⟩

/-! ### Diagonals -/

theorem diagLoop_spec {m : Img} (hp : m.Packed) {v : UInt8} (hv : v ≠ 0) (dx : Int) :
    ∀ (n : Nat) (x y i : Int), (∀ k : Nat, k < n → m.rect.Has (x + (k + 1) * dx) (y + (k + 1))) →
      i = m.at x y →
      ∃ k, diagLoop m v dx n x y i = .ok k ∧ k ≤ n ∧
        ∀ j : Nat, j < k → m.alphaAt (x + (j + 1) * dx) (y + (j + 1)) = v
  | 0, _, _, _, _, _ => ⟨0, rfl, le_refl _, by simp⟩
  | n + 1, x, y, i, h, hi => by
    have h0 := h 0 (by omega)
    simp only [Nat.cast_zero, Int.zero_add, Int.one_mul] at h0
    have hi' : i + (m.stride + dx) = m.at (x + dx) (y + 1) := by rw [hi, at_step]; ring
    rw [diagLoop]
    rw [read_eq hp h0 hi']
    simp only [Res.ok_bind]
    by_cases hv1 : m.alphaAt (x + dx) (y + 1) = v
    · rw [if_neg (by simpa using hv1), countNeighbours_spec hp hv h0 hi']
      simp only [Res.ok_bind]
      split
      · exact ⟨0, rfl, by omega, by simp⟩
      · obtain ⟨k, e, hk, ha⟩ := diagLoop_spec hp hv dx n (x + dx) (y + 1)
          (i + (m.stride + dx))
          (by
            intro k hk
            have := h (k + 1) (by omega)
            push_cast at this
            have e1 : x + ((k : Int) + 1 + 1) * dx = x + dx + (k + 1) * dx := by ring
            have e2 : y + ((k : Int) + 1 + 1) = y + 1 + (k + 1) := by ring
            rw [e1, e2] at this
            exact this) hi'
        rw [e]
        refine ⟨k + 1, rfl, by omega, ?_⟩
        intro j hj
        cases j with
        | zero => simpa using hv1
        | succ j =>
          have := ha j (by omega)
          push_cast
          have e1 : x + ((j : Int) + 1 + 1) * dx = x + dx + (j + 1) * dx := by ring
          have e2 : y + ((j : Int) + 1 + 1) = y + 1 + (j + 1) := by ring
          rw [e1, e2]; exact this
    · rw [if_pos (by simpa using hv1)]
      exact ⟨0, rfl, by omega, by simp⟩

theorem diagStart_spec {m : Img} (hp : m.Packed) {v : UInt8} (hv : v ≠ 0) {k x y i : Int}
    (hk : k > 0) (h : m.rect.Has x y) (hi : i = m.at x y) :
    ∃ b, diagStart m v k x y i = .ok b ∧ (b = true → m.alphaAt x y = v) := by
  unfold diagStart
  rw [if_neg (by omega), read_eq hp h hi]
  simp only [Res.ok_bind]
  by_cases hv1 : m.alphaAt x y = v
  · rw [if_pos hv1, countNeighbours_spec hp hv h hi]
    exact ⟨_, rfl, fun _ => hv1⟩
  · rw [if_neg hv1]
    exact ⟨_, rfl, by simp⟩

theorem findDiagonal_spec {m : Img} (hp : m.Packed) {x y i : Int} {v : UInt8} (hv : v ≠ 0)
    (hx : m.alphaAt x y = v) (hi : i = m.at x y)
    (hn : countNeighbours m x y i v = .ok 0) :
    ∃ r, findDiagonal m x y i v = .ok r ∧ ∀ f, r = some f → Good m f ∧ f.Covers x y := by
  have h := has_of_ne hv hx
  have h' := h
  obtain ⟨b1, b2, b3, b4⟩ := h'
  have hread : m.read i = .ok v := by rw [read_eq hp h hi, hx]
  unfold findDiagonal
  rw [if_neg (by rw [hi]; simp [getPixelIndex, Img.at]), hread]
  simp only [Res.ok_bind, ne_eq, not_true, if_false, hn]
  subst hi
  -- first test
  obtain ⟨d1, e1, hd1⟩ : ∃ d1, diagStart m v (min (m.rect.x1 - 1 - x) (m.rect.y1 - 1 - y))
      (x + 1) (y + 1) (m.at x y + m.stride + 1) = .ok d1 ∧
      (d1 = true → min (m.rect.x1 - 1 - x) (m.rect.y1 - 1 - y) > 0 ∧ m.alphaAt (x + 1) (y + 1) = v) := by
    by_cases hm : min (m.rect.x1 - 1 - x) (m.rect.y1 - 1 - y) > 0
    · obtain ⟨b, e, hb⟩ := diagStart_spec hp hv hm (x := x + 1) (y := y + 1)
        (i := m.at x y + m.stride + 1) (by refine ⟨?_, ?_, ?_, ?_⟩ <;> omega) (by unfold Img.at; ring)
      exact ⟨b, e, fun g => ⟨hm, hb g⟩⟩
    · exact ⟨false, by unfold diagStart; rw [if_pos hm], by simp⟩
  rw [e1]
  simp only [Res.ok_bind]
  cases d1 with
  | true =>
    obtain ⟨hm, ha1⟩ := hd1 rfl
    simp only [if_true]
    obtain ⟨k, e, hk, ha⟩ := diagLoop_spec hp hv 1
      (min (m.rect.x1 - 1 - x) (m.rect.y1 - 1 - y) - 1).toNat (x + 1) (y + 1) (m.at x y + m.stride + 1)
      (by intro k hk; refine ⟨?_, ?_, ?_, ?_⟩ <;> omega) (by unfold Img.at; ring)
    rw [e]
    refine ⟨_, rfl, ?_⟩
    rintro f ⟨rfl⟩
    refine ⟨⟨⟨by simp only; omega, by simp only; omega, by intro _; simp only; omega⟩, hv, ?_⟩, ?_⟩
    · rintro x' y' ⟨g1, g2, g3⟩
      simp only at g1 g2 g3 ⊢
      by_cases gx : x' = x
      · have : y' = y := by omega
        subst gx this; exact hx
      · by_cases gx2 : x' = x + 1
        · have : y' = y + 1 := by omega
          subst gx2 this; exact ha1
        · have := ha (x' - (x + 2)).toNat (by omega)
          have e1 : x + 1 + (((x' - (x + 2)).toNat : Int) + 1) * 1 = x' := by omega
          have e2 : y + 1 + (((x' - (x + 2)).toNat : Int) + 1) = y' := by omega
          rw [e1, e2] at this
          exact this
    · refine ⟨?_, ?_, ?_⟩ <;> simp only <;> omega
  | false =>
    simp only [Bool.false_eq_true, if_false]
    obtain ⟨d2, e2, hd2⟩ : ∃ d2, diagStart m v (min (x - m.rect.x0) (m.rect.y1 - 1 - y))
        (x - 1) (y + 1) (m.at x y + m.stride - 1) = .ok d2 ∧
        (d2 = true → min (x - m.rect.x0) (m.rect.y1 - 1 - y) > 0 ∧ m.alphaAt (x - 1) (y + 1) = v) := by
      by_cases hm : min (x - m.rect.x0) (m.rect.y1 - 1 - y) > 0
      · obtain ⟨b, e, hb⟩ := diagStart_spec hp hv hm (x := x - 1) (y := y + 1)
          (i := m.at x y + m.stride - 1) (by refine ⟨?_, ?_, ?_, ?_⟩ <;> omega) (by unfold Img.at; ring)
        exact ⟨b, e, fun g => ⟨hm, hb g⟩⟩
      · exact ⟨false, by unfold diagStart; rw [if_pos hm], by simp⟩
    rw [e2]
    simp only [Res.ok_bind]
    cases d2 with
    | true =>
      obtain ⟨hm, ha1⟩ := hd2 rfl
      simp only [if_true]
      obtain ⟨k, e, hk, ha⟩ := diagLoop_spec hp hv (-1)
        (min (x - m.rect.x0) (m.rect.y1 - 1 - y) - 1).toNat (x - 1) (y + 1) (m.at x y + m.stride - 1)
        (by intro k hk; refine ⟨?_, ?_, ?_, ?_⟩ <;> omega) (by unfold Img.at; ring)
      rw [e]
      refine ⟨_, rfl, ?_⟩
      rintro f ⟨rfl⟩
      refine ⟨⟨⟨by simp only; omega, by simp only; omega, by intro _; simp only; omega⟩, hv, ?_⟩, ?_⟩
      · rintro x' y' ⟨g1, g2, g3⟩
        simp only at g1 g2 g3 ⊢
        by_cases gx : x' = x
        · have : y' = y := by omega
          subst gx this; exact hx
        · by_cases gx2 : x' = x - 1
          · have : y' = y + 1 := by omega
            subst gx2 this; exact ha1
          · have := ha (x - 2 - x').toNat (by omega)
            have e1 : x - 1 + (((x - 2 - x').toNat : Int) + 1) * (-1) = x' := by omega
            have e2 : y + 1 + (((x - 2 - x').toNat : Int) + 1) = y' := by omega
            rw [e1, e2] at this
            exact this
      · refine ⟨?_, ?_, ?_⟩ <;> simp only <;> omega
    | false =>
      simp only [Bool.false_eq_true, if_false]
      exact ⟨_, rfl, by simp⟩

end Mask
