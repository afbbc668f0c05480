import Verif.Model.Mask
import Mathlib.Tactic.Linarith
import Mathlib.Tactic.Ring

/-!
# Reading and writing pixels of well-formed images
-/

namespace Mask
open Go

/-- `(x, y)` is in the rectangle. -/
def Rect.Has (r : Rect) (x y : Int) : Prop := r.x0 ≤ x ∧ x < r.x1 ∧ r.y0 ≤ y ∧ y < r.y1

/-- Images as created by `image.NewAlpha`: no padding between rows. -/
structure Img.Packed (m : Img) : Prop where
  w0 : m.rect.x0 ≤ m.rect.x1
  h0 : m.rect.y0 ≤ m.rect.y1
  stride : m.stride = m.rect.x1 - m.rect.x0
  len : (m.pix.length : Int) = (m.rect.x1 - m.rect.x0) * (m.rect.y1 - m.rect.y0)

/-- Index of a pixel. -/
def Img.at (m : Img) (x y : Int) : Int := (y - m.rect.y0) * m.stride + (x - m.rect.x0)

theorem index_bounds {w h a b : Int} (hb0 : 0 ≤ b) (hb : b < w) (ha0 : 0 ≤ a) (ha : a < h) :
    0 ≤ a * w + b ∧ a * w + b < w * h := by
  constructor
  · have : 0 ≤ a * w := Int.mul_nonneg ha0 (by omega)
    omega
  · have h1 : (a + 1) * w ≤ h * w := Int.mul_le_mul_of_nonneg_right (by omega) (by omega)
    have h2 : (a + 1) * w = a * w + w := by ring
    have h3 : h * w = w * h := by ring
    omega

theorem index_inj {w a b a' b' : Int} (hb0 : 0 ≤ b) (hb : b < w) (hb0' : 0 ≤ b') (hb' : b' < w)
    (e : a * w + b = a' * w + b') : a = a' ∧ b = b' := by
  have h1 : (a * w + b) % w = b := by
    rw [Int.add_comm, Int.add_mul_emod_self_right, Int.emod_eq_of_lt hb0 hb]
  have h2 : (a' * w + b') % w = b' := by
    rw [Int.add_comm, Int.add_mul_emod_self_right, Int.emod_eq_of_lt hb0' hb']
  rw [e, h2] at h1
  subst h1
  refine ⟨?_, rfl⟩
  have h3 : a * w = a' * w := by omega
  exact Int.eq_of_mul_eq_mul_right (by omega) h3

theorem at_bounds {m : Img} (hp : m.Packed) {x y : Int} (h : m.rect.Has x y) :
    0 ≤ m.at x y ∧ (m.at x y).toNat < m.pix.length := by
  obtain ⟨h1, h2, h3, h4⟩ := h
  unfold Img.at
  rw [hp.stride]
  have := index_bounds (w := m.rect.x1 - m.rect.x0) (h := m.rect.y1 - m.rect.y0)
    (a := y - m.rect.y0) (b := x - m.rect.x0) (by omega) (by omega) (by omega) (by omega)
  have hl := hp.len
  omega

theorem alphaAt_out {m : Img} {x y : Int} (h : ¬ m.rect.Has x y) : m.alphaAt x y = 0 := by
  unfold Img.alphaAt; unfold Rect.Has at h; rw [if_neg h]

theorem alphaAt_in {m : Img} {x y : Int} (h : m.rect.Has x y) :
    m.alphaAt x y = m.pix.getD (m.at x y).toNat 0 := by
  unfold Img.alphaAt; unfold Rect.Has at h; rw [if_pos h]; rfl

theorem read_at {m : Img} (hp : m.Packed) {x y : Int} (h : m.rect.Has x y) :
    m.read (m.at x y) = .ok (m.alphaAt x y) := by
  have hb := at_bounds hp h
  unfold Img.read
  rw [if_pos hb.1, idx_lt hb.2, alphaAt_in h, List.getD_eq_getElem?_getD,
    List.getElem?_eq_getElem hb.2]
  rfl

/-- Reading at an index that is the index of `(x, y)`. -/
theorem read_eq {m : Img} (hp : m.Packed) {x y i : Int} (h : m.rect.Has x y) (hi : i = m.at x y) :
    m.read i = .ok (m.alphaAt x y) := by
  rw [hi]; exact read_at hp h

theorem write_at {m : Img} (hp : m.Packed) {x y : Int} (h : m.rect.Has x y) (v : UInt8) :
    ∃ m', m.write (m.at x y) v = .ok m' ∧ m'.Packed ∧ m'.rect = m.rect ∧
      ∀ x' y', m'.alphaAt x' y' = if x' = x ∧ y' = y then v else m.alphaAt x' y' := by
  have hb := at_bounds hp h
  unfold Img.write
  rw [if_pos hb.1, setAt_lt hb.2]
  refine ⟨_, rfl, ⟨hp.w0, hp.h0, hp.stride, by simpa using hp.len⟩, rfl, ?_⟩
  intro x' y'
  by_cases hin : m.rect.Has x' y'
  · rw [alphaAt_in hin, alphaAt_in (m := { m with pix := m.pix.set (m.at x y).toNat v }) hin]
    have hb' := at_bounds hp hin
    have hat : Img.at { m with pix := m.pix.set (m.at x y).toNat v } x' y' = m.at x' y' := rfl
    rw [hat]
    by_cases he : x' = x ∧ y' = y
    · obtain ⟨rfl, rfl⟩ := he
      rw [if_pos ⟨rfl, rfl⟩, List.getD_eq_getElem?_getD, List.getElem?_set_self hb.2]
      rfl
    · rw [if_neg he, List.getD_eq_getElem?_getD, List.getD_eq_getElem?_getD, List.getElem?_set_ne]
      intro e
      apply he
      have e' : m.at x y = m.at x' y' := by omega
      unfold Img.at at e'
      rw [hp.stride] at e'
      obtain ⟨h1, h2, h3, h4⟩ := h
      obtain ⟨g1, g2, g3, g4⟩ := hin
      have := index_inj (by omega) (by omega) (by omega) (by omega) e'
      omega
  · rw [alphaAt_out hin, alphaAt_out (m := { m with pix := m.pix.set (m.at x y).toNat v }) hin]
    rw [if_neg]
    rintro ⟨rfl, rfl⟩
    exact hin h

theorem write_eq {m : Img} (hp : m.Packed) {x y i : Int} (h : m.rect.Has x y) (hi : i = m.at x y)
    (v : UInt8) :
    ∃ m', m.write i v = .ok m' ∧ m'.Packed ∧ m'.rect = m.rect ∧
      ∀ x' y', m'.alphaAt x' y' = if x' = x ∧ y' = y then v else m.alphaAt x' y' := by
  rw [hi]; exact write_at hp h v

theorem setAlpha_in {m : Img} (hp : m.Packed) {x y : Int} (h : m.rect.Has x y) (v : UInt8) :
    ∃ m', m.setAlpha x y v = .ok m' ∧ m'.Packed ∧ m'.rect = m.rect ∧
      ∀ x' y', m'.alphaAt x' y' = if x' = x ∧ y' = y then v else m.alphaAt x' y' := by
  obtain ⟨m', h1, h2⟩ := write_at hp h v
  refine ⟨m', ?_, h2⟩
  unfold Img.setAlpha
  unfold Rect.Has at h
  rw [if_pos h]
  exact h1

theorem newAlpha_ok {r : Rect} (hw : r.x0 ≤ r.x1) (hh : r.y0 ≤ r.y1)
    (hs : (r.x1 - r.x0) * (r.y1 - r.y0) < 2 ^ 63) :
    ∃ m, newAlpha r = .ok m ∧ m.Packed ∧ m.rect = r ∧ ∀ x y, m.alphaAt x y = 0 := by
  unfold newAlpha
  simp only
  rw [if_neg (by omega)]
  have hnn : 0 ≤ (r.x1 - r.x0) * (r.y1 - r.y0) := Int.mul_nonneg (by omega) (by omega)
  refine ⟨_, rfl, ⟨hw, hh, rfl, ?_⟩, rfl, ?_⟩
  · simp only [List.length_replicate]; omega
  · intro x y
    unfold Img.alphaAt
    simp only
    split
    · rw [List.getD_eq_getElem?_getD, List.getElem?_replicate]
      split <;> rfl
    · rfl

/-- A sequence of pixel writes. -/
def paint : List (Int × Int × UInt8) → Img → Res Img
  | [], m => .ok m
  | w :: ws, m => do
    let m ← m.setAlpha w.1 w.2.1 w.2.2
    paint ws m

theorem paint_append (a b : List (Int × Int × UInt8)) (m : Img) :
    paint (a ++ b) m = (paint a m >>= fun m => paint b m) := by
  induction a generalizing m with
  | nil => rfl
  | cons w a ih =>
    simp only [List.cons_append, paint, bind_assoc]
    congr 1
    funext m
    exact ih m

theorem paint_ok (ws : List (Int × Int × UInt8)) : ∀ (m : Img), m.Packed →
    (∀ w ∈ ws, m.rect.Has w.1 w.2.1) →
    ∃ m', paint ws m = .ok m' ∧ m'.Packed ∧ m'.rect = m.rect ∧
      ∀ x y, m'.alphaAt x y =
        ws.foldl (fun v w => if w.1 = x ∧ w.2.1 = y then w.2.2 else v) (m.alphaAt x y) := by
  induction ws with
  | nil => intro m hp _; exact ⟨m, rfl, hp, rfl, fun _ _ => rfl⟩
  | cons w ws ih =>
    intro m hp hin
    obtain ⟨m1, e1, hp1, hr1, ha1⟩ := setAlpha_in hp (hin w (by simp)) w.2.2
    obtain ⟨m2, e2, hp2, hr2, ha2⟩ := ih m1 hp1 (by
      intro w' hw'; rw [hr1]; exact hin w' (by simp [hw']))
    refine ⟨m2, by simp [paint, e1, e2], hp2, by rw [hr2, hr1], ?_⟩
    intro x y
    rw [ha2, ha1, List.foldl_cons]
    congr 1
    by_cases h : x = w.1 ∧ y = w.2.1
    · rw [if_pos h, if_pos ⟨h.1.symm, h.2.symm⟩]
    · rw [if_neg h, if_neg (fun h' => h ⟨h'.1.symm, h'.2.symm⟩)]

/-! ### The drawing loops are sequences of pixel writes -/

theorem drawAsc_paint (v : UInt8) : ∀ (n : Nat) (m : Img) (x y : Int),
    drawAsc v n m x y = paint ((List.range n).map fun (i : Nat) => (x + (i : Int), y - 1 - (i : Int), v)) m
  | 0, m, x, y => rfl
  | n + 1, m, x, y => by
    have ih := fun m => drawAsc_paint v n m (x + 1) (y - 1)
    rw [List.range_succ_eq_map, List.map_cons, List.map_map, drawAsc, paint]
    simp only [Nat.cast_zero, Int.add_zero, Int.sub_zero]
    congr 1
    funext m
    rw [ih]
    congr 1
    apply List.map_congr_left
    intro i _
    simp only [Function.comp, Nat.succ_eq_add_one, Nat.cast_add, Nat.cast_one, Prod.mk.injEq, and_true]
    constructor <;> omega

theorem drawDesc_paint (v : UInt8) : ∀ (n : Nat) (m : Img) (x y : Int),
    drawDesc v n m x y = paint ((List.range n).map fun (i : Nat) => (x + (i : Int), y + (i : Int), v)) m
  | 0, m, x, y => rfl
  | n + 1, m, x, y => by
    have ih := fun m => drawDesc_paint v n m (x + 1) (y + 1)
    rw [List.range_succ_eq_map, List.map_cons, List.map_map, drawDesc, paint]
    simp only [Nat.cast_zero, Int.add_zero]
    congr 1
    funext m
    rw [ih]
    congr 1
    apply List.map_congr_left
    intro i _
    simp only [Function.comp, Nat.succ_eq_add_one, Nat.cast_add, Nat.cast_one, Prod.mk.injEq, and_true]
    constructor <;> omega

theorem drawRow_paint (v : UInt8) (x y : Int) : ∀ (n i : Nat) (m : Img),
    drawRow v x y n i m = paint ((List.range n).map fun (k : Nat) => (x + ((i + k : Nat) : Int), y, v)) m
  | 0, i, m => rfl
  | n + 1, i, m => by
    have ih := fun m => drawRow_paint v x y n (i + 1) m
    rw [List.range_succ_eq_map, List.map_cons, List.map_map, drawRow, paint]
    simp only [Nat.add_zero]
    congr 1
    funext m
    rw [ih]
    congr 1
    apply List.map_congr_left
    intro k _
    simp only [Function.comp, Nat.succ_eq_add_one, Prod.mk.injEq, and_true]
    omega

theorem drawRect_paint (v : UInt8) (x y : Int) (w : Nat) : ∀ (n j : Nat) (m : Img),
    drawRect v x y w n j m = paint ((List.range n).flatMap fun (k : Nat) =>
      (List.range w).map fun (i : Nat) => (x + (i : Int), y + ((j + k : Nat) : Int), v)) m
  | 0, j, m => rfl
  | n + 1, j, m => by
    have ih := fun m => drawRect_paint v x y w n (j + 1) m
    rw [List.range_succ_eq_map, List.flatMap_cons, paint_append, drawRect, drawRow_paint]
    simp only [Nat.add_zero, Nat.zero_add]
    congr 1
    funext m
    rw [ih, List.flatMap_map]
    congr 1
    congr 1
    funext k
    apply List.map_congr_left
    intro i _
    simp only [Nat.succ_eq_add_one, Prod.mk.injEq, and_true, true_and]
    omega

end Mask
