import Verif.Lemmas.EncFind

/-! # Lemmas about the two passes of the mask encoder -/

open Go

namespace Mask

/-! ### ClearFrom -/

theorem clearRun_spec (dx dy : Int) : ∀ (n : Nat) (x y i st : Int) (m : Img), m.Packed →
    (∀ k : Nat, k < n → m.rect.Has (x + k * dx) (y + k * dy)) → i = m.at x y →
    st = dy * m.stride + dx →
    ∃ m', clearRun st n i m = .ok m' ∧ m'.Packed ∧ m'.rect = m.rect ∧
      ∀ x' y', ((∃ k : Nat, k < n ∧ x' = x + k * dx ∧ y' = y + k * dy) → m'.alphaAt x' y' = 0) ∧
        ((¬ ∃ k : Nat, k < n ∧ x' = x + k * dx ∧ y' = y + k * dy) → m'.alphaAt x' y' = m.alphaAt x' y')
  | 0, x, y, i, st, m, hp, _, _, _ =>
    ⟨m, rfl, hp, rfl, fun x' y' => ⟨fun ⟨k, hk, _⟩ => by omega, fun _ => rfl⟩⟩
  | n + 1, x, y, i, st, m, hp, h, hi, hst => by
    have h0 := h 0 (by omega)
    simp only [Nat.cast_zero, Int.zero_mul, Int.add_zero] at h0
    obtain ⟨m1, e1, p1, r1, a1⟩ := write_eq hp h0 hi 0
    have hs1 : m1.stride = m.stride := by rw [p1.stride, hp.stride, r1]
    obtain ⟨m2, e2, p2, r2, a2⟩ := clearRun_spec dx dy n (x + dx) (y + dy) (i + st) st m1 p1
      (by
        intro k hk
        have := h (k + 1) (by omega)
        push_cast at this
        have e1 : x + (k + 1 : Int) * dx = x + dx + k * dx := by ring
        have e2 : y + (k + 1 : Int) * dy = y + dy + k * dy := by ring
        rw [e1, e2] at this
        rw [r1]; exact this)
      (by
        rw [hi, hst, ← at_step]
        unfold Img.at; rw [r1, hs1])
      (by rw [hs1]; exact hst)
    refine ⟨m2, ?_, p2, r2.trans r1, ?_⟩
    · rw [clearRun, e1]; exact e2
    · intro x' y'
      have hiff : (∃ k : Nat, k < n + 1 ∧ x' = x + k * dx ∧ y' = y + k * dy) ↔
          (x' = x ∧ y' = y) ∨ (∃ k : Nat, k < n ∧ x' = x + dx + k * dx ∧ y' = y + dy + k * dy) := by
        constructor
        · rintro ⟨k, hk, g1, g2⟩
          cases k with
          | zero => left; constructor <;> simp_all
          | succ k =>
            right
            push_cast at g1 g2
            exact ⟨k, by omega, by rw [g1]; ring, by rw [g2]; ring⟩
        · rintro (⟨g1, g2⟩ | ⟨k, hk, g1, g2⟩)
          · exact ⟨0, by omega, by simpa using g1, by simpa using g2⟩
          · exact ⟨k + 1, by omega, by rw [g1]; push_cast; ring, by rw [g2]; push_cast; ring⟩
      rw [hiff]
      obtain ⟨b1, b2⟩ := a2 x' y'
      constructor
      · intro hc
        by_cases hk : ∃ k : Nat, k < n ∧ x' = x + dx + k * dx ∧ y' = y + dy + k * dy
        · exact b1 hk
        · rw [b2 hk, a1]
          rcases hc with hc | hc
          · rw [if_pos hc]
          · exact absurd hc hk
      · intro hc
        have h1 : ¬ (x' = x ∧ y' = y) := fun g => hc (Or.inl g)
        rw [b2 (fun g => hc (Or.inr g)), a1, if_neg h1]

theorem clearRows_spec (x : Int) (w : Nat) : ∀ (n : Nat) (y : Int) (m : Img), m.Packed →
    (∀ i j : Nat, i < w → j < n → m.rect.Has (m.rect.x0 + x + i) (m.rect.y0 + y + j)) →
    ∃ m', clearRows x w n y m = .ok m' ∧ m'.Packed ∧ m'.rect = m.rect ∧
      ∀ x' y', ((m.rect.x0 + x ≤ x' ∧ x' < m.rect.x0 + x + w ∧ m.rect.y0 + y ≤ y' ∧
          y' < m.rect.y0 + y + n) → m'.alphaAt x' y' = 0) ∧
        ((¬ (m.rect.x0 + x ≤ x' ∧ x' < m.rect.x0 + x + w ∧ m.rect.y0 + y ≤ y' ∧
          y' < m.rect.y0 + y + n)) → m'.alphaAt x' y' = m.alphaAt x' y')
  | 0, y, m, hp, _ => ⟨m, rfl, hp, rfl, fun x' y' => ⟨fun h => by simp at h; omega, fun _ => rfl⟩⟩
  | n + 1, y, m, hp, h => by
    obtain ⟨m1, e1, p1, r1, a1⟩ := clearRun_spec 1 0 w (m.rect.x0 + x) (m.rect.y0 + y)
      (y * m.stride + x) 1 m hp
      (by
        intro k hk
        have := h k 0 hk (by omega)
        simp only [Nat.cast_zero, Int.add_zero] at this
        simpa using this)
      (by unfold Img.at; ring) (by ring)
    obtain ⟨m2, e2, p2, r2, a2⟩ := clearRows_spec x w n (y + 1) m1 p1
      (by
        intro i j hi hj
        have := h i (j + 1) hi (by omega)
        push_cast at this
        rw [r1]
        have e : m.rect.y0 + (y + 1) + (j : Int) = m.rect.y0 + y + (j + 1) := by ring
        rw [e]; exact this)
    refine ⟨m2, ?_, p2, r2.trans r1, ?_⟩
    · rw [clearRows, e1]; exact e2
    · intro x' y'
      obtain ⟨b1, b2⟩ := a2 x' y'
      obtain ⟨c1, c2⟩ := a1 x' y'
      rw [r1] at b1 b2
      have hrow : (∃ k : Nat, k < w ∧ x' = m.rect.x0 + x + k * 1 ∧ y' = m.rect.y0 + y + k * 0) ↔
          (m.rect.x0 + x ≤ x' ∧ x' < m.rect.x0 + x + w ∧ y' = m.rect.y0 + y) := by
        constructor
        · rintro ⟨k, hk, g1, g2⟩; omega
        · rintro ⟨g1, g2, g3⟩
          exact ⟨(x' - (m.rect.x0 + x)).toNat, by omega, by omega, by omega⟩
      rw [hrow] at c1 c2
      push_cast
      constructor
      · rintro ⟨g1, g2, g3, g4⟩
        by_cases hy : y' = m.rect.y0 + y
        · by_cases hb : m.rect.x0 + x ≤ x' ∧ x' < m.rect.x0 + x + w ∧ m.rect.y0 + (y + 1) ≤ y' ∧
              y' < m.rect.y0 + (y + 1) + n
          · exact b1 hb
          · rw [b2 hb]; exact c1 ⟨g1, g2, hy⟩
        · exact b1 ⟨g1, g2, by omega, by omega⟩
      · intro hn
        rw [b2 (by omega), c2 (by omega)]

theorem clearFrom_spec {m : Img} (hp : m.Packed) {f : Frag} (hg : Good m f) :
    ∃ m', clearFrom f m = .ok m' ∧ m'.Packed ∧ m'.rect = m.rect ∧
      ∀ x y, (f.Covers x y → m'.alphaAt x y = 0) ∧ (¬ f.Covers x y → m'.alphaAt x y = m.alphaAt x y) := by
  obtain ⟨⟨hx, hy, hsq⟩, hne, hval⟩ := hg
  have hhas : ∀ x y, f.Covers x y → m.rect.Has x y := fun x y hc => has_of_ne hne (hval x y hc)
  unfold clearFrom
  unfold Frag.Covers at hhas ⊢
  cases hd : f.diag with
  | none =>
    simp only [hd] at hhas ⊢
    obtain ⟨m', e, p, r, a⟩ := clearRows_spec (f.minX - m.rect.x0) (f.maxX - f.minX + 1).toNat
      (f.maxY - f.minY + 1).toNat (f.minY - m.rect.y0) m hp
      (by intro i j hi hj; apply hhas; omega)
    refine ⟨m', e, p, r, ?_⟩
    intro x y
    obtain ⟨a1, a2⟩ := a x y
    constructor
    · rintro ⟨g1, g2, g3, g4⟩; exact a1 (by omega)
    · intro hn; exact a2 (by omega)
  | asc =>
    simp only [hd] at hhas ⊢
    obtain ⟨m', e, p, r, a⟩ := clearRun_spec (-1) 1 (f.maxX + 1 - f.minX).toNat f.maxX f.minY
      ((f.minY - m.rect.y0) * m.stride + (f.maxX - m.rect.x0)) (m.stride - 1) m hp
      (by intro k hk; apply hhas; omega) rfl (by ring)
    refine ⟨m', e, p, r, ?_⟩
    intro x y
    obtain ⟨a1, a2⟩ := a x y
    constructor
    · rintro ⟨g1, g2, g3⟩
      exact a1 ⟨(f.maxX - x).toNat, by omega, by omega, by omega⟩
    · intro hn
      apply a2
      rintro ⟨k, hk, g1, g2⟩
      apply hn; omega
  | desc =>
    simp only [hd] at hhas ⊢
    obtain ⟨m', e, p, r, a⟩ := clearRun_spec 1 1 (f.maxX + 1 - f.minX).toNat f.minX f.minY
      ((f.minY - m.rect.y0) * m.stride + (f.minX - m.rect.x0)) (m.stride + 1) m hp
      (by intro k hk; apply hhas; omega) rfl (by ring)
    refine ⟨m', e, p, r, ?_⟩
    intro x y
    obtain ⟨a1, a2⟩ := a x y
    constructor
    · rintro ⟨g1, g2, g3⟩
      exact a1 ⟨(x - f.minX).toNat, by omega, by omega, by omega⟩
    · intro hn
      apply a2
      rintro ⟨k, hk, g1, g2⟩
      apply hn; omega

/-! ### The invariant of both passes -/

/-- Fragments without common pixels. -/
def Frag.Apart (f g : Frag) : Prop := ∀ x y, f.Covers x y → ¬ g.Covers x y

/-- `orig`: the pixels of the mask at the start. -/
structure EncInv (rect : Rect) (orig : Int → Int → UInt8) (s : Enc) : Prop where
  packed : s.img.Packed
  rect : s.img.rect = rect
  keep : ∀ x y, s.img.alphaAt x y = 0 ∨ s.img.alphaAt x y = orig x y
  wf : ∀ f ∈ s.frags, f.WF
  val : ∀ f ∈ s.frags, ∀ x y, f.Covers x y → orig x y = f.value
  ne : ∀ f ∈ s.frags, f.value ≠ 0
  cover : ∀ x y, orig x y ≠ 0 → s.img.alphaAt x y = orig x y ∨ ∃ f ∈ s.frags, f.Covers x y
  gone : ∀ f ∈ s.frags, ∀ x y, f.Covers x y → s.img.alphaAt x y = 0
  apart : s.frags.Pairwise Frag.Apart

/-- What taking a good fragment does. -/
theorem take_spec {rect : Rect} {orig : Int → Int → UInt8} {s : Enc} (inv : EncInv rect orig s)
    {f : Frag} (hg : Good s.img f) :
    ∃ s', s.take f = .ok s' ∧ EncInv rect orig s' ∧
      (∀ x y, f.Covers x y → s'.img.alphaAt x y = 0) ∧
      (∀ x y, s.img.alphaAt x y = 0 → s'.img.alphaAt x y = 0) ∧
      s'.minX = s.minX ∧ s'.minY = s.minY ∧ s'.maxX = s.maxX ∧ s'.maxY = s.maxY := by
  obtain ⟨m', e, p, r, a⟩ := clearFrom_spec inv.packed hg
  unfold Enc.take
  rw [e]
  refine ⟨_, rfl, ⟨p, r.trans inv.rect, ?_, ?_, ?_, ?_, ?_, ?_, ?_⟩, fun x y => (a x y).1, ?_, rfl, rfl, rfl, rfl⟩
  · intro x y
    simp only
    by_cases hc : f.Covers x y
    · exact Or.inl ((a x y).1 hc)
    · rw [(a x y).2 hc]; exact inv.keep x y
  · intro g hgm
    simp only [List.mem_append, List.mem_singleton] at hgm
    rcases hgm with h | rfl
    · exact inv.wf g h
    · exact hg.wf
  · intro g hgm x y hc
    simp only [List.mem_append, List.mem_singleton] at hgm
    rcases hgm with h | rfl
    · exact inv.val g h x y hc
    · have h1 := hg.val x y hc
      rcases inv.keep x y with h2 | h2
      · rw [h2] at h1; exact absurd h1.symm hg.ne
      · rw [← h2, h1]
  · intro g hgm
    simp only [List.mem_append, List.mem_singleton] at hgm
    rcases hgm with h | rfl
    · exact inv.ne g h
    · exact hg.ne
  · intro x y hne
    simp only [List.mem_append, List.mem_singleton]
    by_cases hc : f.Covers x y
    · exact Or.inr ⟨f, Or.inr rfl, hc⟩
    · rcases inv.cover x y hne with h | ⟨g, hgm, hgc⟩
      · left; rw [(a x y).2 hc]; exact h
      · exact Or.inr ⟨g, Or.inl hgm, hgc⟩
  · intro g hgm x y hc
    simp only [List.mem_append, List.mem_singleton] at hgm
    simp only
    by_cases hf : f.Covers x y
    · exact (a x y).1 hf
    · rcases hgm with h | rfl
      · rw [(a x y).2 hf]; exact inv.gone g h x y hc
      · exact absurd hc hf
  · refine List.pairwise_append.2 ⟨inv.apart, List.pairwise_singleton .., ?_⟩
    intro g hgm f' hf' x y hc hc'
    obtain rfl := List.mem_singleton.1 hf'
    have h1 := hg.val x y hc'
    rw [inv.gone g hgm x y hc] at h1
    exact hg.ne h1.symm
  · intro x y h0
    simp only
    by_cases hc : f.Covers x y
    · exact (a x y).1 hc
    · rw [(a x y).2 hc]; exact h0

theorem point_good {m : Img} {x y : Int} {v : UInt8} (hv : v ≠ 0) (h : m.alphaAt x y = v) :
    Good m { minX := x, minY := y, maxX := x, maxY := y, value := v } ∧
    Frag.Covers { minX := x, minY := y, maxX := x, maxY := y, value := v } x y := by
  refine ⟨⟨⟨le_refl _, le_refl _, by simp⟩, hv, ?_⟩, ⟨le_refl _, le_refl _, le_refl _, le_refl _⟩⟩
  rintro x' y' ⟨g1, g2, g3, g4⟩
  simp only at g1 g2 g3 g4
  have : x' = x := by omega
  have : y' = y := by omega
  simp_all

/-- Registered for the second pass. -/
def InBox (s : Enc) (x y : Int) : Prop := s.minX ≤ x ∧ x ≤ s.maxX ∧ s.minY ≤ y ∧ y ≤ s.maxY

/-- The bounds only grow, and cleared pixels stay cleared. -/
structure EncLe (s s' : Enc) : Prop where
  box : ∀ x y, InBox s x y → InBox s' x y
  zero : ∀ x y, s.img.alphaAt x y = 0 → s'.img.alphaAt x y = 0

theorem EncLe.refl (s : Enc) : EncLe s s := ⟨fun _ _ h => h, fun _ _ h => h⟩

theorem EncLe.trans {a b c : Enc} (h1 : EncLe a b) (h2 : EncLe b c) : EncLe a c :=
  ⟨fun x y h => h2.box x y (h1.box x y h), fun x y h => h2.zero x y (h1.zero x y h)⟩

/-- The bounds are the initial ones or inside the rectangle. -/
def BoxOk (r : Rect) (s : Enc) : Prop :=
  (s.minX = r.x1 ∧ s.minY = r.y1 ∧ s.maxX = r.x0 ∧ s.maxY = r.y0) ∨
  (r.x0 ≤ s.minX ∧ s.minX < r.x1 ∧ r.y0 ≤ s.minY ∧ s.minY < r.y1 ∧
   r.x0 ≤ s.maxX ∧ s.maxX < r.x1 ∧ r.y0 ≤ s.maxY ∧ s.maxY < r.y1)

theorem box_of_eq {a b : Enc} (h1 : b.minX = a.minX) (h2 : b.minY = a.minY) (h3 : b.maxX = a.maxX)
    (h4 : b.maxY = a.maxY) (x y : Int) (h : InBox a x y) : InBox b x y := by
  unfold InBox at h ⊢; omega

theorem firstPixel_spec {r : Rect} {orig : Int → Int → UInt8} {s : Enc} (inv : EncInv r orig s)
    (hb : BoxOk r s) {x y i : Int} (h : r.Has x y) (hi : i = s.img.at x y) :
    ∃ s', firstPixel s x y i = .ok s' ∧ EncInv r orig s' ∧ BoxOk r s' ∧ EncLe s s' ∧
      (s'.img.alphaAt x y = 0 ∨ InBox s' x y) := by
  have hh : s.img.rect.Has x y := by rw [inv.rect]; exact h
  unfold firstPixel
  rw [read_eq inv.packed hh hi]
  simp only [Res.ok_bind]
  by_cases hv : s.img.alphaAt x y = 0
  · rw [if_neg (by simpa using hv)]
    exact ⟨s, rfl, inv, hb, EncLe.refl s, Or.inl hv⟩
  rw [if_pos (by simpa using hv)]
  have hcn := countNeighbours_spec inv.packed hv hh hi
  have fin : ∀ f, Good s.img f → f.Covers x y → ∃ s', s.take f = .ok s' ∧ EncInv r orig s' ∧ BoxOk r s' ∧
      EncLe s s' ∧ (s'.img.alphaAt x y = 0 ∨ InBox s' x y) := by
    intro f hg hc
    obtain ⟨s', e, inv', z1, z2, e1, e2, e3, e4⟩ := take_spec inv hg
    refine ⟨s', e, inv', ?_, ⟨box_of_eq e1 e2 e3 e4, z2⟩, Or.inl (z1 x y hc)⟩
    unfold BoxOk at hb ⊢; rw [e1, e2, e3, e4]; exact hb
  generalize hn : b2n (s.img.alphaAt x (y - 1) == s.img.alphaAt x y) +
      b2n (s.img.alphaAt x (y + 1) == s.img.alphaAt x y) +
      b2n (s.img.alphaAt (x - 1) y == s.img.alphaAt x y) +
      b2n (s.img.alphaAt (x + 1) y == s.img.alphaAt x y) = n at hcn
  have hn4 : n ≤ 4 := by
    have hb2 : ∀ b, b2n b ≤ 1 := by intro b; cases b <;> decide
    have h1 := hb2 (s.img.alphaAt x (y - 1) == s.img.alphaAt x y)
    have h2 := hb2 (s.img.alphaAt x (y + 1) == s.img.alphaAt x y)
    have h3 := hb2 (s.img.alphaAt (x - 1) y == s.img.alphaAt x y)
    have h4 := hb2 (s.img.alphaAt (x + 1) y == s.img.alphaAt x y)
    omega
  rw [hcn]
  simp only [Res.ok_bind]
  have reg : ∃ s', (pure (s.register x y) : Res Enc) = .ok s' ∧
      EncInv r orig s' ∧ BoxOk r s' ∧ EncLe s s' ∧ (s'.img.alphaAt x y = 0 ∨ InBox s' x y) := by
    obtain ⟨h1, h2, h3, h4⟩ := h
    refine ⟨_, rfl, ⟨inv.packed, inv.rect, inv.keep, inv.wf, inv.val, inv.ne, inv.cover, inv.gone, inv.apart⟩, ?_,
      ⟨?_, fun _ _ h => h⟩, ?_⟩
    · unfold BoxOk at hb ⊢
      simp only [Enc.register]
      rcases hb with ⟨b1, b2, b3, b4⟩ | ⟨b1, b2, b3, b4, b5, b6, b7, b8⟩
      · right
        rw [b1, b2, b3, b4]
        split_ifs <;> omega
      · right
        split_ifs <;> omega
    · intro x' y' hin
      unfold InBox at hin ⊢
      simp only [Enc.register]
      split_ifs <;> omega
    · right
      unfold InBox
      simp only [Enc.register]
      split_ifs <;> omega
  match n, hn4 with
  | 0, _ =>
    obtain ⟨d, e, hd⟩ := findDiagonal_spec inv.packed hv rfl hi hcn
    simp only [e, Res.ok_bind]
    cases d with
    | some f => exact fin f (hd f rfl).1 (hd f rfl).2
    | none => exact fin _ (point_good hv rfl).1 (point_good hv rfl).2
  | 1, _ =>
    obtain ⟨f, e, hg, hc⟩ := findLine_spec inv.packed hv rfl hi hcn
    simp only [e, Res.ok_bind]
    exact fin f hg hc
  | 2, _ => exact reg
  | 3, _ => exact reg
  | 4, _ => exact reg

theorem firstRow_spec {r : Rect} {orig : Int → Int → UInt8} {y : Int} (hy : r.y0 ≤ y ∧ y < r.y1) :
    ∀ (n : Nat) (x i : Int) (s : Enc), EncInv r orig s → BoxOk r s → r.x0 ≤ x → x + n ≤ r.x1 →
      i = s.img.at x y →
      ∃ s', firstRow y n x i s = .ok (i + n, s') ∧ EncInv r orig s' ∧ BoxOk r s' ∧ EncLe s s' ∧
        ∀ x', x ≤ x' → x' < x + n → s'.img.alphaAt x' y = 0 ∨ InBox s' x' y
  | 0, x, i, s, inv, hb, _, _, _ => by
    refine ⟨s, by simp [firstRow], inv, hb, EncLe.refl s, ?_⟩
    intro x' h1 h2; simp at h2; omega
  | n + 1, x, i, s, inv, hb, hx0, hx1, hi => by
    push_cast at hx1
    obtain ⟨s1, e1, inv1, b1, l1, z1⟩ := firstPixel_spec inv hb (x := x) (y := y)
      ⟨hx0, by omega, hy.1, hy.2⟩ hi
    have hat : ∀ x' y', s1.img.at x' y' = s.img.at x' y' := by
      intro x' y'
      unfold Img.at
      rw [inv1.packed.stride, inv.packed.stride, inv1.rect, inv.rect]
    obtain ⟨s2, e2, inv2, b2, l2, z2⟩ := firstRow_spec hy n (x + 1) (i + 1) s1 inv1 b1 (by omega)
      (by omega) (by rw [hat, hi]; unfold Img.at; ring)
    refine ⟨s2, ?_, inv2, b2, l1.trans l2, ?_⟩
    · rw [firstRow, e1]
      simp only [Res.ok_bind]
      rw [e2]
      push_cast
      have : i + 1 + (n : Int) = i + (n + 1) := by ring
      rw [this]
    · intro x' h1 h2
      push_cast at h2
      by_cases hx : x' = x
      · subst hx
        rcases z1 with h | h
        · exact Or.inl (l2.zero _ _ h)
        · exact Or.inr (l2.box _ _ h)
      · exact z2 x' (by omega) (by omega)

theorem firstPass_spec {r : Rect} {orig : Int → Int → UInt8} (hr : r.x0 ≤ r.x1) :
    ∀ (fuel : Nat) (y i : Int) (s : Enc), EncInv r orig s → BoxOk r s → r.y0 ≤ y → y ≤ r.y1 →
      (r.y1 - y) < fuel → i = s.img.at r.x0 y →
      ∃ s', firstPass fuel y i s = .ok s' ∧ EncInv r orig s' ∧ BoxOk r s' ∧ EncLe s s' ∧
        ∀ x' y', y ≤ y' → y' < r.y1 → s'.img.alphaAt x' y' = 0 ∨ InBox s' x' y'
  | 0, y, i, s, _, _, _, _, h, _ => by simp at h; omega
  | fuel + 1, y, i, s, inv, hb, hy0, hy1, hf, hi => by
    push_cast at hf
    have hst : s.img.stride = r.x1 - r.x0 := by rw [inv.packed.stride, inv.rect]
    have hlen : (s.img.pix.length : Int) = (r.x1 - r.x0) * (r.y1 - r.y0) := by
      rw [inv.packed.len, inv.rect]
    have hival : i = (y - r.y0) * (r.x1 - r.x0) := by
      rw [hi]; unfold Img.at; rw [hst, inv.rect]; ring
    rw [firstPass]
    by_cases hlt : i < s.img.pix.length
    · rw [if_pos hlt]
      have hyy : y < r.y1 := by
        by_contra hge
        have : y = r.y1 := by omega
        rw [hival, hlen, this, Int.mul_comm] at hlt
        omega
      obtain ⟨s1, e1, inv1, b1, l1, z1⟩ := firstRow_spec (y := y) ⟨hy0, hyy⟩ (r.x1 - r.x0).toNat r.x0 i s
        inv hb (le_refl _) (by omega) hi
      have hrect : s.img.rect = r := inv.rect
      rw [hrect, e1]
      simp only [Res.ok_bind]
      obtain ⟨s2, e2, inv2, b2, l2, z2⟩ := firstPass_spec hr fuel (y + 1) (i + (r.x1 - r.x0).toNat) s1
        inv1 b1 (by omega) (by omega) (by omega)
        (by
          unfold Img.at
          rw [inv1.packed.stride, inv1.rect, hival]
          have : ((r.x1 - r.x0).toNat : Int) = r.x1 - r.x0 := by omega
          rw [this]; ring)
      refine ⟨s2, e2, inv2, b2, l1.trans l2, ?_⟩
      intro x' y' h1 h2
      by_cases hyy' : y' = y
      · subst hyy'
        by_cases hx : r.x0 ≤ x' ∧ x' < r.x1
        · rcases z1 x' hx.1 (by omega) with h | h
          · exact Or.inl (l2.zero _ _ h)
          · exact Or.inr (l2.box _ _ h)
        · left
          apply alphaAt_out
          rw [inv2.rect]
          rintro ⟨g1, g2, _⟩; exact hx ⟨g1, g2⟩
      · exact z2 x' y' (by omega) h2
    · rw [if_neg hlt]
      refine ⟨s, rfl, inv, hb, EncLe.refl s, ?_⟩
      intro x' y' h1 h2
      left
      apply alphaAt_out
      rw [inv.rect]
      rintro ⟨g1, g2, g3, g4⟩
      apply hlt
      rw [hlen, hival, Int.mul_comm]
      exact Int.mul_lt_mul_of_pos_left (by omega) (by omega)

/-! ### Second pass -/

theorem secondPixel_spec {r : Rect} {orig : Int → Int → UInt8} {s : Enc} (inv : EncInv r orig s)
    {x y i : Int} (h : r.Has x y) (hi : i = s.img.at x y) :
    ∃ s', secondPixel s x y i = .ok s' ∧ EncInv r orig s' ∧
      (∀ x y, s.img.alphaAt x y = 0 → s'.img.alphaAt x y = 0) ∧ s'.img.alphaAt x y = 0 := by
  have hh : s.img.rect.Has x y := by rw [inv.rect]; exact h
  unfold secondPixel
  rw [read_eq inv.packed hh hi]
  simp only [Res.ok_bind]
  by_cases hv : s.img.alphaAt x y = 0
  · rw [if_neg (by simpa using hv)]
    exact ⟨s, rfl, inv, fun _ _ h => h, hv⟩
  rw [if_pos (by simpa using hv), countNeighbours_spec inv.packed hv hh hi]
  simp only [Res.ok_bind]
  have fin : ∀ f, Good s.img f → f.Covers x y → ∃ s', s.take f = .ok s' ∧ EncInv r orig s' ∧
      (∀ x y, s.img.alphaAt x y = 0 → s'.img.alphaAt x y = 0) ∧ s'.img.alphaAt x y = 0 := by
    intro f hg hc
    obtain ⟨s', e, inv', z1, z2, _⟩ := take_spec inv hg
    exact ⟨s', e, inv', z2, z1 x y hc⟩
  split
  · exact fin _ (point_good hv rfl).1 (point_good hv rfl).2
  · obtain ⟨f, e, hg, hc⟩ := findRect_spec inv.packed hv rfl
    rw [e]
    exact fin f hg hc

theorem secondRow_spec {r : Rect} {orig : Int → Int → UInt8} {y : Int} (hy : r.y0 ≤ y ∧ y < r.y1) :
    ∀ (n : Nat) (x i : Int) (s : Enc), EncInv r orig s → r.x0 ≤ x → x + n ≤ r.x1 →
      i = s.img.at x y →
      ∃ s', secondRow y n x i s = .ok s' ∧ EncInv r orig s' ∧
        (∀ x y, s.img.alphaAt x y = 0 → s'.img.alphaAt x y = 0) ∧
        ∀ x', x ≤ x' → x' < x + n → s'.img.alphaAt x' y = 0
  | 0, x, i, s, inv, _, _, _ => by
    refine ⟨s, rfl, inv, fun _ _ h => h, ?_⟩
    intro x' h1 h2; simp at h2; omega
  | n + 1, x, i, s, inv, hx0, hx1, hi => by
    push_cast at hx1
    obtain ⟨s1, e1, inv1, l1, z1⟩ := secondPixel_spec inv (x := x) (y := y)
      ⟨hx0, by omega, hy.1, hy.2⟩ hi
    obtain ⟨s2, e2, inv2, l2, z2⟩ := secondRow_spec hy n (x + 1) (i + 1) s1 inv1 (by omega)
      (by omega) (by
        rw [hi]; unfold Img.at
        rw [inv1.packed.stride, inv.packed.stride, inv1.rect, inv.rect]; ring)
    refine ⟨s2, ?_, inv2, fun x y h => l2 x y (l1 x y h), ?_⟩
    · rw [secondRow, e1]; exact e2
    · intro x' h1 h2
      push_cast at h2
      by_cases hx : x' = x
      · subst hx; exact l2 _ _ z1
      · exact z2 x' (by omega) (by omega)

theorem secondPass_spec {r : Rect} {orig : Int → Int → UInt8} {minX maxX : Int}
    (h0 : r.x0 ≤ minX) (h1 : maxX < r.x1) :
    ∀ (n : Nat) (y : Int) (s : Enc), EncInv r orig s → r.y0 ≤ y → y + n ≤ r.y1 →
      ∃ s', secondPass minX maxX n y s = .ok s' ∧ EncInv r orig s' ∧
        (∀ x y, s.img.alphaAt x y = 0 → s'.img.alphaAt x y = 0) ∧
        ∀ x' y', minX ≤ x' → x' ≤ maxX → y ≤ y' → y' < y + n → s'.img.alphaAt x' y' = 0
  | 0, y, s, inv, _, _ => by
    refine ⟨s, rfl, inv, fun _ _ h => h, ?_⟩
    intro x' y' _ _ h1 h2; simp at h2; omega
  | n + 1, y, s, inv, hy0, hy1 => by
    push_cast at hy1
    by_cases hw : minX ≤ maxX
    · obtain ⟨s1, e1, inv1, l1, z1⟩ := secondRow_spec (y := y) ⟨hy0, by omega⟩ (maxX - minX + 1).toNat
        minX (getPixelIndex s.img minX y) s inv h0 (by omega) rfl
      obtain ⟨s2, e2, inv2, l2, z2⟩ := secondPass_spec h0 h1 n (y + 1) s1 inv1 (by omega) (by omega)
      refine ⟨s2, ?_, inv2, fun x y h => l2 x y (l1 x y h), ?_⟩
      · rw [secondPass, e1]; exact e2
      · intro x' y' g1 g2 g3 g4
        push_cast at g4
        by_cases hyy : y' = y
        · subst hyy; exact l2 _ _ (z1 x' g1 (by omega))
        · exact z2 x' y' g1 g2 (by omega) (by omega)
    · have hz : (maxX - minX + 1).toNat = 0 := by omega
      obtain ⟨s2, e2, inv2, l2, z2⟩ := secondPass_spec h0 h1 n (y + 1) s inv (by omega) (by omega)
      refine ⟨s2, ?_, inv2, l2, ?_⟩
      · rw [secondPass, hz]; exact e2
      · intro x' y' g1 g2; omega

/-- Masks accepted by the encoder: no padding between rows, all pixels present, sizes that fit an
`int`. -/
structure Encodable (m : Img) : Prop where
  w0 : m.rect.x0 ≤ m.rect.x1
  h0 : m.rect.y0 ≤ m.rect.y1
  stride : m.stride = m.rect.x1 - m.rect.x0
  len : (m.rect.x1 - m.rect.x0) * (m.rect.y1 - m.rect.y0) ≤ m.pix.length
  size : (m.rect.x1 - m.rect.x0) * (m.rect.y1 - m.rect.y0) < 2 ^ 63

/-- The fragments found for a mask: each covers pixels of its value only, and together they cover
all the visible pixels, each of them once. -/
theorem computeMaskFragments_spec {m : Img} (hm : Encodable m) :
    ∃ fs, computeMaskFragments m = .ok fs ∧ (∀ f ∈ fs, f.WF) ∧ (∀ f ∈ fs, f.value ≠ 0) ∧
      (∀ f ∈ fs, ∀ x y, f.Covers x y → m.alphaAt x y = f.value) ∧
      (∀ x y, m.alphaAt x y ≠ 0 → ∃ f ∈ fs, f.Covers x y) ∧ fs.Pairwise Frag.Apart := by
  obtain ⟨w0, h0, hst, hlen, hsize⟩ := hm
  unfold computeMaskFragments
  have hnn : 0 ≤ (m.rect.x1 - m.rect.x0) * (m.rect.y1 - m.rect.y0) :=
    Int.mul_nonneg (by omega) (by omega)
  have hnew : newAlpha m.rect = .ok ⟨m.rect, m.rect.x1 - m.rect.x0,
      List.replicate ((m.rect.x1 - m.rect.x0) * (m.rect.y1 - m.rect.y0)).toNat 0⟩ := by
    unfold newAlpha; simp only; rw [if_neg (by omega)]
  rw [hnew]
  simp only [Res.ok_bind]
  rw [if_neg (by simpa using hst)]
  generalize hN : ((m.rect.x1 - m.rect.x0) * (m.rect.y1 - m.rect.y0)).toNat = N at *
  have hcopy : copyBytes (List.replicate N 0) m.pix = m.pix.take N := by
    unfold copyBytes
    have : m.pix.length ≥ N := by omega
    simp [List.length_replicate, this]
  rw [hcopy]
  have hpk : (⟨m.rect, m.rect.x1 - m.rect.x0, m.pix.take N⟩ : Img).Packed := by
    refine ⟨w0, h0, rfl, ?_⟩
    simp only [List.length_take]; omega
  have halpha : ∀ x y, (⟨m.rect, m.rect.x1 - m.rect.x0, m.pix.take N⟩ : Img).alphaAt x y = m.alphaAt x y := by
    intro x y
    by_cases hh : m.rect.Has x y
    · have hb := at_bounds hpk (x := x) (y := y) hh
      rw [alphaAt_in (m := ⟨m.rect, m.rect.x1 - m.rect.x0, m.pix.take N⟩) hh, alphaAt_in hh]
      have e : Img.at ⟨m.rect, m.rect.x1 - m.rect.x0, m.pix.take N⟩ x y = m.at x y := by
        unfold Img.at; rw [hst]
      rw [e] at hb ⊢
      simp only [List.length_take] at hb
      simp only [List.getD_eq_getElem?_getD]
      rw [List.getElem?_take_of_lt (by omega)]
    · rw [alphaAt_out (m := ⟨m.rect, m.rect.x1 - m.rect.x0, m.pix.take N⟩) hh, alphaAt_out hh]
  generalize hc : (⟨m.rect, m.rect.x1 - m.rect.x0, m.pix.take N⟩ : Img) = c at *
  have hcr : c.rect = m.rect := by rw [← hc]
  have inv0 : EncInv m.rect m.alphaAt ⟨c, [], m.rect.x1, m.rect.y1, m.rect.x0, m.rect.y0⟩ :=
    ⟨hpk, hcr, fun x y => Or.inr (halpha x y), by simp, by simp, by simp,
     fun x y _ => Or.inl (halpha x y), by simp, List.Pairwise.nil⟩
  obtain ⟨s1, e1, inv1, b1, _, z1⟩ := firstPass_spec w0 ((m.rect.y1 - m.rect.y0).toNat + 1) m.rect.y0 0 _
    inv0 (Or.inl ⟨rfl, rfl, rfl, rfl⟩) (le_refl _) h0 (by push_cast; omega)
    (by unfold Img.at; simp only [hcr]; ring)
  rw [e1]
  simp only [Res.ok_bind]
  -- the box of the second pass
  have key : ∀ s2 : Enc, s2.img = s1.img → s2.frags = s1.frags →
      ((m.rect.x0 ≤ s2.minX ∧ s2.maxX < m.rect.x1 ∧ m.rect.y0 ≤ s2.minY ∧ s2.maxY < m.rect.y1) ∨
        (s2.maxY < s2.minY)) →
      (∀ x y, s1.img.alphaAt x y = 0 ∨ InBox s2 x y) →
      ∃ fs, (do
          let s ← secondPass s2.minX s2.maxX (s2.maxY - s2.minY + 1).toNat s2.minY s2
          pure s.frags : Res (List Frag)) = .ok fs ∧ (∀ f ∈ fs, f.WF) ∧ (∀ f ∈ fs, f.value ≠ 0) ∧
      (∀ f ∈ fs, ∀ x y, f.Covers x y → m.alphaAt x y = f.value) ∧
      (∀ x y, m.alphaAt x y ≠ 0 → ∃ f ∈ fs, f.Covers x y) ∧ fs.Pairwise Frag.Apart := by
    intro s2 hi hf hbox hcov
    have inv2 : EncInv m.rect m.alphaAt s2 := by
      constructor
      · rw [hi]; exact inv1.packed
      · rw [hi]; exact inv1.rect
      · rw [hi]; exact inv1.keep
      · rw [hf]; exact inv1.wf
      · rw [hf]; exact inv1.val
      · rw [hf]; exact inv1.ne
      · rw [hi, hf]; exact inv1.cover
      · rw [hi, hf]; exact inv1.gone
      · rw [hf]; exact inv1.apart
    have fin : ∀ s3 : Enc, EncInv m.rect m.alphaAt s3 → (∀ x y, s3.img.alphaAt x y = 0) →
        (∀ f ∈ s3.frags, f.WF) ∧ (∀ f ∈ s3.frags, f.value ≠ 0) ∧
        (∀ f ∈ s3.frags, ∀ x y, f.Covers x y → m.alphaAt x y = f.value) ∧
        (∀ x y, m.alphaAt x y ≠ 0 → ∃ f ∈ s3.frags, f.Covers x y) ∧ s3.frags.Pairwise Frag.Apart := by
      intro s3 inv3 hz
      refine ⟨inv3.wf, inv3.ne, inv3.val, ?_, inv3.apart⟩
      intro x y hne
      rcases inv3.cover x y hne with h | h
      · rw [hz] at h; exact absurd h.symm hne
      · exact h
    by_cases hrows : s2.maxY < s2.minY
    · have hz : (s2.maxY - s2.minY + 1).toNat = 0 := by omega
      rw [hz]
      refine ⟨s2.frags, rfl, fin s2 inv2 ?_⟩
      intro x y
      rw [hi]
      rcases hcov x y with h | h
      · exact h
      · unfold InBox at h; omega
    · have hbox : m.rect.x0 ≤ s2.minX ∧ s2.maxX < m.rect.x1 ∧ m.rect.y0 ≤ s2.minY ∧
          s2.maxY < m.rect.y1 := by
        rcases hbox with h | h
        · exact h
        · exact absurd h hrows
      obtain ⟨s3, e3, inv3, l3, z3⟩ := secondPass_spec hbox.1 hbox.2.1
        (s2.maxY - s2.minY + 1).toNat s2.minY s2 inv2 hbox.2.2.1 (by omega)
      rw [e3]
      refine ⟨s3.frags, rfl, fin s3 inv3 ?_⟩
      intro x y
      rcases hcov x y with h | h
      · apply l3; rw [hi]; exact h
      · obtain ⟨g1, g2, g3, g4⟩ := h
        exact z3 x y g1 g2 g3 (by omega)
  have z1' : ∀ x y, s1.img.alphaAt x y = 0 ∨ (m.rect.Has x y ∧ InBox s1 x y) := by
    intro x y
    by_cases hh : m.rect.Has x y
    · rcases z1 x y hh.2.2.1 hh.2.2.2 with h | h
      · exact Or.inl h
      · exact Or.inr ⟨hh, h⟩
    · left; apply alphaAt_out; rw [inv1.rect]; exact hh
  split
  · apply key
    · rfl
    · rfl
    · left; simp only; omega
    · intro x y
      rcases z1' x y with h | ⟨⟨g1, g2, g3, g4⟩, _⟩
      · exact Or.inl h
      · right; unfold InBox; simp only; omega
  · rename_i hne
    apply key
    · rfl
    · rfl
    · rcases b1 with ⟨c1, c2, c3, c4⟩ | ⟨c1, c2, c3, c4, c5, c6, c7, c8⟩
      · right
        rw [c2, c4]
        by_contra hge
        apply hne
        have : m.rect.y0 = m.rect.y1 := by omega
        rw [c1, c2, c3, c4]
        simp [Rect.empty, imageRect, this]
      · left; omega
    · intro x y
      rcases z1' x y with h | ⟨_, h⟩
      · exact Or.inl h
      · exact Or.inr h

end Mask
