import Verif.Lemmas.CRect

/-!
# C11 — ComputeRect is the tight bounding box

`Addressable`: every pixel of the rectangle has a byte in `Pix` (what `image.NewAlpha` and
`SubImage` guarantee). The stride and the origin are arbitrary, also an empty or inverted rectangle.
-/

open Go Mask

namespace C11

/-- `x0 ≤ x < x1`, `y0 ≤ y < y1` contains every visible pixel and no side can be moved inwards. -/
def Tight (m : Img) (r : Rect) : Prop :=
  (∀ x y, m.alphaAt x y ≠ 0 → r.x0 ≤ x ∧ x < r.x1 ∧ r.y0 ≤ y ∧ y < r.y1) ∧
  (∃ y, m.alphaAt r.x0 y ≠ 0) ∧ (∃ y, m.alphaAt (r.x1 - 1) y ≠ 0) ∧
  (∃ x, m.alphaAt x r.y0 ≠ 0) ∧ (∃ x, m.alphaAt x (r.y1 - 1) ≠ 0)

/-- `ComputeRect` does not panic, returns the zero rectangle for an invisible mask and the tight box
otherwise. -/
theorem computeRect_tight (m : Img) (hp : m.Addressable) :
    ∃ r, computeRect m = .ok r ∧
      ((∀ x y, m.alphaAt x y = 0) → r = ⟨0, 0, 0, 0⟩) ∧
      ((∃ x y, m.alphaAt x y ≠ 0) → Tight m r) := by
  unfold computeRect
  by_cases hy : m.rect.y0 ≤ m.rect.y1
  · obtain ⟨e, b, he, hem, hrel⟩ := scanRows_spec hp (m.rect.y1 - m.rect.y0).toNat m.rect.y0 true
      ⟨m.rect.x1 + 1, m.rect.x0 - 1, m.rect.y1 + 1, m.rect.y0 - 1⟩ (by omega) (by omega)
    have hvis : ∀ x y, VisRows m m.rect.y0 (m.rect.y1 - m.rect.y0).toNat x y ↔ m.alphaAt x y ≠ 0 := by
      intro x y
      refine ⟨fun h => h.2.2, fun h => ?_⟩
      obtain ⟨_, _, g3, g4⟩ := vis_has h
      exact ⟨g3, by omega, h⟩
    have hv2 : VisRows m m.rect.y0 (m.rect.y1 - m.rect.y0).toNat = fun x y => m.alphaAt x y ≠ 0 := by
      funext x y; exact propext (hvis x y)
    rw [hv2] at hem hrel
    simp only [Bool.true_eq_false, false_or] at hem
    simp only [he, Res.ok_bind]
    by_cases hemp : e = true
    · rw [if_pos hemp]
      refine ⟨_, rfl, fun _ => rfl, fun h => ?_⟩
      rw [hem.mpr h] at hemp
      simp at hemp
    · rw [if_neg hemp]
      have hex := hem.mp (by simpa using hemp)
      obtain ⟨q1, q2, q3, q4, q5, q6, q7, q8, q9⟩ := hrel
      simp only at q1 q2 q3 q4 q6 q7 q8 q9
      obtain ⟨x, y, hxy⟩ := hex
      have hc := q5 x y hxy
      obtain ⟨g1, g2, g3, g4⟩ := vis_has hxy
      refine ⟨_, rfl, fun h => absurd (h x y) hxy, fun _ => ?_⟩
      unfold imageRect
      simp only [if_neg (show ¬ b.minX > b.maxX + 1 by omega),
        if_neg (show ¬ b.minY > b.maxY + 1 by omega)]
      refine ⟨?_, ?_, ?_, ?_, ?_⟩
      · intro x y h
        have := q5 x y h
        simp only; omega
      · rcases q6 with h | h
        · omega
        · exact h
      · rcases q7 with h | h
        · omega
        · simpa using h
      · rcases q8 with h | h
        · omega
        · exact h
      · rcases q9 with h | h
        · omega
        · simpa using h
  · have h0 : (m.rect.y1 - m.rect.y0).toNat = 0 := by omega
    rw [h0]
    simp only [scanRows, Res.ok_bind, if_true]
    refine ⟨_, rfl, fun _ => rfl, ?_⟩
    rintro ⟨x, y, h⟩
    obtain ⟨_, _, g3, g4⟩ := vis_has h
    omega

/-- A 4x3 image at (-1, 2) with a padded stride. -/
def sample : Img := ⟨⟨-1, 2, 3, 5⟩, 5, [0, 0, 0, 0, 9,  0, 0, 1, 0, 9,  0, 3, 0, 0]⟩

example : sample.Addressable ∧ (∃ x y, sample.alphaAt x y ≠ 0) := by
  refine ⟨?_, 1, 3, by decide⟩
  rintro x y ⟨h1, h2, h3, h4⟩
  simp only [sample] at h1 h2 h3 h4
  simp only [sample, Img.at, List.length_cons, List.length_nil]
  omega

example : computeRect sample = .ok ⟨0, 3, 2, 5⟩ := by decide +kernel

/-- `image.Rect` orders the coordinates. -/
theorem ordered (x0 y0 x1 y1 : Int) :
    imageRect x0 y0 x1 y1 = ⟨min x0 x1, min y0 y1, max x0 x1, max y0 y1⟩ := by
  simp only [imageRect, Rect.mk.injEq]
  refine ⟨?_, ?_, ?_, ?_⟩ <;> split <;> omega

example : imageRect 4 0 (-1) 2 = ⟨-1, 0, 4, 2⟩ := by decide

end C11
