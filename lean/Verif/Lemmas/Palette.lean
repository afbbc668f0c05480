import Verif.Model.Palette
import Verif.Spec.Palette
import Verif.Lemmas.Colors
import Verif.Lemmas.Accessors

/-! # All colors of a font -/

namespace FontModel
open Go Spec BuilderModel FontModel.Font

theorem mapRes_panic {α β : Type} {f : α → Res β} : ∀ {l : List α}, (∀ a ∈ l, ∀ m, f a ≠ .err m) →
    (∃ a ∈ l, ∀ x, f a ≠ .ok x) → ∃ m, mapRes f l = .panic m
  | [], _, h => by obtain ⟨_, h, _⟩ := h; simp at h
  | a :: l, he, h => by
    cases ha : f a with
    | err m => exact absurd ha (he a (by simp) m)
    | panic m => exact ⟨m, by simp [mapRes, ha]⟩
    | ok x =>
      obtain ⟨c, hc, hx⟩ := h
      rcases List.mem_cons.1 hc with rfl | hc
      · exact absurd ha (hx x)
      · obtain ⟨m, hm⟩ := mapRes_panic (l := l) (fun y hy => he y (by simp [hy])) ⟨c, hc, hx⟩
        exact ⟨m, by simp [mapRes, ha, hm]⟩

theorem mapRes_noErr {α β : Type} {f : α → Res β} : ∀ {l : List α}, (∀ a ∈ l, ∀ m, f a ≠ .err m) → ∀ m,
    mapRes f l ≠ .err m
  | [], _, m => by simp [mapRes]
  | a :: l, he, m => by
    cases ha : f a with
    | err m => exact absurd ha (he a (by simp) m)
    | panic m => simp [mapRes, ha]
    | ok x =>
      have := mapRes_noErr (l := l) fun y hy => he y (by simp [hy])
      cases hl : mapRes f l with
      | err m => exact absurd hl (this m)
      | panic m => simp [mapRes, ha, hl]
      | ok x => simp [mapRes, ha, hl]

theorem rd8_noErr (D : Bytes) (o : Nat) (m : String) : rd8 D o ≠ .err m := by
  unfold rd8 idx
  split <;> simp

theorem bind_noErr {α β : Type} {x : Res α} {k : α → Res β} (h : ∀ m, x ≠ .err m)
    (hk : ∀ a m, k a ≠ .err m) (m : String) : (x >>= k) ≠ .err m := by
  cases hx : x with
  | ok a => exact hk a m
  | err m => exact absurd hx (h m)
  | panic m => simp

theorem sectionBounds_noErr (D : Bytes) (o k : Nat) (m : String) : sectionBounds D o k ≠ .err m := by
  unfold sectionBounds
  refine bind_noErr (rd8_noErr _ _) (fun last => bind_noErr ?_ fun first m => ?_) m
  · intro m
    split
    · exact rd8_noErr _ _ m
    · simp
  · split <;> simp

theorem readAlphas_noErr (D : Bytes) (o : Nat) : ∀ n i m, readAlphas D o n i ≠ .err m
  | 0, _, _ => by simp [readAlphas]
  | n + 1, i, m => bind_noErr (rd8_noErr _ _)
    (fun _ => bind_noErr (readAlphas_noErr D o n (i + 1)) (fun _ _ => by simp)) m

theorem readColors_noErr (D : Bytes) (o : Nat) : ∀ n i m, readColors D o n i ≠ .err m
  | 0, _, _ => by simp [readColors]
  | n + 1, i, m => bind_noErr (rd8_noErr _ _) (fun _ => bind_noErr (rd8_noErr _ _)
    (fun _ => bind_noErr (rd8_noErr _ _) (fun _ => bind_noErr (rd8_noErr _ _)
    (fun _ => bind_noErr (readColors_noErr D o n (i + 1)) (fun _ _ => by simp))))) m

theorem eachDyeAlpha_noErr (f : Font) (k : Nat) (m : String) : f.eachDyeAlpha k ≠ .err m :=
  bind_noErr (rd8_noErr _ _) (fun n m => by
    dsimp only
    split
    · simp
    · exact bind_noErr (sectionBounds_noErr _ _ _) (fun _ => readAlphas_noErr _ _ _ _) m) m

theorem eachPaletteColor_noErr (f : Font) (k : Nat) (m : String) : f.eachPaletteColor k ≠ .err m :=
  bind_noErr (rd8_noErr _ _) (fun n m => by
    dsimp only
    split
    · simp
    · exact bind_noErr (sectionBounds_noErr _ _ _) (fun _ => readColors_noErr _ _ _ _) m) m

theorem sectionBounds_panic {D : Bytes} {off key : Nat} (hb : off + 1 + key < D.length)
    (h : end8 D (off + 1) key ≤ start8 D (off + 1) key) :
    sectionBounds D off key = .panic "invalid font data" := by
  unfold sectionBounds
  rw [rd8_eq hb, Res.ok_bind]
  have e : byteAt D (off + 1 + key) = end8 D (off + 1) key := rfl
  rw [e]
  by_cases hk : key > 0
  · rw [if_pos hk, rd8_eq (by omega), Res.ok_bind]
    have e2 : byteAt D (off + key) = start8 D (off + 1) key := by
      rw [start8_succ _ _ _ hk, end8]; congr 1; omega
    rw [e2, if_pos (by omega)]
  · have : key = 0 := by omega
    subst this
    rw [if_neg hk, Res.ok_bind]
    have e2 : start8 D (off + 1) 0 = 0 := rfl
    rw [e2] at h
    rw [if_pos (by omega)]

/-- Consecutive pieces of a table. -/
theorem pieces {α : Type} {D : Bytes} {o n : Nat} {g : Nat → α} (h : ∀ k < n, start8 D o k < end8 D o k) :
    ((List.range n).map fun k => (List.range' (start8 D o k) (end8 D o k - start8 D o k)).map g).flatten =
      (List.range (start8 D o n)).map g := by
  induction n with
  | zero => simp [start8]
  | succ n ih =>
    have hn := h n (by omega)
    rw [List.range_succ, List.map_append, List.flatten_append, ih fun k hk => h k (by omega)]
    have e : start8 D o (n + 1) = end8 D o n := start8_succ _ _ _ (by omega)
    rw [e]
    simp only [List.map_cons, List.map_nil, List.flatten_cons, List.flatten_nil, List.append_nil]
    rw [← List.map_append]
    congr 1
    rw [List.range_eq_range', List.range_eq_range']
    have := List.range'_append (s := 0) (m := start8 D o n) (n := end8 D o n - start8 D o n) (step := 1)
    rw [Nat.one_mul, Nat.zero_add] at this
    rw [this]
    congr 1
    omega

theorem start8_count {D : Bytes} {o : Nat} : start8 D (o + 1) (byteAt D o) = usedColors D o := by
  unfold start8 usedColors end8
  split
  · rfl
  · congr 1; omega

theorem end8_le {D : Bytes} {o n k : Nat} (h : ∀ k < n, start8 D o k < end8 D o k) (hk : k < n) :
    end8 D o k ≤ start8 D o n := by
  induction n with
  | zero => omega
  | succ n ih =>
    rw [start8_succ _ _ _ (by omega), Nat.add_sub_cancel]
    rcases Nat.lt_or_ge k n with h1 | h1
    · have := ih (fun k hk => h k (by omega)) h1
      have := h n (by omega)
      omega
    · have : k = n := by omega
      subst this; exact Nat.le_refl _

theorem count_ok {f : Font} (hf : ColorsFit f) :
    f.colorCount = .ok (usedColors f.data f.offDyes + usedColors f.data f.offPalettes) ∧
    f.numDyes = .ok (byteAt f.data f.offDyes) ∧ f.numPalettes = .ok (byteAt f.data f.offPalettes) := by
  obtain ⟨h1, h2, h3⟩ := hf
  have e1 : f.numDyes = .ok (byteAt f.data f.offDyes) := rd8_eq (by omega)
  have e2 : f.numPalettes = .ok (byteAt f.data f.offPalettes) := rd8_eq (by omega)
  refine ⟨?_, e1, e2⟩
  have e : ∀ o, byteAt f.data (o + byteAt f.data o) = usedColors f.data o := by
    intro o
    unfold usedColors
    split
    · rename_i h; rw [h, Nat.add_zero, h]
    · rfl
  rw [colorCount, numDyeIndices, numPaletteIndices, e1, e2, Res.ok_bind, Res.ok_bind, rd8_eq (by omega),
    rd8_eq (by omega), Res.ok_bind, Res.ok_bind, e, e, u8, Nat.mod_eq_of_lt (by omega), if_neg (by omega)]
  rfl

theorem goColorPalette_ok {f : Font} (hf : ColorsFit f) (hd : Rising f.data f.offDyes)
    (hp : Rising f.data f.offPalettes) : f.goColorPalette = .ok (colorTable f) := by
  obtain ⟨c1, c2, c3⟩ := count_ok hf
  have hD : ∀ k ∈ List.range (byteAt f.data f.offDyes), f.eachDyeAlpha k =
      .ok ((List.range' (start8 f.data (f.offDyes + 1) k)
        (end8 f.data (f.offDyes + 1) k - start8 f.data (f.offDyes + 1) k)).map fun j =>
          byteAt f.data (f.offDyes + 1 + byteAt f.data f.offDyes + j)) := by
    intro k hk
    have hk := List.mem_range.1 hk
    have h1 := hf.dyes
    have h2 := end8_le hd hk
    rw [start8_count] at h2
    have h3 := hd k hk
    rw [eachDyeAlpha, c2, Res.ok_bind, if_neg (by omega), sectionBounds_eq (by omega) h3, Res.ok_bind]
    exact readAlphas_eq _ _ (by omega)
  have hP : ∀ k ∈ List.range (byteAt f.data f.offPalettes), f.eachPaletteColor k =
      .ok ((List.range' (start8 f.data (f.offPalettes + 1) k)
        (end8 f.data (f.offPalettes + 1) k - start8 f.data (f.offPalettes + 1) k)).map fun j =>
          let p := f.offPalettes + 1 + byteAt f.data f.offPalettes + 4 * j
          (byteAt f.data p, byteAt f.data (p + 1), byteAt f.data (p + 2), byteAt f.data (p + 3))) := by
    intro k hk
    have hk := List.mem_range.1 hk
    have h1 := hf.palettes
    have h2 := end8_le hp hk
    rw [start8_count] at h2
    have h3 := hp k hk
    rw [eachPaletteColor, c3, Res.ok_bind, if_neg (by omega), sectionBounds_eq (by omega) h3, Res.ok_bind]
    exact readColors_eq _ _ (by omega)
  rw [goColorPalette, c1, Res.ok_bind, c2, Res.ok_bind, mapRes_of hD, Res.ok_bind, c3, Res.ok_bind, mapRes_of hP,
    Res.ok_bind, pieces hd, pieces hp, start8_count, start8_count, Res.pure_eq]
  congr 1
  rw [colorTable]
  generalize hnd : usedColors f.data f.offDyes = nd
  generalize usedColors f.data f.offPalettes = np
  rw [show 1 + nd + np = nd + np + 1 by omega, List.range_succ_eq_map, List.map_cons, List.map_map]
  congr 1
  rw [List.map_map, List.range_add, List.map_append, List.map_map]
  congr 1
  · apply List.map_congr_left
    intro i hi
    have hi := List.mem_range.1 hi
    simp only [Function.comp, colorAt, hnd, grayColor]
    rw [if_neg (by omega), if_pos (by omega)]
    have : f.offDyes + 1 + byteAt f.data f.offDyes + i = f.offDyes + byteAt f.data f.offDyes + i.succ := by omega
    rw [this]
  · apply List.map_congr_left
    intro i hi
    simp only [Function.comp, colorAt, hnd]
    rw [if_neg (by omega), if_neg (by omega)]
    have : (nd + i).succ - nd - 1 = i := by omega
    rw [this]

theorem goColorPalette_panic {f : Font} (hf : ColorsFit f)
    (h : ¬ (Rising f.data f.offDyes ∧ Rising f.data f.offPalettes)) : ∃ m, f.goColorPalette = .panic m := by
  obtain ⟨c1, c2, c3⟩ := count_ok hf
  rw [goColorPalette, c1, Res.ok_bind, c2, Res.ok_bind]
  by_cases hd : Rising f.data f.offDyes
  · have hp : ¬ Rising f.data f.offPalettes := fun hp => h ⟨hd, hp⟩
    cases hm : mapRes f.eachDyeAlpha (List.range (byteAt f.data f.offDyes)) with
    | err m => exact absurd hm (mapRes_noErr (fun k _ => eachDyeAlpha_noErr f k) m)
    | panic m => exact ⟨m, rfl⟩
    | ok x =>
      rw [Res.ok_bind, c3, Res.ok_bind]
      simp only [Rising, Classical.not_forall] at hp
      obtain ⟨k, hk, hp⟩ := hp
      obtain ⟨m, hm⟩ := mapRes_panic (l := List.range (byteAt f.data f.offPalettes))
        (fun k _ => eachPaletteColor_noErr f k) ⟨k, List.mem_range.2 hk, by
          have := hf.palettes
          rw [eachPaletteColor, c3, Res.ok_bind, if_neg (by omega), sectionBounds_panic (by omega) (by omega)]
          simp⟩
      exact ⟨m, by rw [hm]; rfl⟩
  · simp only [Rising, Classical.not_forall] at hd
    obtain ⟨k, hk, hd⟩ := hd
    obtain ⟨m, hm⟩ := mapRes_panic (l := List.range (byteAt f.data f.offDyes))
      (fun k _ => eachDyeAlpha_noErr f k) ⟨k, List.mem_range.2 hk, by
        have := hf.dyes
        rw [eachDyeAlpha, c2, Res.ok_bind, if_neg (by omega), sectionBounds_panic (by omega) (by omega)]
        simp⟩
    exact ⟨m, by rw [hm]; rfl⟩

end FontModel
