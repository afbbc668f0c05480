import Verif.Lemmas.Palette
import Verif.Lemmas.Validate

/-! # All colors of built and parsed fonts -/

namespace BuilderModel
open Go Spec FontModel
variable {env : Env} {b b' : Builder} {f : Font} {s : Parts} {w bi : GoMap Bytes Int}

theorem used_eq {D : Bytes} {o : Nat} {l : List Nat} {x : Bytes} (h : ends8 0 l = .ok x)
    (h0 : byteAt D o = l.length) (ha : At D (o + 1) x) : usedColors D o = l.sum := by
  unfold usedColors
  split
  · rename_i hz
    rw [hz] at h0
    rw [List.eq_nil_of_length_eq_zero h0.symm]; rfl
  · rw [h0]; exact last8 h h0 ha

theorem rising_iff {D : Bytes} {o : Nat} {l : List Nat} {x : Bytes} (h : ends8 0 l = .ok x)
    (h0 : byteAt D o = l.length) (ha : At D (o + 1) x) : Rising D o ↔ ∀ n ∈ l, 0 < n := by
  constructor
  · intro hr n hn
    obtain ⟨i, hi, rfl⟩ := List.getElem_of_mem hn
    have := hr i (by omega)
    obtain ⟨e1, e2⟩ := bounds8 h ha hi
    rw [e1, e2, psum_succ hi] at this
    omega
  · intro hp i hi
    rw [h0] at hi
    obtain ⟨e1, e2⟩ := bounds8 h ha hi
    rw [e1, e2]
    exact psum_lt hp hi

theorem Built.colorsFit (h : Built env b b' f s w bi) (hk : Kept b) : ColorsFit f ∧
    (Rising f.data f.offDyes ↔ ∀ d ∈ b'.dyes, d.alphas ≠ []) ∧
    (Rising f.data f.offPalettes ↔ ∀ p ∈ b.palettes, p.colors ≠ []) := by
  have hcol := (setDyes_eq h.main hk.colors).total
  simp only [sectionSizes, List.sum_append_nat] at hcol
  have hbp : b'.palettes = b.palettes := by rw [h.b'_eq]
  rw [hbp] at hcol
  have hsec : b'.dyes.length + b.palettes.length ≤ 255 := by
    have := h.sections
    have e := Builder.main_eq h.main
    rw [e]
    dsimp only
    split
    · rename_i h0; rw [h0.2]; simp
    · exact this
  have hs := h.dyes
  have ha := h.atDyes
  simp only [Builder.dyesSection, Res.bind_eq_ok, Res.pure_eq, Res.ok.injEq] at hs
  obtain ⟨ends, he, hs⟩ := hs
  rw [← hs] at ha
  obtain ⟨l1, _, _⟩ := ends8_ok he
  rw [List.length_map] at l1
  have a0 := ha.left.left.left.left
  have a1 := ha.left.left.left.right
  have a2 := ha.left.left.right.len
  simp only [List.length_append, List.length_cons, List.length_nil, List.length_map,
    flatten_length, List.map_map, l1, Function.comp_def, Nat.zero_add] at a1 a2
  have hn0 : byteAt f.data f.offDyes = (b'.dyes.map fun d => d.alphas.length).length := by
    rw [a0.byte, byte_val, List.length_map, Nat.mod_eq_of_lt (by omega)]
  have hu := used_eq he hn0 a1
  have hr := rising_iff he hn0 a1
  have ps := h.palettes
  have pa := h.atPalettes
  simp only [Builder.palettesSection, Res.bind_eq_ok, Res.pure_eq, Res.ok.injEq, hbp] at ps
  obtain ⟨pends, pe, ps⟩ := ps
  rw [← ps] at pa
  obtain ⟨m1, _, _⟩ := ends8_ok pe
  rw [List.length_map] at m1
  have b0 := pa.left.left.left.left
  have b1 := pa.left.left.left.right
  have b2 := pa.left.left.right.len
  have hrl : (b.palettes.map fun p => (p.colors.map Builder.rgbaBytes).flatten).map List.length =
      (b.palettes.map fun p => p.colors.length).map (4 * ·) := by
    rw [List.map_map, List.map_map]
    apply List.map_congr_left
    intro p _
    exact rgba_length p
  simp only [List.length_append, List.length_cons, List.length_nil, List.length_map,
    flatten_length, hrl, sum_mul, m1, Nat.zero_add] at b1 b2
  have pn0 : byteAt f.data f.offPalettes = (b.palettes.map fun p => p.colors.length).length := by
    rw [b0.byte, byte_val, List.length_map, Nat.mod_eq_of_lt (by omega)]
  have pu := used_eq pe pn0 b1
  have pr := rising_iff pe pn0 b1
  refine ⟨⟨?_, ?_, ?_⟩, ?_, ?_⟩
  · rw [hu, hn0, List.length_map]; omega
  · rw [pu, pn0, List.length_map]; omega
  · rw [hu, pu]; exact hcol
  · rw [hr]
    simp [List.length_pos_iff]
  · rw [pr]
    simp [List.length_pos_iff]

theorem mapRes_range {α β : Type} {g : Nat → Res β} {l : List α} {k : α → β}
    (h : ∀ i (hi : i < l.length), g i = .ok (k l[i])) : mapRes g (List.range l.length) = .ok (l.map k) := by
  cases l with
  | nil => rfl
  | cons a l =>
    rw [mapRes_of (g := fun i => k ((a :: l)[i]?.getD a))]
    · congr 1
      apply List.ext_getElem
      · simp
      · intro i h1 h2
        simp only [List.length_map] at h2
        rw [List.getElem_map, List.getElem_map, List.getElem_range, List.getElem?_eq_getElem h2, Option.getD_some]
    · intro i hi
      have hi := List.mem_range.1 hi
      rw [h i hi, List.getElem?_eq_getElem hi, Option.getD_some]

theorem Built.goColorPalette (h : Built env b b' f s w bi) (hk : Kept b) (h1 : ∀ d ∈ b'.dyes, d.alphas ≠ [])
    (h2 : ∀ p ∈ b.palettes, p.colors ≠ []) : f.goColorPalette = .ok ((0, 0, 0, 0) ::
      ((b'.dyes.map fun d => d.alphas).flatten.map fun a => (a.toNat, a.toNat, a.toNat, a.toNat)) ++
      (b.palettes.map fun p => p.colors).flatten.map rgbaValues) := by
  obtain ⟨d1, d2, d3, _⟩ := built_dyes h
  obtain ⟨p1, p2, p3, _⟩ := built_palettes h
  obtain ⟨c1, _, _⟩ := count_ok (h.colorsFit hk).1
  rw [Font.goColorPalette, c1, Res.ok_bind, d1, Res.ok_bind,
    mapRes_range (k := fun d : Dye => d.alphas.map UInt8.toNat)
      (fun i hi => (d3 i hi (h1 _ (List.getElem_mem hi))).2), Res.ok_bind, p1, Res.ok_bind,
    mapRes_range (k := fun p : Palette => p.colors.map rgbaValues)
      (fun i hi => (p3 i hi (h2 _ (List.getElem_mem hi))).2), Res.ok_bind, Res.pure_eq]
  congr 1
  rw [List.cons_append, List.map_flatten, List.map_flatten, List.map_flatten, List.map_map, List.map_map, List.map_map]
  simp [Function.comp_def, grayColor]

end BuilderModel

namespace FontModel
open Go Spec ParseModel

theorem colorsFit_of_tolerated {D : Bytes} {f : Font} {stop : Nat} (h : Tolerated D f stop)
    (h4 : D.take stop <+: f.data) : ColorsFit f := by
  have h2 : f.offHorzKern ≤ stop := by
    rcases h.horzKern with ⟨_, a⟩ | ⟨a, _⟩ <;> rcases h.vertKern with ⟨_, b⟩ | ⟨b, _⟩ <;> omega
  obtain ⟨_, _, _, c4, _, _⟩ := h.checks
  obtain ⟨m1, m2, m3, m4, m5, m6, m7, m8, m9, m10, m11, m12, m13, m14, m15, m16, hfit⟩ := h.layout
  have p4 : f.offPalettes + palettesSize D f.offPalettes ≤ f.offHorzKern := by omega
  generalize f.offHorzKern = k at *
  obtain ⟨x, hx⟩ := h4
  have hlen : k ≤ f.data.length := by rw [← hx]; simp; omega
  have e8 : ∀ o, o < k → byteAt f.data o = byteAt D o := by
    intro o ho
    rw [← hx, byteAt_append_left (by simp; omega), byteAt_take (by omega)]
  have q1 : 1 ≤ palettesSize D f.offPalettes := by simp only [palettesSize]; split <;> omega
  have q2 : 1 ≤ dyesSize D f.offDyes := by simp only [dyesSize]; split <;> omega
  have s1 : f.offDyes + 1 + byteAt D f.offDyes + usedColors D f.offDyes ≤ f.offDyes + dyesSize D f.offDyes := by
    simp only [dyesSize, usedColors]; split <;> omega
  have s2 : f.offPalettes + 1 + byteAt D f.offPalettes + 4 * usedColors D f.offPalettes ≤
      f.offPalettes + palettesSize D f.offPalettes := by
    simp only [palettesSize, usedColors]; split <;> omega
  have u1 : usedColors f.data f.offDyes = usedColors D f.offDyes := by
    simp only [usedColors]
    rw [e8 _ (by omega), e8 _ (by omega)]
  have u2 : usedColors f.data f.offPalettes = usedColors D f.offPalettes := by
    simp only [usedColors]
    rw [e8 _ (by omega), e8 _ (by omega)]
  refine ⟨?_, ?_, ?_⟩
  · rw [u1, e8 _ (by omega)]; omega
  · rw [u2, e8 _ (by omega)]; omega
  · rw [u1, u2]
    have hb : ∀ o, usedColors D o ≤ 255 := by
      intro o
      unfold usedColors
      split
      · omega
      · have := byteAt_lt D (o + byteAt D o); omega
    by_cases h0 : byteAt D f.offPalettes = 0
    · have : usedColors D f.offPalettes = 0 := by simp [usedColors, h0]
      have := hb f.offDyes
      omega
    · have := (c4 (by omega)).1
      have e : usedColors D f.offPalettes = byteAt D (f.offPalettes + byteAt D f.offPalettes) := by
        simp [usedColors, h0]
      omega

end FontModel
