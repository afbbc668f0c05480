import Verif.Lemmas.FlatRules

/-! # The sections of an accepted font -/

namespace ParseModel
open Go ParseBuf ParseBuf.Prog FontModel Spec
variable {D : Bytes} {i d i' d' : Nat}

theorem flat_ite {α : Type} {c : Prop} [Decidable c] {p q : Prog α} {r : α × Nat × Nat} :
    (if c then p else q).flat D i d = .ok r ↔
      (c ∧ p.flat D i d = .ok r) ∨ (¬ c ∧ q.flat D i d = .ok r) := by
  by_cases h : c <;> simp [h]

/-- Unfold a successful run into arithmetic. -/
syntax "flat_at" ident : tactic
macro_rules
  | `(tactic| flat_at $h) => `(tactic| simp only [flat_bind_ok, flat_advance, flat_readUint8,
      flat_readUint16, flat_readUint24, flat_pure, flat_ret, flat_fail, flat_here, flat_sync,
      flat_onFont, flat_readUint24Ig, flat_ite, Prod.mk.injEq, and_false, false_or,
      or_false] at $h:ident)

theorem parseDyes_flat {n u : Nat} (hn : 0 < n)
    (h : (parseDyes n).flat D i d = .ok (u, i', d')) :
    d' = d ∧ u = byteAt D (i + n - 1) ∧ n ≤ u ∧
      i' = i + n + u + 2 * n + u16At D (i + n + u + 2 * (n - 1)) ∧ i' ≤ D.length ∧
      n ≤ u16At D (i + n + u + 2 * (n - 1)) := by
  unfold parseDyes at h
  flat_at h
  obtain ⟨_, _, _, ⟨h1, rfl, rfl⟩, _, _, _, ⟨h2, rfl, rfl, rfl⟩, h3, _, _, _, ⟨h4, rfl, rfl⟩,
    _, _, _, ⟨h5, rfl, rfl⟩, _, _, _, ⟨h6, rfl, rfl, rfl⟩, h7, _, _, _, ⟨h8, rfl, rfl⟩, rfl, rfl,
    rfl⟩ := h
  have e1 : i + (n - 1) = i + n - 1 := by omega
  simp only [e1] at *
  have e2 : i + n - 1 + 1 + byteAt D (i + n - 1) + (n - 1) * 2 =
    i + n + byteAt D (i + n - 1) + 2 * (n - 1) := by omega
  simp only [e2] at *
  refine ⟨by trivial, by trivial, by omega, by omega, by omega, by omega⟩

theorem parsePalettes_flat {n used : Nat} {u : Unit} (hn : 0 < n)
    (h : (parsePalettes n used).flat D i d = .ok (u, i', d')) :
    d' = d ∧ used + byteAt D (i + n - 1) ≤ 255 ∧ n ≤ byteAt D (i + n - 1) ∧
      i' = i + n + 4 * byteAt D (i + n - 1) + 2 * n +
        u16At D (i + n + 4 * byteAt D (i + n - 1) + 2 * (n - 1)) ∧ i' ≤ D.length ∧
      n ≤ u16At D (i + n + 4 * byteAt D (i + n - 1) + 2 * (n - 1)) := by
  unfold parsePalettes at h
  flat_at h
  obtain ⟨_, _, _, ⟨h1, rfl, rfl⟩, _, _, _, ⟨h2, rfl, rfl, rfl⟩, h3, h3', _, _, _, ⟨h4, rfl, rfl⟩,
    _, _, _, ⟨h5, rfl, rfl⟩, _, _, _, ⟨h6, rfl, rfl, rfl⟩, h7, h8, rfl, rfl⟩ := h
  have e1 : i + (n - 1) = i + n - 1 := by omega
  simp only [e1] at *
  have e2 : i + n - 1 + 1 + byteAt D (i + n - 1) * 4 + (n - 1) * 2 =
    i + n + 4 * byteAt D (i + n - 1) + 2 * (n - 1) := by omega
  simp only [e2] at *
  refine ⟨by trivial, by omega, by omega, by omega, by omega, by omega⟩

theorem parseGlyphNames_flat {n g : Nat} {u : Unit} (hn : 0 < n)
    (h : (parseGlyphNames n g).flat D i d = .ok (u, i', d')) :
    d' = d ∧ n ≤ g ∧ i' = i + 2 * n + 3 * n + u24At D (i + 2 * n + 3 * (n - 1)) ∧
      i' ≤ D.length ∧
      u24At D (i + 2 * n + 3 * (n - 1)) ≤ n * 32 := by
  unfold parseGlyphNames at h
  flat_at h
  obtain ⟨h0, _, _, _, ⟨h1, rfl, rfl⟩, _, _, _, ⟨h2, rfl, rfl⟩, _, _, _, ⟨h3, rfl, rfl, rfl⟩, h4,
    h5, rfl, rfl⟩ := h
  have e1 : i + n * 2 + (n - 1) * 3 = i + 2 * n + 3 * (n - 1) := by omega
  simp only [e1] at *
  exact ⟨by trivial, by omega, by omega, by omega, by omega⟩

theorem parseWords_flat {n : Nat} {u : Unit} (hn : 0 < n)
    (h : (parseWords n).flat D i d = .ok (u, i', d')) :
    d' = d ∧ i' = i + 2 * n + u16At D (i + 2 * (n - 1)) ∧ i' ≤ D.length ∧
      n ≤ u16At D (i + 2 * (n - 1)) := by
  unfold parseWords at h
  flat_at h
  obtain ⟨_, _, _, ⟨h1, rfl, rfl⟩, _, _, _, ⟨h3, rfl, rfl, rfl⟩, h4, h5, h6, rfl, rfl⟩ := h
  have e1 : i + (n - 1) * 2 = i + 2 * (n - 1) := by omega
  simp only [e1] at *
  exact ⟨by trivial, by omega, by omega, by omega⟩

theorem parseSettingDefs_flat {n o : Nat} (hn : 0 < n)
    (h : (parseSettingDefs n).flat D i d = .ok (o, i', d')) :
    d' = d ∧ o = u32 (i + 2 * n + u16At D (i + 2 * (n - 1))) ∧
      n ≤ u16At D (i + 2 * (n - 1)) ∧
      ∃ j, j = i + 2 * n + u16At D (i + 2 * (n - 1)) ∧
      i' = j + 2 * n + u16At D (j + 2 * (n - 1)) ∧ i' ≤ D.length ∧
      n ≤ u16At D (j + 2 * (n - 1)) := by
  unfold parseSettingDefs at h
  flat_at h
  obtain ⟨_, _, _, ⟨h1, rfl, rfl⟩, _, _, _, ⟨h3, rfl, rfl, rfl⟩, h4, h5, _, _, _, ⟨h6, rfl, rfl⟩,
    _, _, _, ⟨rfl, rfl, rfl⟩, _, _, _, ⟨h7, rfl, rfl⟩, _, _, _, ⟨h8, rfl, rfl, rfl⟩, h9,
    _, _, _, ⟨h10, rfl, rfl⟩, rfl, rfl, rfl⟩ := h
  have e1 : i + (n - 1) * 2 = i + 2 * (n - 1) := by omega
  simp only [e1] at *
  have e2 : i + 2 * (n - 1) + 2 + u16At D (i + 2 * (n - 1)) =
    i + 2 * n + u16At D (i + 2 * (n - 1)) := by omega
  simp only [e2] at *
  refine ⟨by trivial, by trivial, by omega, _, rfl, ?_⟩
  generalize i + 2 * n + u16At D (i + 2 * (n - 1)) = j at *
  have e1 : j + (n - 1) * 2 = j + 2 * (n - 1) := by omega
  simp only [e1] at *
  exact ⟨by omega, by omega, by omega⟩

theorem parseSwitches_flat {n m : Nat} {u : Unit} (hn : 0 < n)
    (h : (parseSwitches n m).flat D i d = .ok (u, i', d')) :
    d' = d ∧ i' = i + 2 * n + u16At D (i + 2 * (n - 1)) ∧ i' ≤ D.length ∧
      n ≤ u16At D (i + 2 * (n - 1)) := by
  unfold parseSwitches at h
  flat_at h
  obtain ⟨_, _, _, ⟨h1, rfl, rfl⟩, _, _, _, ⟨h3, rfl, rfl, rfl⟩, h4, h5, h6, rfl, rfl⟩ := h
  have e1 : i + (n - 1) * 2 = i + 2 * (n - 1) := by omega
  simp only [e1] at *
  exact ⟨by trivial, by omega, by omega, by omega⟩

theorem parseBlocks16_flat {n m : Nat} {u : Unit} (hn : 0 < n) (hm : 0 < m)
    (h : (parseBlocks16 n m).flat D i d = .ok (u, i', d')) :
    d' = d ∧ i' = i + 2 * n + u16At D (i + 2 * (n - 1)) ∧ i' ≤ D.length ∧
      m ≤ u16At D (i + 2 * (n - 1)) := by
  unfold parseBlocks16 at h
  flat_at h
  obtain ⟨_, _, _, ⟨h1, rfl, rfl⟩, _, _, _, ⟨h3, rfl, rfl, rfl⟩, h4, h6, rfl, rfl⟩ := h
  have e1 : i + (n - 1) * 2 = i + 2 * (n - 1) := by omega
  simp only [e1] at *
  exact ⟨by trivial, by omega, by omega, by omega⟩

theorem parseEntries_flat {n : Nat} {u : Unit} (hn : 0 < n)
    (h : (parseEntries n).flat D i d = .ok (u, i', d')) :
    d' = d ∧ i' = i + 4 * n + 3 * n + u24At D (i + 4 * n + 3 * (n - 1)) ∧ i' ≤ D.length ∧
      3 * n ≤ u24At D (i + 4 * n + 3 * (n - 1)) := by
  unfold parseEntries at h
  flat_at h
  obtain ⟨_, _, _, ⟨h1, rfl, rfl⟩, _, _, _, ⟨h2, rfl, rfl⟩, _, _, _, ⟨h3, rfl, rfl, rfl⟩, h4, h6,
    rfl, rfl⟩ := h
  have e1 : i + n * 4 + (n - 1) * 3 = i + 4 * n + 3 * (n - 1) := by omega
  simp only [e1] at *
  exact ⟨by trivial, by omega, by omega, by omega⟩

theorem parseRules_flat {n m : Nat} {u : Unit} (hn : 0 < n)
    (h : (parseRules n m).flat D i d = .ok (u, i', d')) :
    d' = d ∧ i' = i + 3 * n + u24At D (i + 3 * (n - 1)) ∧ i' ≤ D.length ∧
      8 * n ≤ u24At D (i + 3 * (n - 1)) := by
  unfold parseRules at h
  flat_at h
  obtain ⟨_, _, _, ⟨h1, rfl, rfl⟩, _, _, _, (⟨h3, rfl, rfl, rfl⟩ | ⟨h3, rfl, rfl, rfl⟩), h4, h5, h6,
    rfl, rfl⟩ := h
  · have e1 : i + (n - 1) * 3 = i + 3 * (n - 1) := by omega
    simp only [e1] at *
    exact ⟨by trivial, by omega, by omega, by omega⟩
  · omega

theorem readShortStr_flat {s : Bytes} (h : readShortStr.flat D i d = .ok (s, i', d')) :
    d' = d ∧ i' = i + 1 + byteAt D i ∧ i' ≤ D.length := by
  unfold readShortStr at h
  simp only [flat_bind_ok, flat_readUint8, flat_ite, flat_pure, flat_read, Prod.mk.injEq] at h
  obtain ⟨_, _, _, ⟨h1, rfl, rfl, rfl⟩, (⟨h2, rfl, rfl, rfl⟩ | ⟨h2, h3, rfl, rfl, rfl⟩)⟩ := h
  · exact ⟨by trivial, by omega, by omega⟩
  · exact ⟨by trivial, by omega, by omega⟩

theorem readString_flat {s : Bytes} (h : readString.flat D i d = .ok (s, i', d')) :
    d' = d ∧ i' = i + 2 + u16At D i ∧ i' ≤ D.length := by
  unfold readString at h
  simp only [flat_bind_ok, flat_readUint16, flat_ite, flat_pure, flat_read, Prod.mk.injEq] at h
  obtain ⟨_, _, _, ⟨h1, rfl, rfl, rfl⟩, (⟨h2, rfl, rfl, rfl⟩ | ⟨h2, h3, rfl, rfl, rfl⟩)⟩ := h
  · exact ⟨by trivial, by omega, by omega⟩
  · exact ⟨by trivial, by omega, by omega⟩

theorem validateHeader_ok {f : Font} (h1 : 29 < f.data.length)
    (h2 : 29 + byteAt f.data 28 ≤ f.data.length) (h : Font.validateHeader f = .ok ()) :
    u32At f.data 0 = 2 ∧ 0 < byteAt f.data 28 := by
  simp only [Font.validateHeader, Font.formatVersion, Font.id, Font.name] at h
  rw [rd32_eq (by omega), rd64_ok (by omega), rd8_eq (by omega)] at h
  simp only [Res.ok_bind] at h
  rw [unsafeString_eq h1 h2] at h
  simp only [Res.ok_bind, Res.pure_eq] at h
  split_ifs at h with a b c
  refine ⟨?_, ?_⟩
  · simpa [FontModel.formatVersion] using a
  · rcases Nat.eq_zero_or_pos (byteAt f.data 28) with h0 | h0
    · exact absurd (by rw [h0]; simp) c
    · exact h0

theorem parseHeader_flat {f f' : Font} (h : (parseHeader f).flat D 0 0 = .ok (f', i', d')) :
    f' = f ∧ i' = headerSize D ∧ d' = i' ∧ i' ≤ D.length ∧ u32At D 0 = 2 ∧ 0 < byteAt D 28 := by
  unfold parseHeader at h
  simp only [flat_bind_ok, flat_advance, flat_pure, flat_sync, flat_onFont, Prod.mk.injEq] at h
  obtain ⟨_, _, _, ⟨h1, rfl, rfl⟩, _, _, _, h2, _, _, _, h3, _, _, _, h4, _, _, _, h5,
    _, _, _, ⟨rfl, rfl⟩, _, _, _, ⟨hv, rfl, rfl⟩, rfl, rfl, rfl⟩ := h
  obtain ⟨rfl, rfl, l2⟩ := readShortStr_flat h2
  obtain ⟨rfl, rfl, l3⟩ := readShortStr_flat h3
  obtain ⟨rfl, rfl, l4⟩ := readShortStr_flat h4
  obtain ⟨rfl, rfl, l5⟩ := readString_flat h5
  simp only [Nat.zero_add] at *
  have e1 : 28 + 1 + byteAt D 28 = 29 + byteAt D 28 := by omega
  simp only [e1] at *
  have e2 : 29 + byteAt D 28 + 1 + byteAt D (29 + byteAt D 28) =
    30 + byteAt D 28 + byteAt D (29 + byteAt D 28) := by omega
  simp only [e2] at *
  generalize hn : byteAt D 28 = n at *
  generalize hfa : byteAt D (29 + n) = fa at *
  have e3 : 30 + n + fa + 1 + byteAt D (30 + n + fa) = 31 + n + fa + byteAt D (30 + n + fa) := by
    omega
  simp only [e3] at *
  generalize hau : byteAt D (30 + n + fa) = au at *
  have hh : headerSize D = 31 + n + fa + au + 2 + u16At D (31 + n + fa + au) := by
    simp only [headerSize, hn, hfa, hau]; omega
  rw [hh]
  have hv := validateHeader_ok (by simp; omega)
    (by simp only [List.length_take]; rw [byteAt_take (by omega), hn]; omega) hv
  simp only at hv
  rw [u32At_take (by omega), byteAt_take (by omega), hn] at hv
  exact ⟨by trivial, by trivial, by trivial, by omega, hv.1, hv.2⟩

theorem validateMetrics_ok {f : Font} (h : f.offMetrics + 15 ≤ f.data.length)
    (hv : Font.validateMetrics f = .ok ()) :
    0 < u16At f.data f.offMetrics ∧ byteAt f.data (f.offMetrics + 2) ≤ 1 ∧
      0 < byteAt f.data (f.offMetrics + 4) ∧
      byteAt f.data (f.offMetrics + 5) ≤ byteAt f.data (f.offMetrics + 4) := by
  simp only [Font.validateMetrics, Font.numGlyphs, Font.ascent, Font.extraAscent,
    Font.vertInterspacing, Font.hasVertLayout] at hv
  rw [rd16_eq (by omega), rd8_eq (by omega), rd8_eq (by omega), rd8_eq (by omega),
    rd8_eq (by omega), idx_lt (by omega)] at hv
  simp only [Res.ok_bind, Res.pure_eq] at hv
  rw [byteAt_eq (i := f.offMetrics + 2) (by omega)]
  have hb : ∀ {b : UInt8} {u}, Helpers.boolErrCheck b = .ok u → b.toNat ≤ 1 := by
    intro b u hu
    unfold Helpers.boolErrCheck at hu
    split at hu
    · rename_i hb
      rcases hb with rfl | rfl <;> decide
    · simp at hu
  by_cases hn : u16At f.data f.offMetrics = 0
  · simp [hn] at hv
  · rw [if_neg hn] at hv
    cases hc : Helpers.boolErrCheck f.data[f.offMetrics + 2] with
    | ok u =>
      rw [hc] at hv
      simp only [Res.ok_bind] at hv
      split_ifs at hv
      exact ⟨by omega, hb hc, by omega, by omega⟩
    | err m => rw [hc] at hv; simp at hv
    | panic m => rw [hc] at hv; simp at hv

theorem u32_eq (hD : D.length ≤ maxFontDataSize) (hi : i ≤ D.length) : u32 i = i := by
  simp only [maxFontDataSize, Nat.shiftLeft_eq] at hD
  simp only [u32]; omega

theorem parseMetrics_flat {f f' : Font} (hD : D.length ≤ maxFontDataSize) (hi : i ≤ D.length)
    (h : (parseMetrics f).flat D i d = .ok (f', i', d')) :
    f' = { f with offMetrics := i } ∧ i' = i + 15 ∧ d' = i' ∧ i' ≤ D.length ∧
      0 < u16At D i ∧ byteAt D (i + 2) ≤ 1 ∧ 0 < byteAt D (i + 4) ∧
      byteAt D (i + 5) ≤ byteAt D (i + 4) := by
  unfold parseMetrics at h
  simp only [flat_bind_ok, flat_advance, flat_pure, flat_here, flat_sync, flat_onFont,
    Prod.mk.injEq] at h
  obtain ⟨_, _, _, ⟨rfl, rfl, rfl⟩, _, _, _, ⟨h1, rfl, rfl⟩, _, _, _, ⟨rfl, rfl⟩, _, _, _,
    ⟨hv, rfl, rfl⟩, rfl, rfl, rfl⟩ := h
  rw [u32_eq hD hi] at *
  have hv := validateMetrics_ok (by simp; omega) hv
  simp only at hv
  rw [u16At_take (by omega), byteAt_take (by omega), byteAt_take (by omega),
    byteAt_take (by omega)] at hv
  exact ⟨by trivial, by trivial, by trivial, by omega, hv⟩

theorem flat_when {n : Nat} {β : Type} {p : Prog Unit} {k : Unit → Prog β} {r : β × Nat × Nat} :
    (if n > 0 then p >>= k else k ()).flat D i d = .ok r ↔
      (n = 0 ∧ (k ()).flat D i d = .ok r) ∨
      (0 < n ∧ ∃ i1 d1, p.flat D i d = .ok ((), i1, d1) ∧ (k ()).flat D i1 d1 = .ok r) := by
  rw [flat_ite, flat_bind_ok]
  constructor
  · rintro (⟨h, _, i1, d1, h1, h2⟩ | ⟨h, h2⟩)
    · exact Or.inr ⟨h, i1, d1, h1, h2⟩
    · exact Or.inl ⟨by omega, h2⟩
  · rintro (⟨h, h2⟩ | ⟨h, i1, d1, h1, h2⟩)
    · exact Or.inr ⟨by omega, h2⟩
    · exact Or.inl ⟨h, (), i1, d1, h1, h2⟩

theorem parseColor_flat {f f' : Font} (hD : D.length ≤ maxFontDataSize) (hi : i ≤ D.length)
    (h : (parseColor f).flat D i d = .ok (f', i', d')) :
    ∃ j, j = i + dyesSize D i ∧ f' = { f with offDyes := i, offPalettes := j } ∧
      i' = j + palettesSize D j ∧ d' = i' ∧ i' ≤ D.length ∧ byteAt D i + byteAt D j ≤ 255 := by
  unfold parseColor at h
  simp only [flat_bind_ok, flat_here, flat_readUint8] at h
  obtain ⟨_, _, _, ⟨rfl, rfl, rfl⟩, _, _, _, ⟨h1, rfl, rfl, rfl⟩, u, j, d1, hd, _, _, _,
    ⟨rfl, rfl, rfl⟩, _, _, _, ⟨h2, rfl, rfl, rfl⟩, h⟩ := h
  have hjs : j = i + dyesSize D i ∧ j ≤ D.length := by
    rw [flat_ite] at hd
    rcases hd with ⟨hn, hd⟩ | ⟨hn, hd⟩
    · obtain ⟨_, hu, _, hj, hl, _⟩ := parseDyes_flat hn hd
      have e : i + 1 + byteAt D i - 1 = i + byteAt D i := by omega
      rw [e] at hu
      subst hu
      refine ⟨?_, hl⟩
      simp only [dyesSize]
      rw [if_neg (by omega), hj]
      omega
    · rw [flat_ret] at hd
      simp only [Prod.mk.injEq] at hd
      simp only [dyesSize]
      rw [if_pos (by omega)]
      omega
  obtain ⟨hj, hjl⟩ := hjs
  rw [u32_eq hD hi, u32_eq hD (by omega : j ≤ D.length)] at h
  rw [flat_when] at h
  simp only [flat_bind_ok, flat_sync, flat_onFont, flat_pure, Prod.mk.injEq] at h
  have hfin : ∀ {t : Nat} {b : Unit}, j + 1 ≤ t → t ≤ D.length →
      Font.validateColor { f with offDyes := i, offPalettes := j, data := D.take t } = .ok b →
      byteAt D i + byteAt D j ≤ 255 := by
    intro t b ht htl hv
    simp only [Font.validateColor, Font.numDyes, Font.numPalettes] at hv
    have : i + 1 ≤ j := by rw [hj]; simp only [dyesSize]; split <;> omega
    rw [rd8_eq (by simp; omega), rd8_eq (by simp; omega)] at hv
    simp only [Res.ok_bind, Res.pure_eq] at hv
    rw [byteAt_take (by omega), byteAt_take (by omega)] at hv
    split_ifs at hv
    omega
  refine ⟨j, hj, ?_⟩
  rcases h with ⟨hn, h⟩ | ⟨hn, i1, d2, hp, h⟩
  · obtain ⟨_, _, _, ⟨rfl, rfl⟩, _, _, _, ⟨hv, rfl, rfl⟩, rfl, rfl, rfl⟩ := h
    refine ⟨rfl, ?_, rfl, h2, hfin (Nat.le_refl _) h2 hv⟩
    simp only [palettesSize]
    rw [if_pos hn]
  · obtain ⟨_, _, _, ⟨rfl, rfl⟩, _, _, _, ⟨hv, rfl, rfl⟩, rfl, rfl, rfl⟩ := h
    obtain ⟨_, _, _, hi1, hl, _⟩ := parsePalettes_flat hn hp
    have e : j + 1 + byteAt D j - 1 = j + byteAt D j := by omega
    rw [e] at hi1
    refine ⟨rfl, ?_, rfl, hl, hfin (by omega) hl hv⟩
    simp only [palettesSize]
    rw [if_neg (by omega), hi1]
    omega

end ParseModel
