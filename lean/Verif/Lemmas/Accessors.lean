import Verif.Lemmas.ReadsOnly
import Verif.Spec.Sections

/-! # Accessors of fonts with a correct layout return the fields of the data -/

namespace Spec
open Go FontModel

theorem slice_sub {D : Bytes} {a b : Nat} (h : a ≤ b) (hb : b ≤ D.length) :
    slice D a b = .ok (sub D a (b - a)) := by
  unfold slice sub
  rw [if_pos ⟨h, hb⟩, List.drop_take]

theorem sub_length {D : Bytes} {a n : Nat} (h : a + n ≤ D.length) : (sub D a n).length = n := by
  unfold sub; simp; omega

/-- Later end offsets are at least as large. -/
theorem mono_end {s e : Nat → Nat} (hs : ∀ i, 0 < i → s i = e (i - 1)) {n : Nat}
    (h : ∀ i < n, s i ≤ e i) : ∀ {i j}, i ≤ j → j < n → e i ≤ e j := by
  intro i j hij
  induction j with
  | zero => intro _; have : i = 0 := by omega
            subst this; exact Nat.le_refl _
  | succ j ih =>
    intro hj
    by_cases hc : i = j + 1
    · subst hc; exact Nat.le_refl _
    · have h1 := ih (by omega) (by omega)
      have h2 := h (j + 1) hj
      rw [hs (j + 1) (by omega)] at h2
      simp only [Nat.add_sub_cancel] at h2
      omega

theorem start8_succ (D : Bytes) (o : Nat) : ∀ i, 0 < i → start8 D o i = end8 D o (i - 1) := by
  intro i hi; unfold start8; rw [if_neg (by omega)]
theorem start16_succ (D : Bytes) (o : Nat) : ∀ i, 0 < i → start16 D o i = end16 D o (i - 1) := by
  intro i hi; unfold start16; rw [if_neg (by omega)]
theorem start24_succ (D : Bytes) (o : Nat) : ∀ i, 0 < i → start24 D o i = end24 D o (i - 1) := by
  intro i hi; unfold start24; rw [if_neg (by omega)]

theorem end8_last {D : Bytes} {o n : Nat} (h : ∀ i < n, start8 D o i ≤ end8 D o i) {i : Nat}
    (hi : i < n) : end8 D o i ≤ end8 D o (n - 1) :=
  mono_end (start8_succ D o) h (by omega) (by omega)
theorem end16_last {D : Bytes} {o n : Nat} (h : ∀ i < n, start16 D o i ≤ end16 D o i) {i : Nat}
    (hi : i < n) : end16 D o i ≤ end16 D o (n - 1) :=
  mono_end (start16_succ D o) h (by omega) (by omega)
theorem end24_last {D : Bytes} {o n : Nat} (h : ∀ i < n, start24 D o i ≤ end24 D o i) {i : Nat}
    (hi : i < n) : end24 D o i ≤ end24 D o (n - 1) :=
  mono_end (start24_succ D o) h (by omega) (by omega)

/-! ## Order of the sections -/

theorem dyesSize_pos (D : Bytes) (o : Nat) : 1 ≤ dyesSize D o := by
  unfold dyesSize; simp only; split <;> omega
theorem palettesSize_pos (D : Bytes) (o : Nat) : 1 ≤ palettesSize D o := by
  unfold palettesSize; simp only; split <;> omega
theorem glyphNamesSize_pos (D : Bytes) (o : Nat) : 2 ≤ glyphNamesSize D o := by
  unfold glyphNamesSize; simp only; split <;> omega
theorem masksSize_pos (D : Bytes) {n : Nat} (o : Nat) (h : 0 < n) : 3 ≤ masksSize D n o := by
  unfold masksSize; omega
theorem blocks16Size_pos (D : Bytes) (o : Nat) : 1 ≤ blocks16Size D o := by
  unfold blocks16Size; simp only; split <;> omega
theorem mappingSize_pos (D : Bytes) (o : Nat) : 2 ≤ mappingSize D o := by
  unfold mappingSize; simp only; split <;> omega
theorem rulesSize_pos (D : Bytes) (o : Nat) : 2 ≤ rulesSize D o := by
  unfold rulesSize; simp only; split <;> omega
theorem headerSize_ge (D : Bytes) : 33 ≤ headerSize D := by
  unfold headerSize; simp only; omega

/-- The sections are in order, and every section lies in the data. -/
theorem Layout.order {D : Bytes} {f : Font} (h : Layout D f) (hg : 0 < u16At D f.offMetrics) :
    33 ≤ f.offMetrics ∧ f.offMetrics + 15 = f.offDyes ∧ f.offDyes < f.offPalettes ∧
    f.offPalettes < f.offGlyphNames ∧ f.offGlyphNames + 2 ≤ f.offGlyphMasks ∧
    f.offGlyphMasks + 3 ≤ f.offWords ∧ f.offWords < f.offSettingNames ∧
    f.offSettingNames < f.offSettingDefs ∧ f.offSettingDefs ≤ f.offSwitches ∧
    f.offSwitches < f.offMapping ∧ f.offMapping + 2 ≤ f.offConditions ∧
    f.offConditions < f.offUtf8Sets ∧ f.offUtf8Sets < f.offGlyphSets ∧
    f.offGlyphSets < f.offUtf8Rules ∧ f.offUtf8Rules + 2 ≤ f.offGlyphRules ∧
    f.offGlyphRules + 2 ≤ f.offHorzKern ∧ f.offHorzKern ≤ D.length := by
  have h1 := h.1; have h2 := h.2; have h3 := h.3; have h4 := h.4; have h5 := h.5; have h6 := h.6
  have h7 := h.7; have h8 := h.8; have h9 := h.9; have h10 := h.10; have h11 := h.11
  have h12 := h.12; have h13 := h.13; have h14 := h.14; have h15 := h.15; have h16 := h.16
  have h17 := h.17
  have s1 := headerSize_ge D
  have s3 := dyesSize_pos D f.offDyes
  have s4 := palettesSize_pos D f.offPalettes
  have s5 := glyphNamesSize_pos D f.offGlyphNames
  have s6 := masksSize_pos D f.offGlyphMasks hg
  have s7 := blocks16Size_pos D f.offWords
  have s8 := blocks16Size_pos D f.offSettingNames
  have s10 := blocks16Size_pos D f.offSwitches
  have s11 := mappingSize_pos D f.offMapping
  have s12 := blocks16Size_pos D f.offConditions
  have s13 := blocks16Size_pos D f.offUtf8Sets
  have s14 := blocks16Size_pos D f.offGlyphSets
  have s15 := rulesSize_pos D f.offUtf8Rules
  have s16 := rulesSize_pos D f.offGlyphRules
  refine ⟨?_, ?_, ?_, ?_, ?_, ?_, ?_, ?_, ?_, ?_, ?_, ?_, ?_, ?_, ?_, ?_, ?_⟩ <;> omega

/-! ## Ends of the sections -/

theorem Layout.dyesEnd {D : Bytes} {f : Font} (h : Layout D f) (hn : nDyes D f ≠ 0) :
    dyeNameEnds D f + 2 * nDyes D f + end16 D (dyeNameEnds D f) (nDyes D f - 1) = f.offPalettes := by
  have := h.palettes
  unfold dyesSize at this
  simp only [nDyes, dyeNameEnds, dyeColors, end16] at *
  rw [if_neg hn] at this
  omega
theorem Layout.palettesEnd {D : Bytes} {f : Font} (h : Layout D f) (hn : nPalettes D f ≠ 0) :
    paletteNameEnds D f + 2 * nPalettes D f +
      end16 D (paletteNameEnds D f) (nPalettes D f - 1) = f.offGlyphNames := by
  have := h.glyphNames
  unfold palettesSize at this
  simp only [nPalettes, paletteNameEnds, paletteColors, end16] at *
  rw [if_neg hn] at this
  omega
theorem Layout.namesEnd {D : Bytes} {f : Font} (h : Layout D f) (hn : nNamed D f ≠ 0) :
    glyphNameData D f + end24 D (glyphNameEnds D f) (nNamed D f - 1) = f.offGlyphMasks := by
  have := h.glyphMasks
  unfold glyphNamesSize at this
  simp only [nNamed, glyphNameEnds, glyphNameData, end24] at *
  rw [if_neg hn] at this
  omega
theorem Layout.masksEnd {D : Bytes} {f : Font} (h : Layout D f) :
    maskData D f + end24 D f.offGlyphMasks (nGlyphs D f - 1) = f.offWords := by
  have := h.words
  unfold masksSize at this
  simp only [nGlyphs, maskData, end24] at *
  omega
theorem blocksEnd {D : Bytes} {o next : Nat} (h : next = o + blocks16Size D o) (hn : byteAt D o ≠ 0) :
    o + 1 + 2 * byteAt D o + end16 D (o + 1) (byteAt D o - 1) = next := by
  unfold blocks16Size at h
  simp only [end16] at *
  rw [if_neg hn] at h
  omega
theorem Layout.defsEnd {D : Bytes} {f : Font} (h : Layout D f) (hn : nSettings D f ≠ 0) :
    f.offSettingDefs + 2 * nSettings D f + end16 D f.offSettingDefs (nSettings D f - 1) =
      f.offSwitches := by
  have := h.switches
  unfold settingDefsSize at this
  simp only [nSettings, end16] at *
  rw [if_neg hn] at this
  omega
theorem Layout.mappingEnd {D : Bytes} {f : Font} (h : Layout D f) (hn : nEntries D f ≠ 0) :
    mappingData D f + end24 D (mappingEnds D f) (nEntries D f - 1) = f.offConditions := by
  have := h.conditions
  unfold mappingSize at this
  simp only [nEntries, mappingEnds, mappingData, end24] at *
  rw [if_neg hn] at this
  omega
theorem rulesEnd {D : Bytes} {o next : Nat} (h : next = o + rulesSize D o) (hn : u16At D o ≠ 0) :
    o + 2 + 3 * u16At D o + end24 D (o + 2) (u16At D o - 1) = next := by
  unfold rulesSize at h
  simp only [end24] at *
  rw [if_neg hn] at h
  omega

end Spec

namespace FontModel.Font
open Go FontModel Spec
variable {f : Font}

theorem shl1 (n : Nat) : n <<< 1 = 2 * n := by rw [Nat.shiftLeft_eq]; omega
theorem shl2 (n : Nat) : n <<< 2 = 4 * n := by rw [Nat.shiftLeft_eq]; omega

/-! ### Color -/

theorem numDyes_eq (h : f.offDyes < f.data.length) : f.numDyes = .ok (nDyes f.data f) := rd8_eq h
theorem numPalettes_eq (h : f.offPalettes < f.data.length) :
    f.numPalettes = .ok (nPalettes f.data f) := rd8_eq h

theorem eachNameLoop_eq {D : Bytes} {names : Nat} (ends : Nat) (n : Nat) :
    ∀ k i, i + k = n → (∀ j < n, start16 D ends j < end16 D ends j) →
    (∀ j < n, ends + 2 * j + 2 ≤ D.length) → (∀ j < n, names + end16 D ends j ≤ D.length) →
    eachNameLoop D names k (ends + 2 * i) (start16 D ends i) =
      .ok ((List.range' i k).map fun j =>
        sub D (names + start16 D ends j) (end16 D ends j - start16 D ends j)) := by
  intro k
  induction k with
  | zero => intro i _ _ _ _; simp [eachNameLoop]
  | succ k ih =>
    intro i hi hs hb hn
    have hs' := hs i (by omega)
    have hn' := hn i (by omega)
    simp only [eachNameLoop]
    rw [rd16_eq (by have := hb i (by omega); omega), Res.ok_bind]
    have e1 : u16At D (ends + 2 * i) = end16 D ends i := rfl
    rw [e1, if_neg (by omega), unsafeString_eq (by omega) (by omega), Res.ok_bind]
    have e2 : start16 D ends (i + 1) = end16 D ends i := by rw [start16_succ _ _ _ (by omega)]; rfl
    have e3 : ends + 2 * i + 2 = ends + 2 * (i + 1) := by omega
    rw [e3, ← e2, ih (i + 1) (by omega) hs hb hn, Res.ok_bind, List.range'_succ, List.map_cons, e2]
    rfl

theorem sectionBounds_eq {D : Bytes} {off key : Nat} (hb : off + 1 + key < D.length)
    (h : start8 D (off + 1) key < end8 D (off + 1) key) :
    sectionBounds D off key = .ok (start8 D (off + 1) key, end8 D (off + 1) key) := by
  unfold sectionBounds
  rw [rd8_eq hb, Res.ok_bind]
  have e : byteAt D (off + 1 + key) = end8 D (off + 1) key := rfl
  rw [e]
  by_cases hk : key > 0
  · rw [if_pos hk, rd8_eq (by omega), Res.ok_bind]
    have e2 : byteAt D (off + key) = start8 D (off + 1) key := by
      rw [start8_succ _ _ _ hk, end8]; congr 1; omega
    rw [e2, if_neg (by omega)]; rfl
  · have : key = 0 := by omega
    subst this
    rw [if_neg hk, Res.ok_bind]
    have e2 : start8 D (off + 1) 0 = 0 := rfl
    rw [e2] at h ⊢
    rw [if_neg (by omega)]; rfl

theorem readAlphas_eq {D : Bytes} {base : Nat} : ∀ n i, base + i + n ≤ D.length →
    readAlphas D base n i = .ok ((List.range' i n).map fun j => byteAt D (base + j)) := by
  intro n
  induction n with
  | zero => intro i _; simp [readAlphas]
  | succ n ih =>
    intro i h
    simp only [readAlphas]
    rw [rd8_eq (by omega), Res.ok_bind, ih (i + 1) (by omega), Res.ok_bind, List.range'_succ]
    rfl

theorem readColors_eq {D : Bytes} {base : Nat} : ∀ n i, base + 4 * (i + n) ≤ D.length →
    readColors D base n i = .ok ((List.range' i n).map fun j =>
      (byteAt D (base + 4 * j), byteAt D (base + 4 * j + 1), byteAt D (base + 4 * j + 2),
        byteAt D (base + 4 * j + 3))) := by
  intro n
  induction n with
  | zero => intro i _; simp [readColors]
  | succ n ih =>
    intro i h
    simp only [readColors, shl2]
    rw [rd8_eq (by omega), Res.ok_bind, rd8_eq (by omega), Res.ok_bind, rd8_eq (by omega),
      Res.ok_bind, rd8_eq (by omega), Res.ok_bind, ih (i + 1) (by omega), Res.ok_bind,
      List.range'_succ]
    rfl

/-! ### Glyphs -/

theorem nthGlyphName_eq {i n : Nat} (hn : n = nNamed f.data f)
    (hb : glyphNameEnds f.data f + 3 * i + 3 ≤ f.data.length)
    (h : start24 f.data (glyphNameEnds f.data f) i ≤ end24 f.data (glyphNameEnds f.data f) i)
    (he : glyphNameData f.data f + end24 f.data (glyphNameEnds f.data f) i ≤ f.data.length) :
    f.nthGlyphName i n = .ok (sub f.data
      (glyphNameData f.data f + start24 f.data (glyphNameEnds f.data f) i)
      (end24 f.data (glyphNameEnds f.data f) i - start24 f.data (glyphNameEnds f.data f) i)) := by
  subst hn
  unfold nthGlyphName
  simp only [shl1]
  have e1 : f.offGlyphNames + 2 + 2 * nNamed f.data f = glyphNameEnds f.data f := rfl
  rw [e1]
  have e2 : glyphNameEnds f.data f + 2 * nNamed f.data f + nNamed f.data f = glyphNameData f.data f := by
    unfold glyphNameData; omega
  have e3 : glyphNameEnds f.data f + 2 * i + i = glyphNameEnds f.data f + 3 * i := by omega
  rw [e2, e3, rd24_eq (by omega), Res.ok_bind]
  have e4 : u24At f.data (glyphNameEnds f.data f + 3 * i) = end24 f.data (glyphNameEnds f.data f) i := rfl
  rw [e4]
  by_cases hi : i = 0
  · subst hi
    have e5 : start24 f.data (glyphNameEnds f.data f) 0 = 0 := rfl
    rw [if_pos rfl, slice_sub (by omega) (by omega), e5]
    congr 2 ; omega
  · rw [if_neg hi, rd24_eq (by omega), Res.ok_bind]
    have e5 : u24At f.data (glyphNameEnds f.data f + 3 * i - 3) =
        start24 f.data (glyphNameEnds f.data f) i := by
      rw [start24_succ _ _ _ (by omega), end24]; congr 1; omega
    rw [e5, slice_sub (by omega) (by omega)]
    congr 2; omega

theorem glyphDataStart_eq {g : Nat} (hb : f.offGlyphMasks + 3 * g ≤ f.data.length) :
    f.glyphDataStart g = .ok (start24 f.data f.offGlyphMasks g) := by
  unfold glyphDataStart
  simp only [shl1]
  by_cases hg : g = 0
  · subst hg; rw [if_pos rfl]; rfl
  · rw [if_neg hg, rd24_eq (by omega), start24_succ _ _ _ (by omega), end24]
    congr 2; omega

theorem glyphDataOffsets_eq {g : Nat} (hb : f.offGlyphMasks + 3 * g + 3 ≤ f.data.length)
    (h : start24 f.data f.offGlyphMasks g < end24 f.data f.offGlyphMasks g) :
    f.glyphDataOffsets g = .ok (start24 f.data f.offGlyphMasks g, end24 f.data f.offGlyphMasks g) := by
  unfold glyphDataOffsets
  simp only [shl1]
  have e0 : 2 * g + g = 3 * g := by omega
  rw [e0, rd24_eq (by omega), Res.ok_bind]
  have e4 : u24At f.data (f.offGlyphMasks + 3 * g) = end24 f.data f.offGlyphMasks g := rfl
  rw [e4]
  by_cases hg : g = 0
  · subst hg; rw [if_pos rfl]; rfl
  · rw [if_neg (by omega), rd24_eq (by omega), Res.ok_bind]
    have e5 : u24At f.data (f.offGlyphMasks + 3 * g - 3) = start24 f.data f.offGlyphMasks g := by
      rw [start24_succ _ _ _ (by omega), end24]; congr 1; omega
    rw [e5, if_neg (by omega)]; rfl

/-! ### Settings -/

theorem getWord_eq (predef : Nat → Bytes) {i : Nat} (ho : f.offWords < f.data.length)
    (hi : i < nWords f.data f) (hb : f.offWords + 1 + 2 * i + 2 ≤ f.data.length)
    (h : start16 f.data (f.offWords + 1) i < end16 f.data (f.offWords + 1) i)
    (he : f.offWords + 1 + 2 * nWords f.data f + end16 f.data (f.offWords + 1) i ≤ f.data.length) :
    f.getWord predef i = .ok (sub f.data
      (f.offWords + 1 + 2 * nWords f.data f + start16 f.data (f.offWords + 1) i)
      (end16 f.data (f.offWords + 1) i - start16 f.data (f.offWords + 1) i)) := by
  unfold getWord numWords
  rw [rd8_eq ho, Res.ok_bind]
  have e0 : byteAt f.data f.offWords = nWords f.data f := rfl
  rw [e0, if_pos hi]
  simp only [shl1]
  rw [rd16_eq (by omega), Res.ok_bind]
  have e1 : u16At f.data (f.offWords + 1 + 2 * i) = end16 f.data (f.offWords + 1) i := rfl
  rw [e1]
  by_cases hk : i > 0
  · rw [if_pos hk, rd16_eq (by omega), Res.ok_bind]
    have e2 : u16At f.data (f.offWords + 1 + 2 * i - 2) = start16 f.data (f.offWords + 1) i := by
      rw [start16_succ _ _ _ hk, end16]; congr 1; omega
    rw [e2, if_neg (by omega), unsafeString_eq (by omega) (by omega)]; rfl
  · have : i = 0 := by omega
    subst this
    have e2 : start16 f.data (f.offWords + 1) 0 = 0 := rfl
    rw [e2] at h ⊢
    rw [if_neg hk, Res.ok_bind, if_neg (by omega), unsafeString_eq (by omega) (by omega)]; rfl

theorem settingBounds_eq {k : Nat} (hb : f.offSettingDefs + 2 * k + 2 ≤ f.data.length)
    (h : start16 f.data f.offSettingDefs k < end16 f.data f.offSettingDefs k)
    (h2 : end16 f.data f.offSettingDefs k ≤ start16 f.data f.offSettingDefs k + 255) :
    f.settingBounds k = .ok (start16 f.data f.offSettingDefs k, end16 f.data f.offSettingDefs k) := by
  unfold settingBounds
  simp only [shl1]
  rw [rd16_eq (by omega), Res.ok_bind]
  have e1 : u16At f.data (f.offSettingDefs + 2 * k) = end16 f.data f.offSettingDefs k := rfl
  rw [e1]
  by_cases hk : k > 0
  · rw [if_pos hk, rd16_eq (by omega), Res.ok_bind]
    have e2 : u16At f.data (f.offSettingDefs + 2 * k - 2) = start16 f.data f.offSettingDefs k := by
      rw [start16_succ _ _ _ hk, end16]; congr 1; omega
    rw [e2, if_neg (by omega), if_neg (by omega)]; rfl
  · have : k = 0 := by omega
    subst this
    have e2 : start16 f.data f.offSettingDefs 0 = 0 := rfl
    rw [e2] at h h2 ⊢
    rw [if_neg hk, Res.ok_bind, if_neg (by omega), if_neg (by omega)]; rfl

theorem eachSettingLoop_eq {D : Bytes} {names : Nat} (ends : Nat) (n : Nat) :
    ∀ k i, i + k = n → (∀ j < n, start16 D ends j ≤ end16 D ends j) →
    (∀ j < n, ends + 2 * j + 2 ≤ D.length) → (∀ j < n, names + end16 D ends j < D.length) →
    eachSettingLoop D names k (ends + 2 * i) (start16 D ends i) =
      .ok ((List.range' i k).map fun j =>
        sub D (names + start16 D ends j) (end16 D ends j - start16 D ends j)) := by
  intro k
  induction k with
  | zero => intro i _ _ _ _; simp [eachSettingLoop]
  | succ k ih =>
    intro i hi hs hb hn
    have hs' := hs i (by omega)
    have hn' := hn i (by omega)
    simp only [eachSettingLoop]
    rw [rd16_eq (by have := hb i (by omega); omega), Res.ok_bind]
    have e1 : u16At D (ends + 2 * i) = end16 D ends i := rfl
    rw [e1, if_neg (by omega), unsafeString_eq (by omega) (by omega), Res.ok_bind]
    have e2 : start16 D ends (i + 1) = end16 D ends i := by rw [start16_succ _ _ _ (by omega)]; rfl
    have e3 : ends + 2 * i + 2 = ends + 2 * (i + 1) := by omega
    rw [e3, ← e2, ih (i + 1) (by omega) hs hb hn, Res.ok_bind, List.range'_succ, List.map_cons, e2]
    rfl

/-! ### Rewrites -/

theorem getRule_eq {off i : Nat} (ho : off + 2 ≤ f.data.length) (hi : i < u16At f.data off)
    (hb : off + 2 + 3 * i + 3 ≤ f.data.length)
    (h : start24 f.data (off + 2) i ≤ end24 f.data (off + 2) i)
    (he : off + 2 + 3 * u16At f.data off + end24 f.data (off + 2) i ≤ f.data.length) :
    f.getRule off i = .ok (sub f.data
      (off + 2 + 3 * u16At f.data off + start24 f.data (off + 2) i)
      (end24 f.data (off + 2) i - start24 f.data (off + 2) i)) := by
  unfold getRule
  rw [rd16_eq ho, Res.ok_bind, if_neg (by omega)]
  simp only [shl1]
  have e0 : 2 * i + i = 3 * i := by omega
  have e0' : 2 * u16At f.data off + u16At f.data off = 3 * u16At f.data off := by omega
  rw [e0, e0', rd24_eq (by omega), Res.ok_bind]
  have e1 : u24At f.data (off + 2 + 3 * i) = end24 f.data (off + 2) i := rfl
  rw [e1]
  by_cases hk : i > 0
  · rw [if_pos hk, rd24_eq (by omega), Res.ok_bind]
    have e2 : u24At f.data (off + 2 + 3 * i - 3) = start24 f.data (off + 2) i := by
      rw [start24_succ _ _ _ hk, end24]; congr 1; omega
    rw [e2, slice_sub (by omega) (by omega)]
    congr 2; omega
  · have : i = 0 := by omega
    subst this
    have e2 : start24 f.data (off + 2) 0 = 0 := rfl
    rw [e2, if_neg hk, Res.ok_bind, slice_sub (by omega) (by omega)]
    congr 2; omega

theorem getSet_eq {off i : Nat} (ho : off < f.data.length) (hi : i < byteAt f.data off)
    (hb : off + 1 + 2 * i + 2 ≤ f.data.length)
    (h : start16 f.data (off + 1) i < end16 f.data (off + 1) i)
    (he : off + 1 + 2 * byteAt f.data off + end16 f.data (off + 1) i ≤ f.data.length) :
    f.getSet off i = .ok (sub f.data
      (off + 1 + 2 * byteAt f.data off + start16 f.data (off + 1) i)
      (end16 f.data (off + 1) i - start16 f.data (off + 1) i)) := by
  unfold getSet
  rw [rd8_eq ho, Res.ok_bind, if_neg (by omega)]
  simp only [shl1]
  rw [rd16_eq (by omega), Res.ok_bind]
  have e1 : u16At f.data (off + 1 + 2 * i) = end16 f.data (off + 1) i := rfl
  rw [e1]
  by_cases hk : i = 0
  · subst hk
    have e2 : start16 f.data (off + 1) 0 = 0 := rfl
    rw [e2, if_pos rfl, slice_sub (by omega) (by omega)]
    congr 2; omega
  · rw [if_neg hk, rd16_eq (by omega), Res.ok_bind]
    have e2 : u16At f.data (off + 1 + 2 * (i - 1)) = start16 f.data (off + 1) i := by
      rw [start16_succ _ _ _ (by omega), end16]
    rw [e2, if_neg (by omega), slice_sub (by omega) (by omega)]
    congr 2; omega

end FontModel.Font
