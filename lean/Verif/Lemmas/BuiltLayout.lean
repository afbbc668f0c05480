import Verif.Lemmas.BuildAt
import Verif.Lemmas.BuiltNames
import Verif.Lemmas.BuiltRewrites
import Verif.Lemmas.BuiltWords
import Verif.Lemmas.BuiltMapping
import Verif.Lemmas.Kern
import Verif.Lemmas.ParseIff
import Verif.Spec.Acceptable

/-! # Built fonts have the layout that `Parse` looks for -/

namespace BuilderModel
open Go Helpers Spec FontModel

/-! ## Sections with an end offset for each block -/

theorem last16 {D : Bytes} {l : List Nat} {o : Nat} (h : At D o (ends16 0 l)) (h0 : l ≠ [])
    (hs : l.sum ≤ 65535) : u16At D (o + 2 * (l.length - 1)) = l.sum := by
  have hl : 0 < l.length := List.length_pos_iff.2 h0
  rw [ends16_at h (by omega), Nat.sub_add_cancel hl, psum_all, Nat.zero_add, Nat.mod_eq_of_lt (by omega)]

theorem last24 {D : Bytes} {l : List Nat} {o : Nat} (h : At D o (ends24 0 l)) (h0 : l ≠ [])
    (hs : l.sum ≤ 16777215) : u24At D (o + 3 * (l.length - 1)) = l.sum := by
  have hl : 0 < l.length := List.length_pos_iff.2 h0
  rw [ends24_at h (by omega), Nat.sub_add_cancel hl, psum_all, Nat.zero_add, Nat.mod_eq_of_lt (by omega)]

/-- An 8-bit count, 16-bit end offsets, the blocks. -/
theorem blocks16 {D : Bytes} {o : Nat} {l : List Nat} {data : Bytes}
    (h : At D o ([byte l.length] ++ ends16 0 l ++ data)) (hn : l.length ≤ 255) (hs : l.sum ≤ 65535)
    (hd : data.length = l.sum) :
    byteAt D o = l.length ∧ (l ≠ [] → u16At D (o + 1 + 2 * (l.length - 1)) = l.sum) ∧
    blocks16Size D o = ([byte l.length] ++ ends16 0 l ++ data).length := by
  have h1 : byteAt D o = l.length := by
    have := h.left.left.byte
    rw [byte_val] at this; omega
  have h2 : l ≠ [] → u16At D (o + 1 + 2 * (l.length - 1)) = l.sum := fun h0 =>
    last16 h.left.right h0 hs
  refine ⟨h1, h2, ?_⟩
  simp only [blocks16Size, h1, List.length_append, List.length_singleton, ends16_length, hd]
  by_cases h0 : l = []
  · subst h0; simp
  · rw [if_neg (by simpa using h0), h2 h0]

/-- A 16-bit count, 24-bit end offsets, the blocks. -/
theorem rules24 {D : Bytes} {o : Nat} {l : List Nat} {data : Bytes}
    (h : At D o (appendUint16LE [] l.length ++ ends24 0 l ++ data)) (hn : l.length ≤ 65535)
    (hs : l.sum ≤ 16777215) (hd : data.length = l.sum) :
    u16At D o = l.length ∧ (l ≠ [] → u24At D (o + 2 + 3 * (l.length - 1)) = l.sum) ∧
    rulesSize D o = (appendUint16LE [] l.length ++ ends24 0 l ++ data).length := by
  have h1 : u16At D o = l.length := by
    have := h.left.left.u16
    omega
  have h2 : l ≠ [] → u24At D (o + 2 + 3 * (l.length - 1)) = l.sum := fun h0 => by
    have := last24 h.left.right h0 hs
    rwa [append16, le16_length] at this
  refine ⟨h1, h2, ?_⟩
  simp only [rulesSize, h1, List.length_append, append16, le16_length, ends24_length, hd]
  by_cases h0 : l = []
  · subst h0; simp
  · rw [if_neg (by simpa using h0), h2 h0]

/-- A 16-bit count, keys of `k` bytes, 24-bit end offsets, the blocks. -/
theorem keyed24 {D : Bytes} {o k : Nat} {l : List Nat} {keys data : Bytes}
    (h : At D o (appendUint16LE [] l.length ++ keys ++ ends24 0 l ++ data)) (hn : l.length ≤ 65535)
    (hk : keys.length = k * l.length) (hs : l.sum ≤ 16777215) :
    u16At D o = l.length ∧ (l ≠ [] → u24At D (o + 2 + k * l.length + 3 * (l.length - 1)) = l.sum) := by
  have h1 : u16At D o = l.length := by
    have := h.left.left.left.u16
    omega
  refine ⟨h1, fun h0 => ?_⟩
  have := last24 h.left.right h0 hs
  rwa [List.length_append, append16, le16_length, hk, ← Nat.add_assoc] at this

/-- Colors: an 8-bit count, 8-bit end indices, the colors, 16-bit end offsets, the names. -/
theorem colors {D : Bytes} {o k : Nat} {l m : List Nat} {ends data names : Bytes}
    (h : At D o ([byte l.length] ++ ends ++ data ++ ends16 0 m ++ names)) (he : ends8 0 l = .ok ends)
    (hm : m.length = l.length) (hn : l.length ≤ 255) (hd : data.length = k * l.sum) (hs : m.sum ≤ 65535) :
    byteAt D o = l.length ∧ (l ≠ [] → byteAt D (o + l.length) = l.sum ∧
      u16At D (o + 1 + l.length + k * l.sum + 2 * (l.length - 1)) = m.sum) := by
  obtain ⟨e1, e2, e3⟩ := ends8_ok he
  have h1 : byteAt D o = l.length := by
    have := h.left.left.left.left.byte
    rw [byte_val] at this; omega
  refine ⟨h1, fun h0 => ⟨?_, ?_⟩⟩
  · have hl : 0 < l.length := List.length_pos_iff.2 h0
    have := h.left.left.left.right.get (i := l.length - 1) (by omega)
    rw [e3 _ (by omega), Nat.sub_add_cancel hl, psum_all] at this
    rw [show o + l.length = o + [byte l.length].length + (l.length - 1) by simp; omega, this]
    omega
  · have h0' : m ≠ [] := by
      intro hm0; subst hm0
      exact h0 (List.eq_nil_of_length_eq_zero (by simpa using hm.symm))
    have := last16 h.left.right h0' hs
    rw [List.length_append, List.length_append, e1, hd, hm] at this
    simpa [← Nat.add_assoc] using this

theorem sum_map_le {α : Type} {l : List α} {g : α → Nat} {k : Nat} (h : ∀ a ∈ l, g a ≤ k) :
    (l.map g).sum ≤ k * l.length := by
  induction l with
  | nil => simp
  | cons a l ih =>
    have := h a (by simp)
    have := ih fun x hx => h x (by simp [hx])
    simp only [List.map_cons, List.sum_cons, List.length_cons, Nat.mul_add]
    omega

theorem le_sum_map {α : Type} {l : List α} {g : α → Nat} {k : Nat} (h : ∀ a ∈ l, k ≤ g a) :
    k * l.length ≤ (l.map g).sum := by
  induction l with
  | nil => simp
  | cons a l ih =>
    have := h a (by simp)
    have := ih fun x hx => h x (by simp [hx])
    simp only [List.map_cons, List.sum_cons, List.length_cons, Nat.mul_add]
    omega

namespace Built
variable {env : Env} {b b' : Builder} {f : FontModel.Font} {s : Parts} {w bi : GoMap Bytes Int}

/-- The end of every section is the start of the next. -/
theorem offs (h : Built env b b' f s w bi) :
    f.offMetrics = s.header.length ∧ f.offDyes = f.offMetrics + s.metrics.length ∧
    f.offPalettes = f.offDyes + s.dyes.length ∧ f.offGlyphNames = f.offPalettes + s.palettes.length ∧
    f.offGlyphMasks = f.offGlyphNames + s.glyphNames.length ∧
    f.offWords = f.offGlyphMasks + s.glyphMasks.length ∧
    f.offSettingNames = f.offWords + s.words.length ∧
    f.offSettingDefs = f.offSettingNames + s.settingNames.length ∧
    f.offSwitches = f.offSettingDefs + s.settingDefs.length ∧
    f.offMapping = f.offSwitches + s.switches.length ∧
    f.offConditions = f.offMapping + s.mapping.length ∧
    f.offUtf8Sets = f.offConditions + s.conditions.length ∧
    f.offGlyphSets = f.offUtf8Sets + s.utf8Sets.length ∧
    f.offUtf8Rules = f.offGlyphSets + s.glyphSets.length ∧
    f.offGlyphRules = f.offUtf8Rules + s.utf8Rules.length ∧
    f.offHorzKern = f.offGlyphRules + s.glyphRules.length ∧
    f.offVertKern = f.offHorzKern + s.horzKern.length ∧
    f.data.length = f.offVertKern + s.vertKern.length := by
  rw [h.font]
  simp only [Parts.font, Parts.pre, Parts.list, List.take, List.flatten_cons, List.flatten_nil,
    List.length_append, List.length_nil, Nat.add_assoc, Nat.add_zero]
  simp only [and_self]

/-! ## Header and metrics -/

theorem header_facts (h : Built env b b' f s w bi) :
    headerSize f.data = s.header.length ∧ u32At f.data 0 = 2 ∧ u64At f.data 4 = b.fontID.toNat ∧
    byteAt f.data 28 = b.fontName.length := by
  obtain ⟨he, l1, l2, l3, l4⟩ := headerSection_eq h.header
  have ha := h.at_ 0 s.header rfl
  rw [he] at ha
  have ha : At f.data 0 (headerOf b).bytes := ha
  obtain ⟨a1, a2, _, _, _, _, _, a8, _, a10, _, a12, _, a14, a15⟩ := header_at ha
  have e0 := le_rd32 a1 (by simp [headerOf])
  have e4 := le_rd64 a2 (b.fontID.toNat_lt)
  have n1 := le_rd8 a8 (show b.fontName.length < 256 by omega)
  have n2 := le_rd8 a10 (show b.fontFamily.length < 256 by omega)
  have n3 := le_rd8 a12 (show b.fontAuthor.length < 256 by omega)
  have n4 := le_rd16 a14 (show b.fontAbout.length < 65536 by omega)
  rw [rd32_eq (by have := a1.len; simpa [le_length] using this)] at e0
  rw [ParseModel.rd64_eq (by have := a2.len; simpa [le_length] using this)] at e4
  rw [rd8_eq (by have := a8.len; rw [le_length] at this; omega)] at n1
  rw [rd8_eq (by have := a10.len; rw [le_length] at this; omega)] at n2
  rw [rd8_eq (by have := a12.len; rw [le_length] at this; omega)] at n3
  rw [rd16_eq (by have := a14.len; rw [le_length] at this; omega)] at n4
  simp only [Res.ok.injEq] at e0 e4 n1 n2 n3 n4
  refine ⟨?_, e0, e4, n1⟩
  rw [he]
  have n2 : byteAt f.data (29 + b.fontName.length) = b.fontFamily.length := n2
  have n3 : byteAt f.data (30 + b.fontName.length + b.fontFamily.length) = b.fontAuthor.length := n3
  have n4 : u16At f.data (31 + b.fontName.length + b.fontFamily.length + b.fontAuthor.length) =
    b.fontAbout.length := n4
  have n1 : byteAt f.data 28 = b.fontName.length := n1
  simp only [headerSize]
  rw [n1, n2, n3, n4]
  simp only [Header.bytes, YMD.bytes, List.length_append, le_length, headerOf]
  omega

theorem metrics_facts (h : Built env b b' f s w bi) :
    s.metrics.length = 15 ∧ u16At f.data f.offMetrics = b.glyphOrder.length ∧ 0 < b.glyphOrder.length ∧
    byteAt f.data (f.offMetrics + 2) = (if b.hasVertLayout then 1 else 0) ∧
    byteAt f.data (f.offMetrics + 4) = b.ascent.toNat ∧
    byteAt f.data (f.offMetrics + 5) = b.extraAscent.toNat ∧
    byteAt f.data (f.offMetrics + 11) = b.vertInterspacing.toNat ∧
    0 < b.ascent.toNat ∧ b.extraAscent.toNat ≤ b.ascent.toNat := by
  have hl : s.metrics.length = 15 := by rw [h.metrics]; simp [Builder.metricsSection, appendUint16LE]
  have hlen := h.atMetrics.len
  have e1 : b'.hasVertLayout = b.hasVertLayout := by rw [h.b'_eq]
  have e2 : b'.ascent = b.ascent := by rw [h.b'_eq]
  have e3 : b'.extraAscent = b.extraAscent := by rw [h.b'_eq]
  have e4 : b'.vertInterspacing = b.vertInterspacing := by rw [h.b'_eq]
  have m2 := h.metric (i := 2) (by omega)
  have m4 := h.metric (i := 4) (by omega)
  have m5 := h.metric (i := 5) (by omega)
  have m11 := h.metric (i := 11) (by omega)
  rw [rd8_eq (by omega)] at m2 m4 m5 m11
  simp only [Builder.metricsSection, appendUint16LE, List.nil_append, List.cons_append,
    List.getElem_cons_succ, List.getElem_cons_zero, Res.ok.injEq] at m2 m4 m5 m11
  have hn := h.numGlyphs
  rw [FontModel.Font.numGlyphs, rd16_eq (by omega), Res.ok.injEq] at hn
  have hm := h.metricsOk
  simp only [Builder.metricsStatus, ite_err] at hm
  refine ⟨hl, hn, ?_, ?_, by rw [m4, e2], by rw [m5, e3], by rw [m11, e4], ?_, ?_⟩
  · have := h.some; have := h.order; omega
  · rw [m2, e1]; cases b.hasVertLayout <;> rfl
  · have := hm.1
    have h0 : b.ascent.toNat ≠ 0 := fun h => this (UInt8.toNat_inj.1 h)
    omega
  · have := hm.2.1
    rw [UInt8.le_iff_toNat_le] at this
    omega

/-! ## Colors -/

theorem dyes_facts (h : Built env b b' f s w bi) (hs : (b'.dyes.map fun d => d.name.length).sum ≤ 65535) :
    byteAt f.data f.offDyes = b'.dyes.length ∧
    (b'.dyes ≠ [] → byteAt f.data (f.offDyes + b'.dyes.length) = (b'.dyes.map fun d => d.alphas.length).sum ∧
      u16At f.data (f.offDyes + 1 + b'.dyes.length + (b'.dyes.map fun d => d.alphas.length).sum +
        2 * (b'.dyes.length - 1)) = (b'.dyes.map fun d => d.name.length).sum) ∧
    dyesSize f.data f.offDyes = s.dyes.length := by
  have hx := h.dyes
  simp only [Builder.dyesSection, Res.bind_eq_ok, Res.pure_eq, Res.ok.injEq] at hx
  obtain ⟨ends, he, hx⟩ := hx
  have ha := h.atDyes
  rw [← hx] at ha
  have hn : b'.dyes.length ≤ 255 := by
    have := h.sections
    have := Builder.main_eq h.main
    rw [this]
    simp only
    split
    · simp
    · omega
  have hl : (b'.dyes.map fun d => d.alphas.length).length = b'.dyes.length := by simp
  have hd : (b'.dyes.map fun d => d.alphas).flatten.length = 1 * (b'.dyes.map fun d => d.alphas.length).sum := by
    rw [Nat.one_mul, List.length_flatten, List.map_map]; rfl
  have hnl : (b'.dyes.map fun d => d.name).flatten.length = (b'.dyes.map fun d => d.name.length).sum := by
    rw [List.length_flatten, List.map_map]; rfl
  obtain ⟨c1, c2⟩ := colors (k := 1) (l := b'.dyes.map fun d => d.alphas.length)
    (m := b'.dyes.map fun d => d.name.length) (by simpa using ha) he (by simp) (by omega) hd hs
  rw [hl, Nat.one_mul] at c2
  rw [hl] at c1
  have c2' : b'.dyes ≠ [] → _ := fun h0 => c2 (by simpa using h0)
  refine ⟨c1, c2', ?_⟩
  have hel := (ends8_ok he).1
  rw [← hx]
  simp only [dyesSize, c1, List.length_append, List.length_singleton, ends16_length, hel, hd, hnl, hl,
    List.length_map]
  by_cases h0 : b'.dyes = []
  · simp [h0]
  · rw [if_neg (by simpa using h0), (c2' h0).1, (c2' h0).2]
    omega

theorem palettes_facts (h : Built env b b' f s w bi)
    (hs : (b'.palettes.map fun p => p.name.length).sum ≤ 65535) :
    byteAt f.data f.offPalettes = b'.palettes.length ∧
    (b'.palettes ≠ [] →
      byteAt f.data (f.offPalettes + b'.palettes.length) = (b'.palettes.map fun p => p.colors.length).sum ∧
      u16At f.data (f.offPalettes + 1 + b'.palettes.length + 4 * (b'.palettes.map fun p => p.colors.length).sum +
        2 * (b'.palettes.length - 1)) = (b'.palettes.map fun p => p.name.length).sum) ∧
    palettesSize f.data f.offPalettes = s.palettes.length := by
  have hx := h.palettes
  simp only [Builder.palettesSection, Res.bind_eq_ok, Res.pure_eq, Res.ok.injEq] at hx
  obtain ⟨ends, he, hx⟩ := hx
  have ha := h.atPalettes
  rw [← hx] at ha
  have hn : b'.palettes.length ≤ 255 := by
    have := h.sections
    rw [h.b'_eq]
    simp only
    omega
  have hl : (b'.palettes.map fun p => p.colors.length).length = b'.palettes.length := by simp
  have hd : (b'.palettes.map fun p => (p.colors.map Builder.rgbaBytes).flatten).flatten.length =
      4 * (b'.palettes.map fun p => p.colors.length).sum := by
    rw [List.length_flatten, List.map_map, ← sum_mul, List.map_map]
    congr 1
    apply List.map_congr_left
    intro p _
    exact (rgba_length p).trans (by simp [Nat.mul_comm])
  have hnl : (b'.palettes.map fun p => p.name).flatten.length = (b'.palettes.map fun p => p.name.length).sum := by
    rw [List.length_flatten, List.map_map]; rfl
  obtain ⟨c1, c2⟩ := colors (k := 4) (l := b'.palettes.map fun p => p.colors.length)
    (m := b'.palettes.map fun p => p.name.length) (by simpa using ha) he (by simp) (by omega) hd hs
  rw [hl] at c2
  rw [hl] at c1
  have c2' : b'.palettes ≠ [] → _ := fun h0 => c2 (by simpa using h0)
  refine ⟨c1, c2', ?_⟩
  have hel := (ends8_ok he).1
  rw [← hx]
  simp only [palettesSize, c1, List.length_append, List.length_singleton, ends16_length, hel, hd, hnl, hl,
    List.length_map]
  by_cases h0 : b'.palettes = []
  · simp [h0]
  · rw [if_neg (by simpa using h0), (c2' h0).1, (c2' h0).2]

end Built
end BuilderModel
