import Verif.Lemmas.BuiltLayout

/-! # Counts and sizes of the sections of built fonts -/

namespace Mask
open Go

theorem encStep_prefix {f : Frag} {s s' : EncState} (h : encStep f s = .ok s') : s.out <+: s'.out := by
  simp only [encStep, Res.bind_eq_ok, Res.pure_eq, Res.ok.injEq] at h
  obtain ⟨_, _, _, _, _, _, _, _, rfl⟩ := h
  exact List.prefix_append _ _

theorem encLoop_prefix : ∀ {fs : List Frag} {s s' : EncState}, encLoop fs s = .ok s' → s.out <+: s'.out
  | [], s, s', h => by simp only [encLoop, Res.ok.injEq] at h; subst h; exact List.prefix_rfl
  | f :: fs, s, s', h => by
    simp only [encLoop, Res.bind_eq_ok] at h
    obtain ⟨t, h1, h2⟩ := h
    exact (encStep_prefix h1).trans (encLoop_prefix h2)

theorem appendRasterOps_prefix {ord : List Frag → List Frag} {data out : Bytes} {m : Img}
    (h : appendRasterOps ord data m = .ok out) : data <+: out := by
  simp only [appendRasterOps, Res.bind_eq_ok] at h
  obtain ⟨frags, _, h⟩ := h
  split at h
  · simp only [Res.pure_eq, Res.ok.injEq] at h; subst h; exact List.prefix_rfl
  · simp only [Res.bind_eq_ok, Res.pure_eq, Res.ok.injEq] at h
    obtain ⟨s, h1, rfl⟩ := h
    exact encLoop_prefix h1

end Mask

namespace BuilderModel
open Go Helpers Spec FontModel

namespace Built
variable {env : Env} {b b' : Builder} {f : FontModel.Font} {s : Parts} {w bi : GoMap Bytes Int}

/-! ## Glyphs -/

theorem glyphNames_facts (h : Built env b b' f s w bi)
    (hg : ∀ u g, b.glyphData.get u = Option.some g → g.name.length ≤ 32) :
    ∃ n total, u16At f.data f.offGlyphNames = n ∧ n ≤ b.glyphOrder.length ∧
      (0 < n → u24At f.data (f.offGlyphNames + 2 + 2 * n + 3 * (n - 1)) = total) ∧ total ≤ n * 32 ∧
      glyphNamesSize f.data f.offGlyphNames = s.glyphNames.length := by
  have hx := h.glyphNames
  have ha := h.atGlyphNames
  have e1 : b'.glyphOrder = b.glyphOrder := by rw [h.b'_eq]
  have e2 : b'.glyphData = b.glyphData := by rw [h.b'_eq]
  have ho := order_le h
  simp only [Builder.glyphNamesSection, Res.bind_eq_ok] at hx
  obtain ⟨named, hnamed, hx⟩ := hx
  obtain ⟨n1, n2⟩ := Builder.namedLoop_ok hnamed
  rw [e1] at n1 n2
  rw [e2] at n2
  split at hx
  · simp only [Res.pure_eq, Res.ok.injEq] at hx
    rw [← hx] at ha
    refine ⟨0, 0, ha.u16, by omega, by simp, by simp, ?_⟩
    have := ha.u16
    rw [← hx]
    simp only [glyphNamesSize]
    rw [if_pos this]; rfl
  · rename_i hne
    simp only [Res.bind_eq_ok, Res.pure_eq, Res.ok.injEq] at hx
    obtain ⟨_, _, hx⟩ := hx
    have hp : (isort Builder.nameLe named).Perm named := isort_perm _ _
    have hl := hp.length_eq
    generalize isort Builder.nameLe named = sorted at *
    have hlen : named.length ≤ b.glyphOrder.length := by
      have := n1.length_le
      simpa using this
    have hids : (sorted.map fun e => appendUint16LE [] ((b'.glyphIndex e.1).getD 0)).flatten.length =
        2 * sorted.length := by
      rw [flatten_length, List.map_map]
      have : (sorted.map (List.length ∘ fun e => appendUint16LE [] ((b'.glyphIndex e.1).getD 0))) =
          List.replicate sorted.length 2 := by
        rw [List.eq_replicate_iff]
        refine ⟨by simp, fun x hx => ?_⟩
        obtain ⟨e, _, rfl⟩ := List.mem_map.1 hx
        rfl
      rw [this, List.sum_replicate_nat, Nat.mul_comm]
    have hsum : ((sorted.map (·.2)).map List.length).sum ≤ 32 * sorted.length := by
      have := sum_length_le (l := sorted.map (·.2)) (n := 32) (fun x hx => by
        obtain ⟨e, he, rfl⟩ := List.mem_map.1 hx
        obtain ⟨_, _, g, h1, h2⟩ := (n2 e.1 e.2).1 (hp.mem_iff.1 he)
        rw [← h2]; exact hg _ _ h1)
      simpa using this
    have hln : ((sorted.map (·.2)).map List.length).length = sorted.length := by simp
    rw [← hx] at ha
    have ha' := ha
    rw [← hl, ← hln] at ha'
    obtain ⟨k1, k2⟩ := keyed24 (k := 2) ha' (by omega) (by rw [hids, hln]) (by omega)
    rw [hln] at k1 k2
    have k2 := k2 (by intro e; rw [e] at hln; exact hne (List.eq_nil_of_length_eq_zero (by simpa [hl] using hln.symm)))
    refine ⟨sorted.length, _, k1, by omega, fun _ => k2, by omega, ?_⟩
    rw [← hx]
    have h0 : sorted.length ≠ 0 := by
      rw [hl]; intro e; exact hne (List.eq_nil_of_length_eq_zero e)
    simp only [glyphNamesSize, k1, if_neg h0, k2]
    simp only [List.length_append, append16, le16_length, hids, ends24_length, hln, flatten_length]
    simp only [flatten_length, append16] at hids
    omega

theorem masks_facts (h : Built env b b' f s w bi)
    (hs : f.offWords ≤ f.offGlyphMasks + 3 * b.glyphOrder.length + 16777215) :
    u24At f.data (f.offGlyphMasks + 3 * (b.glyphOrder.length - 1)) =
      f.offWords - f.offGlyphMasks - 3 * b.glyphOrder.length ∧
    f.offGlyphMasks + 3 * b.glyphOrder.length + placementLen b * b.glyphOrder.length ≤ f.offWords ∧
    masksSize f.data b.glyphOrder.length f.offGlyphMasks = s.glyphMasks.length := by
  obtain ⟨blocks, hb, he⟩ := h.glyphMasks_eq
  obtain ⟨hl, hbi⟩ := mapRes_ok hb
  have ha := h.atGlyphMasks
  have hw := h.offWords
  have hn := h.metrics_facts.2.2.1
  rw [he] at ha
  rw [he, List.length_append, ends24_length, flatten_length, List.length_map, hl] at hw
  have hlast := last24 ha.left (by
    intro e
    have := congrArg List.length e
    rw [List.length_map, hl, List.length_nil] at this
    omega) (by omega)
  rw [List.length_map, hl] at hlast
  have hmin : placementLen b * blocks.length ≤ (blocks.map List.length).sum := by
    apply le_sum_map
    intro x hx
    obtain ⟨i, hi, rfl⟩ := List.mem_iff_getElem.1 hx
    have := hbi i (by omega) hi
    simp only [Builder.glyphBlock, Res.bind_eq_ok] at this
    obtain ⟨g, _, hg⟩ := this
    have := (Mask.appendRasterOps_prefix hg).length_le
    refine Nat.le_trans ?_ this
    rw [Builder.placementBytes, placementLen]
    split <;> simp
  rw [hl] at hmin
  refine ⟨by omega, by omega, ?_⟩
  rw [masksSize, hlast, he, List.length_append, ends24_length, flatten_length, List.length_map, hl]

/-! ## Settings -/

theorem words_facts (h : Built env b b' f s w bi) (hf : Fair env) (hs : SettingsOk b.settings)
    (hz : ∃ k, 0 < k ∧ k < 256 ∧ env.predef k = env.predef 0) :
    ∃ n total, byteAt f.data f.offWords = n ∧
      (0 < n → u16At f.data (f.offWords + 1 + 2 * (n - 1)) = total) ∧ n ≤ total ∧ total ≤ n * 32 ∧
      blocks16Size f.data f.offWords = s.words.length := by
  obtain ⟨cust, hst, _⟩ := words_built h hf hz
  have hx := h.wordBytes
  have ha := h.atWords
  simp only [Builder.wordsSection, ite_panic] at hx
  obtain ⟨h255, hx⟩ := hx
  split at hx
  · rename_i h0
    simp only [Res.pure_eq, Res.ok.injEq] at hx
    rw [← hx] at ha
    refine ⟨0, 0, ha.byte, by simp, by simp, by simp, ?_⟩
    have : byteAt f.data f.offWords = 0 := ha.byte
    rw [← hx]
    simp only [blocks16Size]
    rw [if_pos this]; rfl
  · rename_i h0
    simp only [Res.bind_eq_ok, Res.pure_eq, Res.ok.injEq] at hx
    obtain ⟨_, _, hx⟩ := hx
    have hp1 := hf.ends w.keys
    have hp2 := hf.words w.keys
    have hwl : w.keys.length = w.length := by simp [GoMap.keys]
    generalize env.wordEndsOrder w.keys = L1 at *
    generalize env.wordsOrder w.keys = L2 at *
    have hL1 : ∀ x ∈ L1, x ≠ [] ∧ x.length ≤ 32 := by
      intro x hx
      obtain ⟨st, hst', hxo⟩ := hst.option x (hst.perm.mem_iff.1 (hp1.mem_iff.1 hx))
      exact hs.option st hst' x hxo
    have hl1 : (L1.map List.length).length = w.length := by rw [List.length_map, hp1.length_eq, hwl]
    have h1 : (L1.map List.length).sum ≤ 32 * L1.length := sum_length_le fun x hx => (hL1 x hx).2
    have h2 : 1 * L1.length ≤ (L1.map List.length).sum := le_sum_map fun x hx =>
      List.length_pos_iff.2 (hL1 x hx).1
    have hsum : L2.flatten.length = (L1.map List.length).sum := by
      rw [flatten_length, ((hp2.trans hp1.symm).map List.length).sum_nat]
    rw [List.length_map] at hl1
    rw [← hx] at ha ⊢
    have hlm : w.length = (L1.map List.length).length := by rw [List.length_map, hl1]
    rw [hlm] at ha ⊢
    obtain ⟨c1, c2, c3⟩ := blocks16 ha (by omega) (by omega) hsum
    rw [List.length_map] at c1 c2
    refine ⟨L1.length, _, c1, fun hpos => c2 (by
      intro e
      have := congrArg List.length e
      simp at this; subst this; simp at hpos), by omega, by omega, c3⟩

theorem settingNames_facts (h : Built env b b' f s w bi) (hs : SettingsOk b.settings) :
    ∃ total, byteAt f.data f.offSettingNames = b.settings.length ∧
      (0 < b.settings.length →
        u16At f.data (f.offSettingNames + 1 + 2 * (b.settings.length - 1)) = total) ∧
      b.settings.length ≤ total ∧ total ≤ b.settings.length * 32 ∧
      blocks16Size f.data f.offSettingNames = s.settingNames.length := by
  have hx := h.settingNames
  have ha := h.atSettingNames
  have e1 : b'.settings = b.settings := by rw [h.b'_eq]
  simp only [Builder.settingNamesSection, ite_panic, Res.ok.injEq, e1] at hx
  obtain ⟨_, hx⟩ := hx
  have h1 : (b.settings.map fun s => s.name.length).sum ≤ 32 * b.settings.length :=
    sum_map_le fun x hx => (hs.name x hx).2
  have h2 : 1 * b.settings.length ≤ (b.settings.map fun s => s.name.length).sum :=
    le_sum_map fun x hx => List.length_pos_iff.2 (hs.name x hx).1
  have hc := hs.count
  rw [← hx] at ha ⊢
  have hlm : b.settings.length = (b.settings.map fun s => s.name.length).length := by simp
  rw [hlm] at ha ⊢
  obtain ⟨c1, c2, c3⟩ := blocks16 ha (by omega) (by omega) (by rw [List.length_flatten, List.map_map]; rfl)
  rw [← hlm] at c1 c2 c3 ⊢
  exact ⟨_, c1, fun hpos => c2 (by
    intro e
    have := congrArg List.length e
    rw [← hlm] at this
    simp at this; simp [this] at hpos), by omega, by omega, c3⟩

theorem settingDefs_facts (h : Built env b b' f s w bi) (hs : SettingsOk b.settings) :
    (0 < b.settings.length → u16At f.data (f.offSettingDefs + 2 * (b.settings.length - 1)) =
      (b.settings.map fun s => s.options.length).sum) ∧
    settingDefsSize f.data b.settings.length f.offSettingDefs = s.settingDefs.length := by
  have hx := h.settingDefs
  have ha := h.atSettingDefs
  have e1 : b'.settings = b.settings := by rw [h.b'_eq]
  simp only [Builder.settingDefsSection, Res.bind_eq_ok, Res.pure_eq, Res.ok.injEq, e1] at hx
  obtain ⟨blocks, hb, hx⟩ := hx
  obtain ⟨hl, hbi⟩ := mapRes_ok hb
  have hlen : blocks.flatten.length = (b.settings.map fun s => s.options.length).sum := by
    rw [List.length_flatten]
    congr 1
    apply List.ext_getElem
    · simp [hl]
    · intro i hi hi'
      simp only [List.getElem_map]
      exact (mapRes_ok (hbi i (by simpa using hi') (by simpa using hi))).1
  have h1 : (b.settings.map fun s => s.options.length).sum ≤ 255 * b.settings.length :=
    sum_map_le fun x hx => hs.options x hx
  have hc := hs.count
  rw [← hx] at ha ⊢
  have key : 0 < b.settings.length → u16At f.data (f.offSettingDefs + 2 * (b.settings.length - 1)) =
      (b.settings.map fun s => s.options.length).sum := by
    intro hpos
    have := last16 ha.left (by intro e; have := congrArg List.length e; simp at this; simp [this] at hpos) (by omega)
    simpa using this
  refine ⟨key, ?_⟩
  simp only [settingDefsSize, List.length_append, ends16_length, List.length_map, hlen]
  split
  · rename_i h0
    have : b.settings = [] := List.eq_nil_of_length_eq_zero h0
    simp [this]
  · rw [key (by omega)]

theorem checkSwitchSizes_ok {n : Nat} : ∀ {l : List (List Nat)}, Builder.checkSwitchSizes n l = .ok () →
    ∀ x ∈ l, x.length ≤ n
  | [], _ => by simp
  | x :: l, h => by
    simp only [Builder.checkSwitchSizes, ite_panic] at h
    intro y hy
    rcases List.mem_cons.1 hy with rfl | hy
    · omega
    · exact checkSwitchSizes_ok h.2 y hy

theorem switches_facts (h : Built env b b' f s w bi) (hs : SettingsOk b.settings)
    (hne : ∀ x ∈ b.switches, x ≠ []) :
    ∃ total, byteAt f.data f.offSwitches = b.switches.length ∧
      (0 < b.switches.length → u16At f.data (f.offSwitches + 1 + 2 * (b.switches.length - 1)) = total) ∧
      b.switches.length ≤ total ∧ total ≤ b.switches.length * b.settings.length ∧
      blocks16Size f.data f.offSwitches = s.switches.length := by
  have hx := h.switches
  have ha := h.atSwitches
  have e1 : b'.settings = b.settings := by rw [h.b'_eq]
  have e2 : b'.switches = b.switches := by rw [h.b'_eq]
  simp only [Builder.switchesSection, ite_panic, Res.bind_eq_ok, Res.pure_eq, Res.ok.injEq, e1, e2] at hx
  obtain ⟨h255, _, hc, hx⟩ := hx
  have hcount := hs.count
  have hsz := checkSwitchSizes_ok hc
  rw [Nat.mod_eq_of_lt (by omega)] at hsz
  have h1 : (b.switches.map List.length).sum ≤ b.settings.length * b.switches.length := sum_map_le hsz
  have h1' : (b.switches.map List.length).sum ≤ 255 * b.switches.length :=
    sum_map_le fun x hx => Nat.le_trans (hsz x hx) hcount
  have h2 : 1 * b.switches.length ≤ (b.switches.map List.length).sum :=
    le_sum_map fun x hx => List.length_pos_iff.2 (hne x hx)
  rw [← hx] at ha ⊢
  have hlm : b.switches.length = (b.switches.map List.length).length := by simp
  rw [hlm] at ha ⊢
  obtain ⟨c1, c2, c3⟩ := blocks16 ha (by omega) (by omega) (by
    rw [List.length_flatten, List.map_map]; congr 1; apply List.map_congr_left; intro x _; simp)
  rw [← hlm] at c1 c2 c3 ⊢
  exact ⟨_, c1, fun hpos => c2 (by
    intro e
    have := congrArg List.length e
    rw [← hlm] at this
    simp at this; simp [this] at hpos), by omega, by rw [Nat.mul_comm]; exact h1, c3⟩

end Built
end BuilderModel
