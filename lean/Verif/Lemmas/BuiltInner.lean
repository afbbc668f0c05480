import Verif.Lemmas.BuiltSizes2
import Verif.Lemmas.Switch
import Verif.Lemmas.Colors
import Verif.Lemmas.BuiltFits
import Verif.Lemmas.Reachable

/-! # The end offsets inside the sections of built fonts -/

namespace BuilderModel
open Go Helpers Spec FontModel

theorem gap16 {D : Bytes} {l : List Nat} {o : Nat} (h : At D o (ends16 0 l)) (hs : l.sum ≤ 65535)
    {i : Nat} (hi : i < l.length) : end16 D o i = start16 D o i + l[i] := by
  obtain ⟨h1, h2⟩ := bounds16 h hs hi
  rw [h1, h2, psum_succ hi]

theorem gap24 {D : Bytes} {l : List Nat} {o : Nat} (h : At D o (ends24 0 l)) (hs : l.sum ≤ 16777215)
    {i : Nat} (hi : i < l.length) : end24 D o i = start24 D o i + l[i] := by
  obtain ⟨h1, h2⟩ := bounds24 h hs hi
  rw [h1, h2, psum_succ hi]

theorem gap8 {D : Bytes} {off : Nat} {l : List Nat} {x : Bytes} (h : ends8 0 l = .ok x)
    (ha : At D (off + 1) x) {i : Nat} (hi : i < l.length) :
    end8 D (off + 1) i = start8 D (off + 1) i + l[i] := by
  obtain ⟨h1, h2⟩ := bounds8 h ha hi
  rw [h1, h2, psum_succ hi]

namespace Built
variable {env : Env} {b b' : Builder} {f : FontModel.Font} {s : Parts} {w bi : GoMap Bytes Int}

theorem dyes_inner (h : Built env b b' f s w bi) (hs : (b'.dyes.map fun d => d.name.length).sum ≤ 65535) :
    nDyes f.data f = b'.dyes.length ∧ ∀ i (hi : i < b'.dyes.length),
      end8 f.data (f.offDyes + 1) i = start8 f.data (f.offDyes + 1) i + b'.dyes[i].alphas.length ∧
      end16 f.data (dyeNameEnds f.data f) i = start16 f.data (dyeNameEnds f.data f) i + b'.dyes[i].name.length := by
  have hx := h.dyes
  have ha := h.atDyes
  simp only [Builder.dyesSection, Res.bind_eq_ok, Res.pure_eq, Res.ok.injEq] at hx
  obtain ⟨ends, he, hx⟩ := hx
  rw [← hx] at ha
  have hcount : b'.dyes.length ≤ 255 := by
    have hm := Builder.main_eq h.main
    have := h.sections
    rw [hm]
    simp only
    split
    · simp
    · omega
  obtain ⟨l1, _, _⟩ := ends8_ok he
  rw [List.length_map] at l1
  have a0 := ha.left.left.left.left
  have a1 := ha.left.left.left.right
  have a3 := ha.left.right
  simp only [List.length_append, List.length_cons, List.length_nil, List.length_map,
    flatten_length, List.map_map, l1, Function.comp_def, Nat.zero_add] at a1 a3
  have hn : nDyes f.data f = b'.dyes.length := by
    rw [nDyes, a0.byte, byte_val, Nat.mod_eq_of_lt (by omega)]
  have hlast := last8 he (by rw [← nDyes, hn, List.length_map]) a1
  rw [List.length_map] at hlast
  refine ⟨hn, fun i hi => ⟨?_, ?_⟩⟩
  · rw [gap8 he a1 (by simpa using hi), List.getElem_map]
  · have e : dyeNameEnds f.data f = f.offDyes + (1 + b'.dyes.length + (b'.dyes.map fun d => d.alphas.length).sum) := by
      rw [dyeNameEnds, dyeColors, hn, hlast]; omega
    rw [e, gap16 a3 hs (by simpa using hi), List.getElem_map]

theorem palettes_inner (h : Built env b b' f s w bi) (hs : (b'.palettes.map fun d => d.name.length).sum ≤ 65535) :
    nPalettes f.data f = b'.palettes.length ∧ ∀ i (hi : i < b'.palettes.length),
      end8 f.data (f.offPalettes + 1) i = start8 f.data (f.offPalettes + 1) i + b'.palettes[i].colors.length ∧
      end16 f.data (paletteNameEnds f.data f) i =
        start16 f.data (paletteNameEnds f.data f) i + b'.palettes[i].name.length := by
  have hx := h.palettes
  have ha := h.atPalettes
  simp only [Builder.palettesSection, Res.bind_eq_ok, Res.pure_eq, Res.ok.injEq] at hx
  obtain ⟨ends, he, hx⟩ := hx
  rw [← hx] at ha
  have hcount : b'.palettes.length ≤ 255 := by
    have hm := Builder.main_eq h.main
    have := h.sections
    rw [hm]
    simp only
    omega
  obtain ⟨l1, _, _⟩ := ends8_ok he
  rw [List.length_map] at l1
  have a0 := ha.left.left.left.left
  have a1 := ha.left.left.left.right
  have a3 := ha.left.right
  have hcol : ∀ l : List RGBA, ((l.map Builder.rgbaBytes).flatten).length = 4 * l.length := by
    intro l
    induction l with
    | nil => rfl
    | cons c l ih => simp only [List.map_cons, List.flatten_cons, List.length_append, ih, List.length_cons, Builder.rgbaBytes, List.length_nil]; omega
  have hsum : ((b'.palettes.map fun p => (p.colors.map Builder.rgbaBytes).flatten).flatten).length =
      4 * (b'.palettes.map fun p => p.colors.length).sum := by
    rw [flatten_length, List.map_map]
    generalize b'.palettes = l
    induction l with
    | nil => rfl
    | cons p l ih => simp only [List.map_cons, List.sum_cons, Function.comp_apply, hcol, ih, Nat.mul_add]
  simp only [List.length_append, List.length_cons, List.length_nil, List.length_map, l1, Nat.zero_add] at a1 a3
  rw [hsum] at a3
  have hn : nPalettes f.data f = b'.palettes.length := by
    rw [nPalettes, a0.byte, byte_val, Nat.mod_eq_of_lt (by omega)]
  have hlast := last8 he (by rw [← nPalettes, hn, List.length_map]) a1
  rw [List.length_map] at hlast
  refine ⟨hn, fun i hi => ⟨?_, ?_⟩⟩
  · rw [gap8 he a1 (by simpa using hi), List.getElem_map]
  · have e : paletteNameEnds f.data f = f.offPalettes +
        (1 + b'.palettes.length + 4 * (b'.palettes.map fun d => d.colors.length).sum) := by
      rw [paletteNameEnds, paletteColors, hn, hlast]; omega
    rw [e, gap16 a3 hs (by simpa using hi), List.getElem_map]

theorem glyphNames_inner (h : Built env b b' f s w bi)
    (hg : ∀ u g, b.glyphData.get u = Option.some g → g.name.length ≤ 32) :
    ∀ i < nNamed f.data f, start24 f.data (glyphNameEnds f.data f) i ≤ end24 f.data (glyphNameEnds f.data f) i := by
  have hx := h.glyphNames
  have ha := h.atGlyphNames
  have e1 : b'.glyphOrder = b.glyphOrder := by rw [h.b'_eq]
  have e2 : b'.glyphData = b.glyphData := by rw [h.b'_eq]
  have ho := order_le h
  simp only [Builder.glyphNamesSection, Res.bind_eq_ok] at hx
  obtain ⟨named, hnamed, hx⟩ := hx
  obtain ⟨n1, n2⟩ := Builder.namedLoop_ok hnamed
  rw [e1] at n1 n2
  rw [e2] at n2
  split at hx
  · simp only [Res.pure_eq, Res.ok.injEq] at hx
    rw [← hx] at ha
    intro i hi
    have : nNamed f.data f = 0 := ha.u16
    omega
  · simp only [Res.bind_eq_ok, Res.pure_eq, Res.ok.injEq] at hx
    obtain ⟨_, _, hx⟩ := hx
    have hp : (isort Builder.nameLe named).Perm named := isort_perm _ _
    have hl := hp.length_eq
    generalize isort Builder.nameLe named = sorted at *
    have hlen : named.length ≤ b.glyphOrder.length := by
      have := n1.length_le
      simpa using this
    have hids : (sorted.map fun e => appendUint16LE [] ((b'.glyphIndex e.1).getD 0)).flatten.length =
        2 * sorted.length := by
      rw [flatten_length, List.map_map]
      have : (sorted.map (List.length ∘ fun e => appendUint16LE [] ((b'.glyphIndex e.1).getD 0))) =
          List.replicate sorted.length 2 := by
        rw [List.eq_replicate_iff]
        refine ⟨by simp, fun x hx => ?_⟩
        obtain ⟨e, _, rfl⟩ := List.mem_map.1 hx
        rfl
      rw [this, List.sum_replicate_nat, Nat.mul_comm]
    have hsum : ((sorted.map (·.2)).map List.length).sum ≤ 32 * sorted.length := by
      have := sum_length_le (l := sorted.map (·.2)) (n := 32) (fun x hx => by
        obtain ⟨e, he, rfl⟩ := List.mem_map.1 hx
        obtain ⟨_, _, g, h1, h2⟩ := (n2 e.1 e.2).1 (hp.mem_iff.1 he)
        rw [← h2]; exact hg _ _ h1)
      simpa using this
    rw [← hx] at ha
    have hn : nNamed f.data f = sorted.length := by
      have := ha.left.left.left.u16
      rw [nNamed]; omega
    have a := ha.left.right
    rw [List.length_append, hids, append16, le16_length] at a
    intro i hi
    have e : glyphNameEnds f.data f = f.offGlyphNames + (2 + 2 * sorted.length) := by
      rw [glyphNameEnds, hn]; omega
    rw [e, gap24 a (by omega) (i := i) (by simp; omega)]
    omega

theorem masks_inner (h : Built env b b' f s w bi)
    (hs : f.offWords ≤ f.offGlyphMasks + 3 * b.glyphOrder.length + 16777215) :
    ∀ i < nGlyphs f.data f, start24 f.data f.offGlyphMasks i + placementSize f.data f ≤
      end24 f.data f.offGlyphMasks i := by
  obtain ⟨blocks, hb, he⟩ := h.glyphMasks_eq
  obtain ⟨hl, hbi⟩ := mapRes_ok hb
  have ha := h.atGlyphMasks
  have hw := h.offWords
  rw [he] at ha
  rw [he, List.length_append, ends24_length, flatten_length, List.length_map, hl] at hw
  obtain ⟨-, hn, -, hv, -⟩ := h.metrics_facts
  intro i hi
  rw [nGlyphs, hn] at hi
  have hbl : i < blocks.length := by omega
  rw [gap24 ha.left (by omega) (i := i) (by simpa using hbl), List.getElem_map]
  have := hbi i (by omega) hbl
  simp only [Builder.glyphBlock, Res.bind_eq_ok] at this
  obtain ⟨g, _, hg⟩ := this
  have := (Mask.appendRasterOps_prefix hg).length_le
  refine Nat.add_le_add_left (Nat.le_trans ?_ this) _
  rw [Builder.placementBytes, placementSize, hv]
  cases b.hasVertLayout <;> simp

theorem words_inner (h : Built env b b' f s w bi) (hf : Fair env) (hs : SettingsOk b.settings)
    (hz : ∃ k, 0 < k ∧ k < 256 ∧ env.predef k = env.predef 0) :
    ∀ i < nWords f.data f, start16 f.data (f.offWords + 1) i < end16 f.data (f.offWords + 1) i := by
  obtain ⟨cust, hst, _⟩ := words_built h hf hz
  have hx := h.wordBytes
  have ha := h.atWords
  simp only [Builder.wordsSection, ite_panic] at hx
  obtain ⟨h255, hx⟩ := hx
  split at hx
  · simp only [Res.pure_eq, Res.ok.injEq] at hx
    rw [← hx] at ha
    intro i hi
    have : nWords f.data f = 0 := ha.byte
    omega
  · simp only [Res.bind_eq_ok, Res.pure_eq, Res.ok.injEq] at hx
    obtain ⟨_, _, hx⟩ := hx
    have hp1 := hf.ends w.keys
    have hwl : w.keys.length = w.length := by simp [GoMap.keys]
    generalize env.wordEndsOrder w.keys = L1 at *
    have hL1 : ∀ x ∈ L1, x ≠ [] ∧ x.length ≤ 32 := by
      intro x hx
      obtain ⟨st, hst', hxo⟩ := hst.option x (hst.perm.mem_iff.1 (hp1.mem_iff.1 hx))
      exact hs.option st hst' x hxo
    have hl1 : L1.length = w.length := by rw [hp1.length_eq, hwl]
    have h1 : (L1.map List.length).sum ≤ 32 * L1.length := sum_length_le fun x hx => (hL1 x hx).2
    rw [← hx] at ha
    have hn : nWords f.data f = w.length := by
      rw [nWords, ha.left.left.byte, byte_val]; omega
    intro i hi
    have a : At f.data (f.offWords + 1) (ends16 0 (L1.map List.length)) := ha.left.right
    rw [gap16 a (by omega) (i := i) (by simp; omega), List.getElem_map]
    have := List.length_pos_iff.2 (hL1 _ (List.getElem_mem (by omega : i < L1.length))).1
    omega

theorem settings_inner (h : Built env b b' f s w bi) (hs : SettingsOk b.settings) :
    nSettings f.data f = b.settings.length ∧ ∀ i (hi : i < b.settings.length),
      start16 f.data (f.offSettingNames + 1) i ≤ end16 f.data (f.offSettingNames + 1) i ∧
      end16 f.data f.offSettingDefs i = start16 f.data f.offSettingDefs i + b.settings[i].options.length := by
  obtain ⟨_, n2, n3⟩ := numSettings_built h
  refine ⟨n3, fun i hi => ⟨?_, ?_⟩⟩
  · have hx := h.settingNames
    have ha := h.atSettingNames
    have e1 : b'.settings = b.settings := by rw [h.b'_eq]
    simp only [Builder.settingNamesSection, ite_panic, Res.ok.injEq, e1] at hx
    have h1 : (b.settings.map fun s => s.name.length).sum ≤ 32 * b.settings.length :=
      sum_map_le fun x hx => (hs.name x hx).2
    rw [← hx.2] at ha
    have := gap16 ha.left.right (by omega) (i := i) (by simpa using hi)
    rw [show List.length [byte b.settings.length] = 1 from rfl] at this
    omega
  · have hx := h.settingDefs
    have ha := h.atSettingDefs
    have e1 : b'.settings = b.settings := by rw [h.b'_eq]
    simp only [Builder.settingDefsSection, Res.bind_eq_ok, Res.pure_eq, Res.ok.injEq, e1] at hx
    obtain ⟨blocks, hb, hx⟩ := hx
    have h1 : (b.settings.map fun s => s.options.length).sum ≤ 255 * b.settings.length :=
      sum_map_le fun x hx => hs.options x hx
    rw [← hx] at ha
    rw [gap16 ha.left (by omega) (i := i) (by simpa using hi), List.getElem_map]

theorem switches_inner (h : Built env b b' f s w bi) (hne : ∀ x ∈ b.switches, x ≠ []) :
    ∀ i < nSwitches f.data f, start16 f.data (f.offSwitches + 1) i < end16 f.data (f.offSwitches + 1) i := by
  intro i hi
  have hn : nSwitches f.data f ≤ b.switches.length := by
    have hs := h.switches
    have ha := h.atSwitches
    have e2 : b'.switches = b.switches := by rw [h.b'_eq]
    simp only [Builder.switchesSection, Res.bind_eq_ok, ite_panic, Res.pure_eq, Res.ok.injEq, e2] at hs
    obtain ⟨h1, _, h2, hx⟩ := hs
    rw [← hx] at ha
    rw [nSwitches, ha.left.left.byte, byte_val]
    omega
  obtain ⟨_, _, h3, _⟩ := switch_built h (k := i) (by omega)
  have := List.length_pos_iff.2 (hne _ (List.getElem_mem (by omega : i < b.switches.length)))
  omega

theorem mapping_inner (h : Built env b b' f s w bi)
    (hs : f.offConditions ≤ f.offMapping + (2 + 7 * b.runeMapping.length) + 16777215) :
    ∀ i < nEntries f.data f, start24 f.data (mappingEnds f.data f) i < end24 f.data (mappingEnds f.data f) i := by
  have hx := h.mapping
  have ha := h.atMapping
  obtain ⟨-, -, -, -, -, -, -, -, -, -, ho, -⟩ := h.offs
  have e1 : b'.runeMapping = b.runeMapping := by rw [h.b'_eq]
  simp only [Builder.mappingSection, ite_panic, Res.bind_eq_ok, Res.pure_eq, Res.ok.injEq, e1] at hx
  obtain ⟨hmax, _, blocks, hb, hx⟩ := hx
  have hsl : (isort (fun x y => decide (x ≤ y)) b.runeMapping.keys).length = b.runeMapping.length := by
    rw [(isort_perm _ _).length_eq, GoMap.keys, List.length_map]
  generalize isort (fun x y => decide (x ≤ y)) b.runeMapping.keys = sorted at *
  obtain ⟨hl, hbi⟩ := Builder.entriesLoop_ok hb
  have hkeys : (sorted.map fun c => appendUint32LE [] c.toNat).flatten.length = 4 * sorted.length := by
    rw [flatten_length, List.map_map]
    have : (sorted.map (List.length ∘ fun c => appendUint32LE [] c.toNat)) = List.replicate sorted.length 4 := by
      rw [List.eq_replicate_iff]
      refine ⟨by simp, fun x hx => ?_⟩
      obtain ⟨e, _, rfl⟩ := List.mem_map.1 hx
      rfl
    rw [this, List.sum_replicate_nat, Nat.mul_comm]
  have hlen := congrArg List.length hx
  have hln : (blocks.map List.length).length = b.runeMapping.length := by rw [List.length_map]; omega
  simp only [List.length_append, append16, le16_length, hkeys, ends24_length, hln, flatten_length blocks] at hlen
  rw [maxGlyphs] at hmax
  rw [← hx] at ha
  have hn : nEntries f.data f = b.runeMapping.length := by
    have := ha.left.left.left.u16
    rw [nEntries]; omega
  have a := ha.left.right
  rw [List.length_append, hkeys, append16, le16_length] at a
  intro i hi
  have e : mappingEnds f.data f = f.offMapping + (2 + 4 * sorted.length) := by
    rw [mappingEnds, hn]; omega
  have hib : i < blocks.length := by omega
  rw [e, gap24 a (by omega) (i := i) (by simpa using hib), List.getElem_map]
  obtain ⟨m, l, _, _, h3⟩ := hbi i (by omega) hib
  have : 0 < blocks[i].length := by
    revert h3
    generalize blocks[i] = x
    intro h3
    rw [Builder.entryBytes] at h3
    split at h3
    · split at h3
      · split at h3
        · simp only [Res.bind_eq_ok, Res.pure_eq, Res.ok.injEq] at h3
          obtain ⟨i, _, rfl⟩ := h3
          simp
        · cases h3
      · cases h3
    · split at h3
      · split at h3
        · simp only [ite_panic, Res.bind_eq_ok, Res.pure_eq, Res.ok.injEq] at h3
          obtain ⟨_, y, hy, rfl⟩ := h3
          simp
        · cases h3
      · simp only [Res.bind_eq_ok, Res.pure_eq, Res.ok.injEq] at h3
        obtain ⟨y, hy, rfl⟩ := h3
        simp
  omega

theorem glyphSets_inner (h : Built env b b' f s w bi) :
    ∀ i < nGlyphSets f.data f, start16 f.data (f.offGlyphSets + 1) i < end16 f.data (f.offGlyphSets + 1) i := by
  have hx := h.glyphSets
  have ha := h.atGlyphSets
  simp only [Builder.glyphSetsSection, ite_panic, Res.bind_eq_ok, Res.pure_eq, Res.ok.injEq] at hx
  obtain ⟨hcount, hord, _, hc, blocks, hb, hx⟩ := hx
  obtain ⟨_, h2, h3⟩ := checkSets_ok hc
  have hset : b'.setsInOrder.length = b'.glyphSetsOrder.length := h2
  have hsum : (b'.setsInOrder.map Builder.setSize).sum ≤ 65535 := by
    have : 0 + (b'.setsInOrder.map Builder.setSize).sum ≤ 65535 := h3 (by omega)
    omega
  rw [← hx] at ha
  have hn : nGlyphSets f.data f = b'.glyphSets.length := by
    rw [nGlyphSets, ha.left.left.byte, byte_val]; omega
  intro i hi
  have a : At f.data (f.offGlyphSets + 1) (ends16 0 (b'.setsInOrder.map Builder.setSize)) := ha.left.right
  rw [gap16 a hsum (i := i) (by simp; omega), List.getElem_map]
  have : 0 < Builder.setSize (b'.setsInOrder[i]'(by omega)) := by rw [Builder.setSize]; omega
  omega

theorem rules_inner {D : Bytes} {o : Nat} {rule : Rule → Res Bytes} {rules : List Rule} {x : Bytes}
    (ha : At D o x) (hx : Builder.rulesSection rule rules = .ok x) :
    ∀ i < u16At D o, start24 D (o + 2) i ≤ end24 D (o + 2) i := by
  simp only [Builder.rulesSection, ite_panic, Res.bind_eq_ok, Res.pure_eq, Res.ok.injEq] at hx
  obtain ⟨hn, blocks, hb, hx⟩ := hx
  obtain ⟨h1, h2, h3⟩ := rulesLoop_ok hb
  have h2 := h2 (by omega)
  rw [← hx] at ha
  have hc : u16At D o = rules.length := by
    have := ha.left.left.u16
    omega
  intro i hi
  have a := ha.left.right
  rw [append16, le16_length] at a
  rw [gap24 a (by omega) (i := i) (by simp; omega)]
  omega

/-- The end offsets are in order exactly when no color and no setting is empty. -/
theorem inner_iff (h : Built env b b' f s w bi) (hk : Kept b) (hf : Fair env)
    (hz : ∃ k, 0 < k ∧ k < 256 ∧ env.predef k = env.predef 0) (ht : SizesFit b' f) :
    InnerOk f.data f ↔ (∀ d ∈ b'.dyes, d.name ≠ [] ∧ d.alphas ≠ []) ∧
      (∀ p ∈ b'.palettes, p.name ≠ [] ∧ p.colors ≠ []) ∧ ∀ s ∈ b.settings, s.options ≠ [] := by
  obtain ⟨d1, d2⟩ := h.dyes_inner ht.dyeNames
  obtain ⟨p1, p2⟩ := h.palettes_inner ht.paletteNames
  obtain ⟨s1, s2⟩ := h.settings_inner hk.settings
  have e1 : b'.runeMapping = b.runeMapping := by rw [h.b'_eq]
  have e2 : b'.glyphOrder = b.glyphOrder := by rw [h.b'_eq]
  have hmasks := ht.masks
  have hmapping := ht.mapping
  rw [e1] at hmapping
  rw [e2] at hmasks
  constructor
  · intro hI
    refine ⟨fun d hd => ?_, fun d hd => ?_, fun d hd => ?_⟩
    · obtain ⟨i, hi, rfl⟩ := List.getElem_of_mem hd
      have h1 := hI.dyeColors i (by omega)
      have h2 := hI.dyeNames i (by omega)
      obtain ⟨g1, g2⟩ := d2 i hi
      exact ⟨fun e => by rw [e] at g2; simp at g2; omega, fun e => by rw [e] at g1; simp at g1; omega⟩
    · obtain ⟨i, hi, rfl⟩ := List.getElem_of_mem hd
      have h1 := hI.paletteColors i (by omega)
      have h2 := hI.paletteNames i (by omega)
      obtain ⟨g1, g2⟩ := p2 i hi
      exact ⟨fun e => by rw [e] at g2; simp at g2; omega, fun e => by rw [e] at g1; simp at g1; omega⟩
    · obtain ⟨i, hi, rfl⟩ := List.getElem_of_mem hd
      have h1 := (hI.settings i (by omega)).1
      obtain ⟨g1, g2⟩ := s2 i hi
      exact fun e => by rw [e] at g2; simp at g2; omega
  · intro ⟨hd, hp, hs⟩
    refine ⟨fun i hi => ?_, fun i hi => ?_, fun i hi => ?_, fun i hi => ?_, h.glyphNames_inner hk.glyphNames,
      h.masks_inner hmasks, h.words_inner hf hk.settings hz, fun i hi => (s2 i (by omega)).1, fun i hi => ?_,
      h.switches_inner hk.switches, h.mapping_inner hmapping, fun i hi => ?_, h.glyphSets_inner,
      rules_inner h.atUtf8Rules h.utf8Rules, rules_inner h.atGlyphRules h.glyphRules⟩
    · rw [d1] at hi
      have := List.length_pos_iff.2 (hd _ (List.getElem_mem hi)).2
      have := (d2 i hi).1
      omega
    · rw [d1] at hi
      have := List.length_pos_iff.2 (hd _ (List.getElem_mem hi)).1
      have := (d2 i hi).2
      omega
    · rw [p1] at hi
      have := List.length_pos_iff.2 (hp _ (List.getElem_mem hi)).2
      have := (p2 i hi).1
      omega
    · rw [p1] at hi
      have := List.length_pos_iff.2 (hp _ (List.getElem_mem hi)).1
      have := (p2 i hi).2
      omega
    · rw [s1] at hi
      have := List.length_pos_iff.2 (hs _ (List.getElem_mem hi))
      have := hk.settings.options _ (List.getElem_mem hi)
      have := (s2 i hi).2
      omega
    · have := h.utf8Sets_facts.1
      rw [nUtf8Sets] at hi
      omega

end Built
end BuilderModel
