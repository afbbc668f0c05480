import Verif.Spec.Document
import Verif.Lemmas.BuiltAccept
import Verif.Lemmas.BuiltInner
import Verif.Lemmas.BuiltNames
import Verif.Lemmas.BuiltRewrites
import Verif.Lemmas.Mapping
import Verif.Lemmas.RuleHistory
import Verif.Lemmas.Switch
import Verif.Spec.ReadBack

/-! # The demands of the specification for built fonts -/

namespace BuilderModel
open Go Helpers FontModel Spec

theorem block16_eq {D : Bytes} {o p : Nat} {blocks : List Bytes} (h : At D o (ends16 0 (blocks.map List.length)))
    (hp : At D p blocks.flatten) (hs : (blocks.map List.length).sum ≤ 65535) {i : Nat} (hi : i < blocks.length) :
    block16 D o p i = blocks[i] := by
  obtain ⟨e1, e2⟩ := bounds16 h hs (i := i) (by simpa using hi)
  have := psum_succ (l := blocks.map List.length) (i := i) (by simpa using hi)
  rw [List.getElem_map] at this
  rw [block16, e1, e2, this, Nat.add_sub_cancel_left]
  exact (hp.block hi).sub

theorem block24_eq {D : Bytes} {o p : Nat} {blocks : List Bytes} (h : At D o (ends24 0 (blocks.map List.length)))
    (hp : At D p blocks.flatten) (hs : (blocks.map List.length).sum ≤ 16777215) {i : Nat} (hi : i < blocks.length) :
    block24 D o p i = blocks[i] := by
  obtain ⟨e1, e2⟩ := bounds24 h hs (i := i) (by simpa using hi)
  have := psum_succ (l := blocks.map List.length) (i := i) (by simpa using hi)
  rw [List.getElem_map] at this
  rw [block24, e1, e2, this, Nat.add_sub_cancel_left]
  exact (hp.block hi).sub

theorem nthGlyphName_inv {f : Font} {i n : Nat} {x : Bytes} (hn : n = nNamed f.data f)
    (hb : glyphNameEnds f.data f + 3 * i + 3 ≤ f.data.length) (hx : f.nthGlyphName i n = .ok x) :
    glyphNameAt f i = x := by
  have key : ∀ a b, slice f.data a b = .ok x → sub f.data a (b - a) = x := by
    intro a b h
    unfold slice at h
    split at h
    · rw [Spec.sub, ← List.drop_take]; exact Res.ok.inj h
    · cases h
  subst hn
  unfold Font.nthGlyphName at hx
  simp only [Font.shl1] at hx
  have e1 : f.offGlyphNames + 2 + 2 * nNamed f.data f = glyphNameEnds f.data f := rfl
  rw [e1] at hx
  have e2 : glyphNameEnds f.data f + 2 * nNamed f.data f + nNamed f.data f = glyphNameData f.data f := by
    unfold glyphNameData; omega
  have e3 : glyphNameEnds f.data f + 2 * i + i = glyphNameEnds f.data f + 3 * i := by omega
  rw [e2, e3, rd24_eq (by omega), Res.ok_bind] at hx
  have e4 : u24At f.data (glyphNameEnds f.data f + 3 * i) = end24 f.data (glyphNameEnds f.data f) i := rfl
  rw [e4] at hx
  unfold glyphNameAt block24
  by_cases hi : i = 0
  · subst hi
    have e5 : start24 f.data (glyphNameEnds f.data f) 0 = 0 := rfl
    rw [if_pos rfl] at hx
    rw [e5, ← key _ _ hx]
    congr 1; omega
  · rw [if_neg hi, rd24_eq (by omega), Res.ok_bind] at hx
    have e5 : u24At f.data (glyphNameEnds f.data f + 3 * i - 3) =
        start24 f.data (glyphNameEnds f.data f) i := by
      rw [start24_succ _ _ _ (by omega), end24]; congr 1; omega
    rw [e5] at hx
    rw [← key _ _ hx]
    congr 1; omega

/-! ## Rules -/

theorem sum_le_mul {w : Nat} : ∀ {l : List Nat}, (∀ a ∈ l, a ≤ w) → l.sum ≤ l.length * w
  | [], _ => by simp
  | a :: l, h => by
    have h1 := h a (by simp)
    have h2 := sum_le_mul (l := l) fun x hx => h x (List.mem_cons_of_mem _ hx)
    rw [List.sum_cons, List.length_cons, Nat.succ_mul]
    omega

namespace Builder

/-- The bytes of a pending fragment, at most. -/
def room (w : Nat) (s : RuleState) : Nat := s.data.length + (s.accGroups + s.accElems) * (w + 1)

theorem flushFragment_room {group : Nat → Res UInt8} {elem : Nat → Res Bytes} {r : Rule} {s s' : RuleState} {w : Nat}
    (hw : ∀ u y, elem u = .ok y → y.length ≤ w) (hw1 : 1 ≤ w) (hp : 0 < s.accGroups + s.accElems)
    (h : flushFragment group elem r s = .ok s') :
    s'.data.length ≤ room w s ∧ s'.accGroups = 0 ∧ s'.accElems = 0 := by
  simp only [flushFragment, fragmentBytes, Res.bind_eq_ok, Res.pure_eq, Res.ok.injEq] at h
  obtain ⟨gs, hg, es, he, x, ⟨y, hy, z, hz, rfl⟩, rfl⟩ := h
  refine ⟨?_, rfl, rfl⟩
  obtain ⟨l1, _⟩ := mapRes_ok hy
  obtain ⟨l2, l3⟩ := mapRes_ok hz
  have hgl : gs.length ≤ s.accGroups := by
    unfold slice at hg
    split at hg
    · have := Res.ok.inj hg; subst this; simp; omega
    · cases hg
  have hel : es.length ≤ s.accElems := by
    unfold slice at he
    split at he
    · have := Res.ok.inj he; subst this; simp; omega
    · cases he
  have hzl : z.flatten.length ≤ es.length * w := by
    rw [flatten_length]
    have : ∀ a ∈ z.map List.length, a ≤ w := by
      intro a ha
      obtain ⟨q, hq, rfl⟩ := List.mem_map.1 ha
      obtain ⟨i, hi, rfl⟩ := List.getElem_of_mem hq
      exact hw _ _ (l3 i (by omega) hi)
    have := sum_le_mul this
    simpa [l2] using this
  have h1 : es.length * w ≤ s.accElems * w := Nat.mul_le_mul_right _ hel
  have h2 : s.accGroups ≤ s.accGroups * w := Nat.le_mul_of_pos_right _ hw1
  simp only [room, List.length_append, List.length_singleton, l1, Nat.mul_add, Nat.add_mul, Nat.mul_one]
  omega

theorem blockLoop_room {group : Nat → Res UInt8} {elem : Nat → Res Bytes} {r : Rule} {w : Nat}
    (hw : ∀ u y, elem u = .ok y → y.length ≤ w) (hw1 : 1 ≤ w) :
    ∀ {n : Nat} {s s' : RuleState} {has has' : Bool}, blockLoop group elem r n s has = .ok (s', has') →
    room w s' ≤ room w s + n * (w + 1)
  | 0, s, s', has, has', h => by
    simp only [blockLoop, Res.ok.injEq, Prod.mk.injEq] at h
    rw [h.1]; omega
  | n + 1, s, s', has, has', h => by
    rw [blockLoop, Res.bind_eq_ok] at h
    obtain ⟨g, _, h⟩ := h
    rw [Res.bind_eq_ok] at h
    obtain ⟨s1, h1, h⟩ := h
    have ih := blockLoop_room hw hw1 h
    have h1' : room w s1 ≤ room w s := by
      by_cases hf : (if g = true then decide (s.accElems ≠ 0 ∨ s.accGroups = 15)
          else decide (s.accElems = 15)) = true
      · rw [if_pos hf] at h1
        have hp : 0 < s.accGroups + s.accElems := by
          cases g <;> simp at hf <;> omega
        obtain ⟨a, b, c⟩ := flushFragment_room hw hw1 hp h1
        simp only [room, b, c] at a ⊢; omega
      · rw [if_neg hf] at h1
        rw [Res.ok.inj h1]
    have e : ∀ a b : Nat, (a + 1 + b) * (w + 1) = (a + b) * (w + 1) + (w + 1) := by
      intro a b; rw [← Nat.succ_mul]; congr 1; omega
    have e' : ∀ a b : Nat, (a + (b + 1)) * (w + 1) = (a + b) * (w + 1) + (w + 1) := by
      intro a b; rw [← Nat.succ_mul]; rfl
    have : room w (if g = true then { s1 with accGroups := s1.accGroups + 1 }
        else { s1 with accElems := s1.accElems + 1 }) = room w s1 + (w + 1) := by
      cases g
      · simp only [room, Bool.false_eq_true, if_false, e']; omega
      · simp only [room, if_true, e]; omega
    have e2 : ∀ s : RuleState, room w { s with inIndex := s.inIndex + 1 } = room w s := fun _ => rfl
    rw [e2, this] at ih
    have : (n + 1) * (w + 1) = n * (w + 1) + (w + 1) := Nat.succ_mul _ _
    omega

theorem blockBytes_room {group : Nat → Res UInt8} {elem : Nat → Res Bytes} {r : Rule} {w : Nat}
    (hw : ∀ u y, elem u = .ok y → y.length ≤ w) (hw1 : 1 ≤ w) {n : Nat} {s s' : RuleState}
    (h : blockBytes group elem r n s = .ok s') (h0 : s.accGroups = 0 ∧ s.accElems = 0) :
    s'.data.length ≤ s.data.length + n * (w + 1) + 1 ∧ s'.accGroups = 0 ∧ s'.accElems = 0 := by
  rw [blockBytes, Res.bind_eq_ok] at h
  obtain ⟨⟨s1, has⟩, h1, h⟩ := h
  have hr := blockLoop_room hw hw1 h1
  have e : room w s = s.data.length := by simp [room, h0]
  rw [e] at hr
  simp only at h
  split at h
  · rename_i hp
    obtain ⟨a, b, c⟩ := flushFragment_room hw hw1 (by omega) h
    exact ⟨by omega, b, c⟩
  · rename_i hp
    have z : s1.accGroups = 0 ∧ s1.accElems = 0 := by omega
    have e1 : room w s1 = s1.data.length := by simp [room, z]
    rw [e1] at hr
    split at h <;> simp only [Res.pure_eq, Res.ok.injEq] at h <;> subst h
    · exact ⟨by simp; omega, z⟩
    · exact ⟨by omega, z⟩

/-- The length of a rule. -/
theorem ruleBytes_room {group : Nat → Res UInt8} {elem : Nat → Res Bytes} {r : Rule} {x : Bytes} {w : Nat}
    (hw : ∀ u y, elem u = .ok y → y.length ≤ w) (hw1 : 1 ≤ w) (h : ruleBytes group elem r = .ok x) :
    x.length ≤ 8 + r.output.length * w + (r.headLen + r.bodyLen + r.tailLen) * (w + 1) ∧ r.bodyLen ≠ 0 := by
  simp only [ruleBytes, ite_panic, Res.bind_eq_ok, Res.pure_eq, Res.ok.injEq] at h
  obtain ⟨_, hb, _, out, ho, s1, hs1, s2, hs2, s3, hs3, rfl⟩ := h
  refine ⟨?_, hb⟩
  obtain ⟨a1, z1⟩ := blockBytes_room hw hw1 hs1 ⟨rfl, rfl⟩
  obtain ⟨a2, z2⟩ := blockBytes_room hw hw1 hs2 z1
  obtain ⟨a3, z3⟩ := blockBytes_room hw hw1 hs3 z2
  obtain ⟨l2, l3⟩ := mapRes_ok ho
  have hzl : out.flatten.length ≤ r.output.length * w := by
    rw [flatten_length]
    have : ∀ a ∈ out.map List.length, a ≤ w := by
      intro a ha
      obtain ⟨q, hq, rfl⟩ := List.mem_map.1 ha
      obtain ⟨i, hi, rfl⟩ := List.getElem_of_mem hq
      exact hw _ _ (l3 i (by omega) hi)
    have := sum_le_mul this
    simpa [l2] using this
  simp only [List.length_append, List.length_cons, List.length_nil] at a1
  simp only [Nat.add_mul] at *
  omega

end Builder

/-- The rules in the data. -/
theorem rules_at {D : Bytes} {o : Nat} {rule : Rule → Res Bytes} {rules : List Rule} {x : Bytes}
    (ha : At D o x) (hs : Builder.rulesSection rule rules = .ok x) :
    u16At D o = rules.length ∧ ∀ i (hi : i < rules.length), ∃ bytes, rule rules[i] = .ok bytes ∧
      block24 D (o + 2) (o + 2 + 3 * rules.length) i = bytes ∧
      end24 D (o + 2) i - start24 D (o + 2) i = bytes.length := by
  simp only [Builder.rulesSection, ite_panic, Res.bind_eq_ok, Res.pure_eq, Res.ok.injEq] at hs
  obtain ⟨hn, blocks, hb, rfl⟩ := hs
  obtain ⟨h1, h2, h3⟩ := rulesLoop_ok hb
  have hnum := ha.left.left.u16
  rw [Nat.mod_eq_of_lt (by omega)] at hnum
  refine ⟨hnum, fun i hi => ?_⟩
  have hib : i < blocks.length := by omega
  refine ⟨blocks[i], h3 i hi hib, ?_⟩
  have hends := ha.left.right
  have hblocks := ha.right
  have hl2 : (appendUint16LE [] rules.length).length = 2 := rfl
  rw [List.length_append, hl2, ends24_length, List.length_map, h1, ← Nat.add_assoc] at hblocks
  rw [hl2] at hends
  have hsum : (blocks.map List.length).sum ≤ 16777215 := by have := h2 (by omega); omega
  refine ⟨block24_eq hends hblocks hsum hib, ?_⟩
  rw [gap24 hends hsum (i := i) (by simpa using hib), List.getElem_map]
  omega

/-! ## Kerning -/

theorem kern_sorted {b : Builder} (hn : b.glyphOrder.Nodup) (hl : b.glyphOrder.length ≤ 65536)
    {pairs values : GoMap (Nat × Nat) KernPair} (hk : (pairs.map Prod.fst).Nodup) (hcount : pairs.length ≤ 16777215)
    {x D : Bytes} {o : Nat} (ha : At D o x) (h : b.kernSection pairs values = .ok x) :
    ∀ i < u24At D o - 1, u32At D (o + 3 + 4 * i) < u32At D (o + 3 + 4 * (i + 1)) := by
  have hk : pairs.keys.Nodup := hk
  simp only [Builder.kernSection, Res.bind_eq_ok] at h
  obtain ⟨ks, hks, h⟩ := h
  simp only [ite_panic, Res.bind_eq_ok, Res.pure_eq, Res.ok.injEq] at h
  obtain ⟨_, vs, _, rfl⟩ := h
  obtain ⟨hl1, hks⟩ := mapRes_ok hks
  have hperm : (isort natLe ks).Perm ks := isort_nat_perm _
  have hlen := hperm.length_eq
  have hkl : pairs.keys.length = pairs.length := by simp [GoMap.keys]
  generalize hsd : isort natLe ks = sorted at *
  have hinj : ∀ a c (h1 : a < ks.length) (h2 : c < ks.length), ks[a] = ks[c] → a = c := by
    intro a c h1 h2 he
    obtain ⟨i, j, hi, hj, e⟩ := (Builder.pairKey_iff hn hl).1 (hks a (by omega) h1)
    obtain ⟨i', j', hi', hj', e'⟩ := (Builder.pairKey_iff hn hl).1 (hks c (by omega) h2)
    have hb : ∀ {i u : Nat}, b.glyphOrder[i]? = some u → i < 65536 := by
      intro i u h
      obtain ⟨h, _⟩ := List.getElem?_eq_some_iff.1 h
      omega
    have := hb hi; have := hb hj; have := hb hi'; have := hb hj'
    obtain rfl : i = i' := by omega
    obtain rfl : j = j' := by omega
    refine nodup_inj hk (hi := by omega) (hj := by omega) (Prod.ext ?_ ?_)
    · rw [hi] at hi'; exact Option.some.inj hi'
    · rw [hj] at hj'; exact Option.some.inj hj'
  have hnd : sorted.Nodup := by
    rw [hperm.nodup_iff, List.nodup_iff_pairwise_ne, List.pairwise_iff_getElem]
    intro a c h1 h2 hac he
    have := hinj a c h1 h2 he
    omega
  have hle : sorted.Pairwise (fun a c => a ≤ c) := hsd ▸ isort_nat_pairwise _
  have hbound : ∀ a (h1 : a < sorted.length), sorted[a] < 4294967296 := by
    intro a h1
    have hm : sorted[a] ∈ ks := hperm.mem_iff.1 (List.getElem_mem h1)
    obtain ⟨c, hc1, hc2⟩ := List.getElem_of_mem hm
    obtain ⟨i, j, hi, hj, e⟩ := (Builder.pairKey_iff hn hl).1 (hks c (by omega) hc1)
    obtain ⟨hi, _⟩ := List.getElem?_eq_some_iff.1 hi
    obtain ⟨hj, _⟩ := List.getElem?_eq_some_iff.1 hj
    omega
  have ha1 := ha.left.left
  have ha2 := ha.left.right
  have hl24 : (Helpers.appendUint24LE [] pairs.length).length = 3 := rfl
  have hbl : ((sorted.map (Helpers.appendUint32LE [])).map List.length) =
      List.replicate sorted.length 4 := by
    rw [List.map_map, List.eq_replicate_iff]
    refine ⟨by simp, ?_⟩
    intro x hx
    simp only [List.mem_map, Function.comp_apply] at hx
    obtain ⟨y, _, rfl⟩ := hx
    rfl
  have hps : ∀ a, a ≤ sorted.length → psum (List.replicate sorted.length 4) a = 4 * a := by
    intro a ha
    rw [psum, List.take_replicate, Nat.min_eq_left ha, List.sum_replicate_nat, Nat.mul_comm]
  rw [hl24] at ha2
  have hu32 : ∀ a (h1 : a < sorted.length), u32At D (o + 3 + 4 * a) = sorted[a] := by
    intro a h1
    have := ha2.block (i := a) (by simpa using h1)
    rw [hbl, hps a (by omega), List.getElem_map] at this
    rw [this.u32, Nat.mod_eq_of_lt (hbound a h1)]
  intro i hi
  have hc : u24At D o = pairs.length := by
    have := ha1.u24
    omega
  have h2 : i + 1 < sorted.length := by omega
  rw [hu32 i (by omega), hu32 (i + 1) h2]
  have e1 := (List.pairwise_iff_getElem.1 hle) i (i + 1) (by omega) h2 (by omega)
  have e2 := (List.pairwise_iff_getElem.1 (List.nodup_iff_pairwise_ne.1 hnd)) i (i + 1) (by omega) h2 (by omega)
  omega

/-! ## The demands -/

namespace Built
variable {env : Env} {b b' : Builder} {f : Font} {s : Parts} {w bi : GoMap Bytes Int}

theorem glyphs_le (h : Built env b b' f s w bi) : b.glyphOrder.length ≤ 56789 := by
  have := h.count; have := h.order
  rw [maxGlyphs] at *; omega

theorem metrics_demands (h : Built env b b' f s w bi) : ∀ d ∈ [Demand.glyphCount, .vertLayout, .ascent, .extraAscent],
    d.Holds f := by
  obtain ⟨_, m1, m2, m3, m4, m5, m6, m7, m8⟩ := h.metrics_facts
  have := h.glyphs_le
  intro d hd
  simp only [List.mem_cons, List.not_mem_nil, or_false] at hd
  rcases hd with rfl | rfl | rfl | rfl <;> simp only [Demand.Holds, nGlyphs]
  · omega
  · rw [m3]; split <;> simp
  · omega
  · have hm := h.metricsOk
    rw [m4, m5]
    simp only [Builder.metricsStatus, ite_err] at hm
    exact UInt8.lt_iff_toNat_lt.1 (UInt8.not_le.1 hm.2.1)

theorem end_demands (h : Built env b b' f s w bi) (hk : Kept b) (hf : Fair env)
    (hz : ∃ k, 0 < k ∧ k < 256 ∧ env.predef k = env.predef 0) (ht : SizesFit b' f) (t : Spec.Table) :
    (Demand.ends t).Holds f := by
  have e1 : b'.runeMapping = b.runeMapping := by rw [h.b'_eq]
  have e2 : b'.glyphOrder = b.glyphOrder := by rw [h.b'_eq]
  have hmasks := ht.masks
  have hmapping := ht.mapping
  rw [e1] at hmapping
  rw [e2] at hmasks
  obtain ⟨d1, d2⟩ := h.dyes_inner ht.dyeNames
  obtain ⟨p1, p2⟩ := h.palettes_inner ht.paletteNames
  obtain ⟨s1, s2⟩ := h.settings_inner hk.settings
  obtain ⟨c1, _⟩ := h.conditions_facts hk.conditions
  obtain ⟨u1, _⟩ := h.utf8Sets_facts
  cases t <;> simp only [Demand.Holds, Spec.Table.Ordered]
  · intro i hi; have := (d2 i (by omega)).1; omega
  · intro i hi; have := (d2 i (by omega)).2; omega
  · intro i hi; have := (p2 i (by omega)).1; omega
  · intro i hi; have := (p2 i (by omega)).2; omega
  · exact h.glyphNames_inner hk.glyphNames
  · intro i hi; have := h.masks_inner hmasks i hi; omega
  · intro i hi; have := h.words_inner hf hk.settings hz i hi; omega
  · intro i hi; exact (s2 i (by omega)).1
  · intro i hi; have := (s2 i (by omega)).2; omega
  · intro i hi; have := h.switches_inner hk.switches i hi; omega
  · intro i hi; have := h.mapping_inner hmapping i hi; omega
  · intro i hi; rw [nConditions] at hi; omega
  · intro i hi; rw [nUtf8Sets] at hi; omega
  · intro i hi; have := h.glyphSets_inner i hi; omega
  · exact rules_inner h.atUtf8Rules h.utf8Rules
  · exact rules_inner h.atGlyphRules h.glyphRules

theorem name_demands (h : Built env b b' f s w bi) (hk : Kept b) (hf : Fair env)
    (hz : ∃ k, 0 < k ∧ k < 256 ∧ env.predef k = env.predef 0) (ht : SizesFit b' f) :
    Demand.glyphNameOrder.Holds f ∧ Demand.namedGlyphs.Holds f := by
  obtain ⟨names, ids, t, hs, hd, h1, _⟩ := built_names h hk.kern.order fun u g hg => by
    have := hk.glyphNames u g hg; omega
  obtain ⟨L, _⟩ := h.layout hk hf hz ht
  have hfit : f.offGlyphNames + glyphNamesSize f.data f.offGlyphNames ≤ f.data.length := by
    obtain ⟨m1, m2, m3, m4, m5, m6, m7, m8, m9, m10, m11, m12, m13, m14, m15, m16, hfit⟩ := L
    omega
  have hn : names.length = nNamed f.data f := by
    have := t.count
    rw [Font.namedCount, rd16_eq (by
      have : 2 ≤ glyphNamesSize f.data f.offGlyphNames := by unfold glyphNamesSize; simp only; split <;> omega
      omega)] at this
    exact (Res.ok.inj this).symm
  have ht := t.same
  obtain ⟨_, m1, _⟩ := h.metrics_facts
  have hsz : ∀ i < names.length, glyphNameEnds f.data f + 3 * i + 3 ≤ f.data.length := by
    intro i hi
    have : 2 + 5 * names.length ≤ glyphNamesSize f.data f.offGlyphNames := by
      have e : u16At f.data f.offGlyphNames = names.length := hn.symm
      unfold glyphNamesSize
      simp only [e]
      split <;> omega
    rw [glyphNameEnds, ← hn]
    omega
  have hat : ∀ i (hi : i < names.length), glyphNameAt f i = names[i] := fun i hi =>
    nthGlyphName_inv hn (hsz i hi) (t.name i hi)
  constructor
  · intro i hi
    have h2 : i + 1 < names.length := by omega
    rw [hat i (by omega), hat (i + 1) h2]
    have q1 := (List.pairwise_iff_getElem.1 hs) i (i + 1) (by omega) h2 (by omega)
    have q2 := (List.pairwise_iff_getElem.1 (List.nodup_iff_pairwise_ne.1 hd)) i (i + 1) (by omega) h2 (by omega)
    exact Std.lt_of_le_of_ne q1 q2
  · intro i hi
    have hi' : i < ids.length := by omega
    have e := t.id i hi'
    have := hsz i (by omega)
    rw [rd16_eq (by rw [glyphNameEnds] at this; omega)] at e
    obtain ⟨u, g, hu, _⟩ := h1 i (by omega) hi'
    obtain ⟨hlt, _⟩ := List.getElem?_eq_some_iff.1 hu
    left
    rw [Res.ok.inj e, nGlyphs, m1]
    exact hlt

theorem switch_demands (h : Built env b b' f s w bi) (hc : Calls b) (hk : Kept b) :
    nSwitches f.data f = b.switches.length ∧ Demand.switchCount.Holds f ∧ Demand.switchSettings.Holds f := by
  obtain ⟨_, _, n3⟩ := numSettings_built h
  have hn : nSwitches f.data f = b.switches.length := by
    have hs := h.switches
    have ha := h.atSwitches
    have e2 : b'.switches = b.switches := by rw [h.b'_eq]
    simp only [Builder.switchesSection, Res.bind_eq_ok, ite_panic, Res.pure_eq, Res.ok.injEq, e2] at hs
    obtain ⟨h1, _, h2, hx⟩ := hs
    rw [← hx] at ha
    have := ha.left.left.byte
    rw [byte_val] at this
    rw [nSwitches, this]
    omega
  refine ⟨hn, by have := hc.switches; simp only [Demand.Holds]; omega, fun i hi x hx => ?_⟩
  rw [hn] at hi
  obtain ⟨_, _, h3, h4⟩ := switch_built h hi
  have hset := (hc.switchSettings _ (List.getElem_mem hi)).2
  have hcount := hk.settings.count
  rw [n3]
  unfold switchAt block16 at hx
  rw [h3, Nat.add_sub_cancel_left, hn] at hx
  obtain ⟨j, hj, rfl⟩ := List.getElem_of_mem hx
  have hj2 : j < b.switches[i].length := by
    have := hj; rw [Spec.sub, List.length_take] at this; omega
  have hj3 : f.offSwitches + 1 + 2 * b.switches.length + start16 f.data (f.offSwitches + 1) i + j < f.data.length := by
    have := hj; rw [Spec.sub, List.length_take, List.length_drop] at this; omega
  have e := h4 j hj2
  rw [rd8_eq hj3] at e
  have e := Res.ok.inj e
  have := hset _ (List.getElem_mem hj2)
  rw [byteAt_eq hj3] at e
  simp only [Spec.sub, List.getElem_take, List.getElem_drop]
  rw [e]
  omega

theorem mapping_demands (h : Built env b b' f s w bi) (hc : Calls b) (hk : Kept b) (ht : SizesFit b' f) :
    Demand.codePoints.Holds f ∧ Demand.mappingSwitch.Holds f := by
  obtain ⟨cs, blocks, t⟩ := built_table h hk.mapping.keys fun c hc => by
    obtain ⟨e, he, rfl⟩ := List.mem_map.1 hc
    exact hk.mapping.runes e he
  have e1 : b'.runeMapping = b.runeMapping := by rw [h.b'_eq]
  have hmapping := ht.mapping
  rw [e1] at hmapping
  have hsum : (blocks.map List.length).sum ≤ 16777215 := by have := t.size; omega
  have hnum := t.num
  have hlen := t.len
  constructor
  · intro i hi
    exact t.sorted i (i + 1) (by omega) (by omega)
  · intro i hi
    have hib : i < blocks.length := by omega
    have hm : mappingAt f i = blocks[i] := block24_eq t.atEnds t.atData hsum hib
    rw [hm]
    obtain ⟨e, l, g1, g2, g3⟩ := t.entries i (by omega) hib
    have shape := hc.entries _ (GoMap.mem_of_get g1)
    have hb : ∃ rest, blocks[i] = byte e.switchType :: rest := by
      revert g3
      generalize blocks[i] = x
      intro h3
      rw [Builder.entryBytes] at h3
      split at h3
      · split at h3
        · split at h3
          · simp only [Res.bind_eq_ok, Res.pure_eq, Res.ok.injEq] at h3
            obtain ⟨i, _, rfl⟩ := h3
            exact ⟨_, rfl⟩
          · cases h3
        · cases h3
      · split at h3
        · split at h3
          · simp only [ite_panic, Res.bind_eq_ok, Res.pure_eq, Res.ok.injEq] at h3
            obtain ⟨_, y, hy, rfl⟩ := h3
            exact ⟨_, rfl⟩
          · cases h3
        · simp only [Res.bind_eq_ok, Res.pure_eq, Res.ok.injEq] at h3
          obtain ⟨y, hy, rfl⟩ := h3
          exact ⟨_, rfl⟩
    obtain ⟨rest, hrest⟩ := hb
    have e0 : byteAt (byte e.switchType :: rest) 0 = e.switchType % 256 := by
      rw [byteAt_eq (by simp), List.getElem_cons_zero, byte_val]
    rw [hrest, e0]
    simp only [EntryShape] at shape
    rcases shape with ⟨h1, _⟩ | ⟨h1, _⟩ | ⟨h1, h2, _⟩
    · right; right; omega
    · right; left; omega
    · left
      rw [Builder.computeNumSwitchCases, if_neg (by omega), Res.bind_eq_ok] at h2
      obtain ⟨y, hy, _⟩ := h2
      have := (List.getElem?_eq_some_iff.1 (idx_eq_ok.1 hy)).1
      rw [(h.switch_demands hc hk).1, Nat.mod_eq_of_lt (by omega)]
      exact this

theorem rule_demands (h : Built env b b' f s w bi) (hr : MadeRules b) (hk : Kept b) (u : Bool) :
    (Demand.ruleCondition u).Holds f ∧ (Demand.ruleBody u).Holds f ∧ (Demand.ruleBlocks u).Holds f ∧
    (Demand.ruleSize u).Holds f ∧ (u = true → (Demand.ruleOutput u).Holds f) := by
  have e1 : b'.utf8Rules = b.utf8Rules := by rw [h.b'_eq]
  have e2 : b'.glyphRules = b.glyphRules := by rw [h.b'_eq]
  have key : ∀ i < nRules f u, ∃ r bits, Builder.RuleOk r bits ∧ r.condition = 255 ∧ r.bodyLen ≠ 0 ∧
      (u = true → r.output.length = 1) ∧ byteAt (ruleAt f u i) 0 = 255 ∧
      byteAt (ruleAt f u i) 1 = r.headLen ∧ byteAt (ruleAt f u i) 2 = r.bodyLen ∧ byteAt (ruleAt f u i) 3 = r.tailLen ∧
      byteAt (ruleAt f u i) 4 = r.output.length ∧ ruleSpan f u i ≤ 4096 := by
    intro i hi
    have part : ∀ {group : Nat → Res UInt8} {elem : Nat → Res Bytes} {r : Rule} {x : Bytes} {bits : List Bool},
        Builder.RuleOk r bits → r.condition = 255 → Builder.ruleBytes group elem r = .ok x →
        (∀ u y, elem u = .ok y → y.length ≤ 4) → r.bodyLen ≠ 0 ∧ byteAt x 0 = 255 ∧
        byteAt x 1 = r.headLen ∧ byteAt x 2 = r.bodyLen ∧ byteAt x 3 = r.tailLen ∧ byteAt x 4 = r.output.length ∧
        x.length ≤ 4096 := by
      intro group elem r x bits ho hc hx hw
      obtain ⟨hlen, hb⟩ := Builder.ruleBytes_room hw (by omega) hx
      obtain ⟨hout, out, fr, _, hxe⟩ := ruleBytes_parts hx
      have h1 := ho.len
      have h2 := ho.le
      have hl : x.length ≤ 4096 := by
        have : (r.headLen + r.bodyLen + r.tailLen) * (4 + 1) ≤ 255 * 5 := Nat.mul_le_mul_right _ (by omega)
        have : r.output.length * 4 ≤ 255 * 4 := Nat.mul_le_mul_right _ hout
        omega
      refine (fun q : r.bodyLen ≠ 0 ∧ byteAt x 0 = 255 ∧ byteAt x 1 = r.headLen ∧ byteAt x 2 = r.bodyLen ∧
        byteAt x 3 = r.tailLen ∧ byteAt x 4 = r.output.length =>
        ⟨q.1, q.2.1, q.2.2.1, q.2.2.2.1, q.2.2.2.2.1, q.2.2.2.2.2, hl⟩) ?_
      rw [hxe]
      have l : ∀ i < 5, byteAt ([byte r.condition, byte r.headLen, byte r.bodyLen, byte r.tailLen,
          byte r.output.length] ++ (out.flatten ++ fr)) i =
          byteAt [byte r.condition, byte r.headLen, byte r.bodyLen, byte r.tailLen, byte r.output.length] i :=
        fun i hi => byteAt_append_left (by simpa using hi)
      rw [l 0 (by omega), l 1 (by omega), l 2 (by omega), l 3 (by omega), l 4 (by omega), hc]
      have e : ∀ v, v ≤ 255 → (byte v).toNat = v := fun v hv => by rw [byte_val]; omega
      refine ⟨hb, rfl, e _ (by omega), e _ (by omega), e _ (by omega), e _ hout⟩
    cases u with
    | true =>
      obtain ⟨n1, n2⟩ := rules_at h.atUtf8Rules h.utf8Rules
      rw [e1] at n1
      have hi' : i < b.utf8Rules.length := by rw [← n1]; exact hi
      obtain ⟨bytes, g1, g2, g3⟩ := n2 i (by rw [e1]; exact hi')
      simp only [e1] at g1 g2
      obtain ⟨c, seq, bits, _, _, ho, _, _, _, hout, hcond, _⟩ := hr.1 _ (List.getElem_mem hi')
      have hat : ruleAt f true i = bytes := by
        rw [ruleAt, if_pos rfl, nUtf8Rules, n1]; exact g2
      have hsp : ruleSpan f true i = bytes.length := by rw [ruleSpan, if_pos rfl]; exact g3
      obtain ⟨q1, q2, q3, q4, q5, q6, q7⟩ := part ho hcond g1 (fun v y hy => by rw [← Res.ok.inj hy]; simp [append32])
      rw [hat, hsp]
      exact ⟨_, bits, ho, hcond, q1, fun _ => by rw [hout]; rfl, q2, q3, q4, q5, q6, q7⟩
    | false =>
      obtain ⟨n1, n2⟩ := rules_at h.atGlyphRules h.glyphRules
      rw [e2] at n1
      have hi' : i < b.glyphRules.length := by rw [← n1]; exact hi
      obtain ⟨bytes, g1, g2, g3⟩ := n2 i (by rw [e2]; exact hi')
      simp only [e2] at g1 g2
      obtain ⟨bits, ho, hcond⟩ := hr.2 _ (List.getElem_mem hi')
      have hat : ruleAt f false i = bytes := by
        rw [ruleAt, if_neg (by simp), nGlyphRules, n1]; exact g2
      have hsp : ruleSpan f false i = bytes.length := by rw [ruleSpan, if_neg (by simp)]; exact g3
      obtain ⟨q1, q2, q3, q4, q5, q6, q7⟩ := part ho hcond g1 (fun v y hy => by
        simp only [Builder.glyphElem, Res.bind_eq_ok, Res.pure_eq, Res.ok.injEq] at hy
        obtain ⟨_, _, rfl⟩ := hy
        simp [append16])
      rw [hat, hsp]
      exact ⟨_, bits, ho, hcond, q1, by simp, q2, q3, q4, q5, q6, q7⟩
  refine ⟨fun i hi => ?_, fun i hi => ?_, fun i hi => ?_, fun i hi => ?_, fun hu i hi => ?_⟩ <;>
    obtain ⟨r, bits, ho, _, hb, hout, q1, q2, q3, q4, q5, q6⟩ := key i hi
  · exact Or.inr q1
  · omega
  · rw [q2, q3, q4, ← ho.len]; exact ho.le
  · exact q6
  · rw [q5, q3, hout hu]; omega

theorem kern_demands (h : Built env b b' f s w bi) (hk : Kept b) (hf : Fair env)
    (hz : ∃ k, 0 < k ∧ k < 256 ∧ env.predef k = env.predef 0) (ht : SizesFit b' f) :
    Demand.horzPairs.Holds f ∧ Demand.vertPairs.Holds f ∧ Demand.ending.Holds f := by
  obtain ⟨L, K⟩ := h.layout hk hf hz ht
  have e0 := h.b'_eq
  have e1 : b'.horzKern = b.horzKern := by rw [e0]
  have e2 : b'.vertKern = b.vertKern := by rw [e0]
  have e3 : b'.glyphOrder = b.glyphOrder := by rw [e0]
  have hg := h.glyphs_le
  have c1 := h.horzCount
  have c2 := h.vertCount
  refine ⟨kern_sorted (by rw [e3]; exact hk.kern.order) (by rw [e3]; omega) (by rw [e1]; exact hk.kern.horz) (by omega)
      h.atHorzKern h.horzKern,
    kern_sorted (by rw [e3]; exact hk.kern.order) (by rw [e3]; omega) (by rw [e2]; exact hk.kern.vert) (by omega)
      h.atVertKern h.vertKern, ?_⟩
  have hs := K.stop
  have hkz : 3 ≤ kernSize f.data f.offVertKern := by unfold kernSize; omega
  exact ⟨by omega, hs.symm⟩

theorem color_demands (h : Built env b b' f s w bi) (hk : Kept b) (ht : SizesFit b' f) :
    Demand.colorSections.Holds f ∧ Demand.colors.Holds f := by
  obtain ⟨hdy1, hdy2, _⟩ := h.dyes_facts ht.dyeNames
  obtain ⟨hp1, hp2, _⟩ := h.palettes_facts ht.paletteNames
  have hcol := (setDyes_eq h.main hk.colors).total
  simp only [sectionSizes, List.sum_append_nat] at hcol
  have hsec : b'.dyes.length + b'.palettes.length ≤ 255 := by
    have := h.sections
    have e := Builder.main_eq h.main
    rw [e]
    dsimp only
    split
    · rename_i h0; rw [h0.2]; simp
    · exact this
  have n1 : nDyes f.data f = b'.dyes.length := hdy1
  have n2 : nPalettes f.data f = b'.palettes.length := hp1
  refine ⟨by simp only [Demand.Holds]; omega, ?_⟩
  have c1 : (if nDyes f.data f = 0 then 0 else dyeColors f.data f) ≤ (b'.dyes.map fun d => d.alphas.length).sum := by
    split
    · omega
    · rename_i h0
      have := (hdy2 fun e => h0 (by rw [n1, e]; rfl)).1
      rw [dyeColors, n1, this]
  have c2 : (if nPalettes f.data f = 0 then 0 else paletteColors f.data f) ≤
      (b'.palettes.map fun d => d.colors.length).sum := by
    split
    · omega
    · rename_i h0
      have := (hp2 fun e => h0 (by rw [n2, e]; rfl)).1
      rw [paletteColors, n2, this]
  simp only [Demand.Holds]
  omega

theorem other_demands (h : Built env b b' f s w bi) (hk : Kept b) :
    Demand.conditionTerms.Holds f ∧ Demand.size.Holds f := by
  have h0 : nConditions f.data f = 0 := (h.conditions_facts hk.conditions).1
  refine ⟨fun i hi => by omega, ?_⟩
  have := h.size
  rw [h.font]
  exact this

theorem dates_demand (h : Built env b b' f s w bi)
    (hd : ∀ d ∈ [b.firstVersionDate, b.majorVersionDate, b.minorVersionDate], DateFits d ∧ Nested d) :
    Demand.dates.Holds f := by
  obtain ⟨he, l1, l2, l3, l4⟩ := headerSection_eq h.header
  have ha := h.at_ 0 s.header rfl
  rw [he] at ha
  have ha : At f.data 0 (headerOf b).bytes := ha
  obtain ⟨_, _, _, _, a5, a6, a7, _⟩ := header_at ha
  have key : ∀ {o : Nat} {d : DateModel.Date}, At f.data o (YMD.bytes ⟨d.year, d.month, d.day⟩) →
      DateFits d ∧ Nested d → DateNested f.data o := by
    intro o d ha ⟨h1, h2⟩
    have hl := ha.len
    simp only [YMD.bytes, List.length_append, le_length] at hl
    rw [YMD.bytes, At.append, At.append, List.length_append, le_length, le_length] at ha
    obtain ⟨⟨p1, p2⟩, p3⟩ := ha
    have e1 := le_rd16 p1 h1.1
    have e2 := le_rd8 p2 h1.2.1
    have e3 := le_rd8 p3 h1.2.2
    rw [rd16_eq (by omega)] at e1
    rw [rd8_eq (by omega)] at e2 e3
    have e1 := Res.ok.inj e1
    have e2 := Res.ok.inj e2
    have e3 : byteAt f.data (o + 3) = d.day := Res.ok.inj e3
    rw [DateNested, e1, e2, e3]
    exact h2
  exact ⟨key a5 (hd _ (by simp)), key a6 (hd _ (by simp)), key a7 (hd _ (by simp))⟩

end Built

end BuilderModel
