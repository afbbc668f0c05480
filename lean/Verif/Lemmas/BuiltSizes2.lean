import Verif.Lemmas.BuiltSizes
import Verif.Lemmas.Kern
import Mathlib.Data.List.Perm.Subperm
import Mathlib.Data.List.ProdSigma

/-! # Counts and sizes of the sections of built fonts: mapping, rewrites, kerning -/

namespace BuilderModel
open Go Helpers Spec FontModel

/-! ## Mapping -/

theorem groupBytes_length {b : Builder} {g : MapGroup} {x : Bytes} (h : b.groupBytes g = .ok x) :
    3 ≤ x.length := by
  simp only [Builder.groupBytes, ite_panic, Res.bind_eq_ok] at h
  obtain ⟨hg, is, his, h⟩ := h
  obtain ⟨hl, _⟩ := mapRes_ok his
  have hsl := (isort_nat_perm is).length_eq
  split at h
  · simp only [Res.pure_eq, Res.ok.injEq] at h; subst h; simp [appendUint16LE]
  · rename_i hne
    have h2 : 2 ≤ is.length := by
      match is, hne with
      | [], _ => simp at hl; omega
      | [a], hne => exact absurd rfl (hne a)
      | _ :: _ :: _, _ => simp
    split at h
    · simp only [Res.pure_eq, Res.ok.injEq] at h; subst h; simp [appendUint16LE]
    · simp only [Res.pure_eq, Res.ok.injEq] at h; subst h
      have := le_sum_map (l := isort natLe is) (g := fun i => (appendUint16LE [] i).length) (k := 2)
        (fun _ _ => Nat.le_refl _)
      simp only [List.length_append, List.length_cons, List.length_nil, List.length_flatten, List.map_map]
      have e : (List.length ∘ fun i => appendUint16LE [] i) = fun i => (appendUint16LE [] i).length := rfl
      rw [e]
      omega

theorem casesBytes_length {b : Builder} : ∀ {gs : List MapGroup} {len : Nat} {x : Bytes},
    b.casesBytes len gs = .ok x → 3 * gs.length ≤ x.length
  | [], _, _, _ => by simp
  | g :: gs, len, x, h => by
    simp only [Builder.casesBytes, Res.bind_eq_ok, ite_err, Res.pure_eq, Res.ok.injEq] at h
    obtain ⟨y, hy, _, rest, hr, rfl⟩ := h
    have := groupBytes_length hy
    have := casesBytes_length hr
    simp only [List.length_append, List.length_cons]
    omega

theorem entryBytes_length {b : Builder} {l : Nat} {e : MapEntry} {x : Bytes}
    (hn : e.cases ≠ []) (h : b.entryBytes l e = .ok x) :
    3 ≤ x.length := by
  rw [Builder.entryBytes] at h
  split at h
  · split at h
    · split at h
      · simp only [Res.bind_eq_ok, Res.pure_eq, Res.ok.injEq] at h
        obtain ⟨i, _, rfl⟩ := h
        simp [appendUint16LE]
      · cases h
    · cases h
  · split at h
    · split at h
      · simp only [ite_panic, Res.bind_eq_ok, Res.pure_eq, Res.ok.injEq] at h
        obtain ⟨_, y, hy, rfl⟩ := h
        have := groupBytes_length hy
        simp only [List.length_append, List.length_cons]
        omega
      · cases h
    · simp only [Res.bind_eq_ok, Res.pure_eq, Res.ok.injEq] at h
      obtain ⟨y, hy, rfl⟩ := h
      have hc := casesBytes_length hy
      have hpos := List.length_pos_iff.2 hn
      simp only [List.length_append, List.length_cons]
      omega

namespace Built
variable {env : Env} {b b' : Builder} {f : FontModel.Font} {s : Parts} {w bi : GoMap Bytes Int}

theorem mapping_facts (h : Built env b b' f s w bi)
    (hs : f.offConditions ≤ f.offMapping + (2 + 7 * b.runeMapping.length) + 16777215) :
    ∃ total, u16At f.data f.offMapping = b.runeMapping.length ∧
      (0 < b.runeMapping.length → u24At f.data (f.offMapping + 2 + 4 * b.runeMapping.length +
        3 * (b.runeMapping.length - 1)) = total) ∧
      f.offMapping + (2 + 7 * b.runeMapping.length) + total = f.offConditions ∧
      ((∀ e ∈ b.runeMapping, e.2.cases ≠ []) → 3 * b.runeMapping.length ≤ total) ∧ mappingSize f.data f.offMapping = s.mapping.length := by
  have hx := h.mapping
  have ha := h.atMapping
  obtain ⟨-, -, -, -, -, -, -, -, -, -, ho, -⟩ := h.offs
  have e1 : b'.runeMapping = b.runeMapping := by rw [h.b'_eq]
  have e2 : b'.switches = b.switches := by rw [h.b'_eq]
  simp only [Builder.mappingSection, ite_panic, Res.bind_eq_ok, Res.pure_eq, Res.ok.injEq, e1] at hx
  obtain ⟨hmax, _, blocks, hb, hx⟩ := hx
  have hsl : (isort (fun x y => decide (x ≤ y)) b.runeMapping.keys).length = b.runeMapping.length := by
    rw [(isort_perm _ _).length_eq, GoMap.keys, List.length_map]
  generalize isort (fun x y => decide (x ≤ y)) b.runeMapping.keys = sorted at *
  obtain ⟨hl, hbi⟩ := Builder.entriesLoop_ok hb
  have hmin : (∀ e ∈ b.runeMapping, e.2.cases ≠ []) → 3 * blocks.length ≤ (blocks.map List.length).sum := by
    intro hall
    apply le_sum_map
    intro x hx
    obtain ⟨i, hi, rfl⟩ := List.mem_iff_getElem.1 hx
    obtain ⟨e, l, h1, _, h3⟩ := hbi i (by omega) hi
    rw [e1] at h1
    exact entryBytes_length (hall _ (GoMap.mem_of_get h1)) h3
  have hkeys : (sorted.map fun c => appendUint32LE [] c.toNat).flatten.length = 4 * sorted.length := by
    rw [flatten_length, List.map_map]
    have : (sorted.map (List.length ∘ fun c => appendUint32LE [] c.toNat)) = List.replicate sorted.length 4 := by
      rw [List.eq_replicate_iff]
      refine ⟨by simp, fun x hx => ?_⟩
      obtain ⟨e, _, rfl⟩ := List.mem_map.1 hx
      rfl
    rw [this, List.sum_replicate_nat, Nat.mul_comm]
  have hln : (blocks.map List.length).length = b.runeMapping.length := by rw [List.length_map]; omega
  have hlen := congrArg List.length hx
  simp only [List.length_append, append16, le16_length, hkeys, ends24_length, hln, flatten_length blocks] at hlen
  rw [maxGlyphs] at hmax
  rw [← hx, ← hln] at ha
  obtain ⟨k1, k2⟩ := keyed24 (k := 4) ha (by omega) (by rw [hkeys]; omega) (by omega)
  rw [hln] at k1 k2
  have k2' : 0 < b.runeMapping.length → _ := fun hpos => k2 (by
    intro e; rw [e] at hln; simp only [List.length_nil] at hln; omega)
  refine ⟨_, k1, k2', by omega, fun hall => by have := hmin hall; omega, ?_⟩
  simp only [mappingSize, k1]
  split
  · have : blocks = [] := List.eq_nil_of_length_eq_zero (by omega)
    simp only [this, List.map_nil, List.sum_nil] at hlen
    omega
  · rw [k2' (by omega)]; omega

/-! ## Rewrites -/

theorem conditions_facts (h : Built env b b' f s w bi) (hc : b.conditions = []) :
    byteAt f.data f.offConditions = 0 ∧ blocks16Size f.data f.offConditions = s.conditions.length := by
  have hx := h.conditions
  have ha := h.atConditions
  have e1 : b'.conditions = b.conditions := by rw [h.b'_eq]
  simp only [Builder.conditionsSection, e1, hc, ite_panic, Res.bind_eq_ok, Res.pure_eq, Res.ok.injEq] at hx
  obtain ⟨_, _, _, hx⟩ := hx
  rw [← hx] at ha ⊢
  have h1 : byteAt f.data f.offConditions = 0 := ha.left.left.byte
  exact ⟨h1, by simp [blocks16Size, h1, ends16]⟩

theorem utf8Sets_facts (h : Built env b b' f s w bi) :
    byteAt f.data f.offUtf8Sets = 0 ∧ blocks16Size f.data f.offUtf8Sets = s.utf8Sets.length := by
  have hx := h.utf8Sets
  have ha := h.atUtf8Sets
  simp only [Builder.utf8SetsSection, ite_panic, Res.ok.injEq] at hx
  rw [← hx.2] at ha ⊢
  have h1 : byteAt f.data f.offUtf8Sets = 0 := ha.byte
  exact ⟨h1, by simp [blocks16Size, h1]⟩

theorem glyphSets_facts (h : Built env b b' f s w bi) (hn : b.glyphOrder.Nodup) :
    byteAt f.data f.offGlyphSets = b.glyphSetsOrder.length ∧
    (0 < b.glyphSetsOrder.length → u16At f.data (f.offGlyphSets + 1 + 2 * (b.glyphSetsOrder.length - 1)) =
      f.offUtf8Rules - f.offGlyphSets - (1 + 2 * b.glyphSetsOrder.length)) ∧
    f.offGlyphSets + (1 + 2 * b.glyphSetsOrder.length) ≤ f.offUtf8Rules ∧
    f.offUtf8Rules ≤ f.offGlyphSets + (1 + 2 * b.glyphSetsOrder.length) + 65535 ∧
    blocks16Size f.data f.offGlyphSets = s.glyphSets.length := by
  have hx := h.glyphSets
  have ha := h.atGlyphSets
  obtain ⟨-, -, -, -, -, -, -, -, -, -, -, -, -, ho, -⟩ := h.offs
  have hol := order_le h
  have e1 : b'.glyphSetsOrder = b.glyphSetsOrder := by rw [h.b'_eq]
  have e2 : b'.glyphOrder = b.glyphOrder := by rw [h.b'_eq]
  simp only [Builder.glyphSetsSection, ite_panic, Res.bind_eq_ok, Res.pure_eq, Res.ok.injEq] at hx
  obtain ⟨hcount, hord, _, hc, blocks, hb, hx⟩ := hx
  obtain ⟨_, h2, h3⟩ := checkSets_ok hc
  obtain ⟨hbl, hbb⟩ := mapRes_ok hb
  have hset : b'.setsInOrder.length = b'.glyphSetsOrder.length := h2
  have hsizes : b'.setsInOrder.map Builder.setSize = blocks.map List.length := by
    apply List.ext_getElem
    · simp [hbl]
    · intro k hk hk'
      rw [List.getElem_map, List.getElem_map]
      exact ((setBytes_enc (by rw [e2]; exact hn) (by rw [e2]; omega)
        (hbb k (by simpa using hk) (by simpa using hk'))).1).symm
  have hsum : (b'.setsInOrder.map Builder.setSize).sum ≤ 65535 := by
    have : 0 + (b'.setsInOrder.map Builder.setSize).sum ≤ 65535 := h3 (by omega)
    omega
  have hlm : b'.glyphSets.length = (b'.setsInOrder.map Builder.setSize).length := by
    rw [List.length_map]; omega
  have hlen := congrArg List.length hx
  rw [hlm] at hx
  rw [← hx] at ha
  rw [hlm] at hcount hord
  obtain ⟨c1, c2, c3⟩ := blocks16 ha (by omega) hsum (by rw [flatten_length, hsizes])
  have hL : (b'.setsInOrder.map Builder.setSize).length = b.glyphSetsOrder.length := by
    rw [List.length_map, hset, e1]
  simp only [List.length_append, List.length_singleton, ends16_length, hL, flatten_length, ← hsizes] at hlen
  rw [hx] at c3
  rw [hL] at c1 c2
  refine ⟨c1, fun hpos => ?_, by omega, by omega, c3⟩
  rw [c2 (by intro e; rw [e] at hL; simp only [List.length_nil] at hL; omega)]
  omega

theorem rules_facts {D : Bytes} {o next : Nat} {rule : Rule → Res Bytes} {rules : List Rule} {x : Bytes}
    (ha : At D o x) (hx : Builder.rulesSection rule rules = .ok x)
    (hmin : ∀ r y, rule r = .ok y → 8 ≤ y.length) (ho : next = o + x.length) :
    u16At D o = rules.length ∧
    (0 < rules.length → u24At D (o + 2 + 3 * (rules.length - 1)) = next - o - (2 + 3 * rules.length)) ∧
    o + (2 + 3 * rules.length) + 8 * rules.length ≤ next ∧
    rulesSize D o = x.length := by
  simp only [Builder.rulesSection, ite_panic, Res.bind_eq_ok, Res.pure_eq, Res.ok.injEq] at hx
  obtain ⟨hn, blocks, hb, hx⟩ := hx
  obtain ⟨h1, h2, h3⟩ := rulesLoop_ok hb
  have h2 := h2 (by omega)
  have hlow : 8 * blocks.length ≤ (blocks.map List.length).sum := by
    apply le_sum_map
    intro y hy
    obtain ⟨i, hi, rfl⟩ := List.mem_iff_getElem.1 hy
    exact hmin _ _ (h3 i (by omega) hi)
  have hlm : rules.length = (blocks.map List.length).length := by rw [List.length_map]; omega
  have hlen := congrArg List.length hx
  simp only [List.length_append, append16, le16_length, ends24_length, flatten_length, ← hlm] at hlen
  rw [hlm] at hx
  rw [← hx] at ha
  obtain ⟨c1, c2, c3⟩ := rules24 ha (by omega) (by omega) (flatten_length _)
  rw [hx] at c3
  rw [← hlm] at c1 c2
  refine ⟨c1, fun hpos => ?_, by omega, c3⟩
  rw [c2 (by intro e; rw [e] at hlm; simp only [List.length_nil] at hlm; omega)]
  omega

/-- The header of a rule and one byte for each block at least. -/
theorem ruleBytes_min {group : Nat → Res UInt8} {elem : Nat → Res Bytes} {r : Rule} {x : Bytes}
    (h : Builder.ruleBytes group elem r = .ok x) : 8 ≤ x.length := by
  have flush : ∀ {s s' : Builder.RuleState}, Builder.flushFragment group elem r s = .ok s' →
      s.data.length < s'.data.length := by
    intro s s' h
    simp only [Builder.flushFragment, Builder.fragmentBytes, Res.bind_eq_ok, Res.pure_eq, Res.ok.injEq] at h
    obtain ⟨_, _, _, _, _, ⟨_, _, _, _, rfl⟩, rfl⟩ := h
    simp only [List.length_append, List.length_singleton]
    omega
  have loop : ∀ {n : Nat} {s s' : Builder.RuleState} {has has' : Bool},
      Builder.blockLoop group elem r n s has = .ok (s', has') →
      s.data.length ≤ s'.data.length ∧ (has' = true → has = true ∨ s.data.length < s'.data.length) := by
    intro n
    induction n with
    | zero =>
      intro s s' has has' h
      simp only [Builder.blockLoop, Res.ok.injEq, Prod.mk.injEq] at h
      obtain ⟨rfl, rfl⟩ := h
      exact ⟨Nat.le_refl _, Or.inl⟩
    | succ n ih =>
      intro s s' has has' h
      rw [Builder.blockLoop, Res.bind_eq_ok] at h
      obtain ⟨g, _, h⟩ := h
      rw [Res.bind_eq_ok] at h
      obtain ⟨s1, h1, h⟩ := h
      have h2 := ih h
      simp only [apply_ite Builder.RuleState.data, ite_self] at h2
      by_cases hc : (if g then decide (s.accElems ≠ 0 ∨ s.accGroups = 15)
        else decide (s.accElems = 15)) = true
      · rw [if_pos hc] at h1
        have := flush h1
        exact ⟨by omega, fun _ => Or.inr (by omega)⟩
      · rw [if_neg hc] at h1
        simp only [Res.ok.injEq] at h1
        subst h1
        have hc' := Bool.eq_false_iff.2 hc
        rw [hc', Bool.or_false] at h2
        exact h2
  have block : ∀ {n : Nat} {s s' : Builder.RuleState}, Builder.blockBytes group elem r n s = .ok s' →
      s.data.length < s'.data.length := by
    intro n s s' h
    rw [Builder.blockBytes, Res.bind_eq_ok] at h
    obtain ⟨⟨s1, has⟩, h1, h⟩ := h
    obtain ⟨l1, l2⟩ := loop h1
    simp only at h
    split at h
    · have := flush h; omega
    · split at h <;> simp only [Res.pure_eq, Res.ok.injEq] at h <;> subst h
      · simp only [List.length_append, List.length_singleton]; omega
      · rename_i hh
        have := l2 (by simpa using hh)
        simp at this
        omega
  simp only [Builder.ruleBytes, ite_panic, Res.bind_eq_ok, Res.pure_eq, Res.ok.injEq] at h
  obtain ⟨h1, _, _, out, ho, s1, hs1, s2, hs2, s3, hs3, rfl⟩ := h
  have := block hs1
  have := block hs2
  have := block hs3
  simp only [List.length_append, List.length_cons] at *
  omega

/-! ## Kerning -/

theorem kern_facts {D : Bytes} {o : Nat} {pairs values : GoMap (Nat × Nat) KernPair} {x : Bytes}
    (hn : b.glyphOrder.Nodup) (hl : b.glyphOrder.length ≤ 65536) (hk : (pairs.map Prod.fst).Nodup)
    (hcount : pairs.length ≤ 16777215) (ha : At D o x) (hx : b.kernSection pairs values = .ok x) :
    u24At D o ≤ b.glyphOrder.length * b.glyphOrder.length ∧ kernSize D o = x.length := by
  simp only [Builder.kernSection, Res.bind_eq_ok] at hx
  obtain ⟨ks, hks, hx⟩ := hx
  simp only [ite_panic, Res.bind_eq_ok, Res.pure_eq, Res.ok.injEq] at hx
  obtain ⟨_, vs, hvs, hx⟩ := hx
  obtain ⟨hl1, hks⟩ := mapRes_ok hks
  obtain ⟨hl2, hvs⟩ := mapRes_ok hvs
  have hlen := (isort_nat_perm ks).length_eq
  have hkl : pairs.keys.length = pairs.length := by simp [GoMap.keys]
  have e32 : ((isort natLe ks).map (appendUint32LE [])).flatten.length = 4 * pairs.length := by
    rw [flatten_length, List.map_map]
    have : ((isort natLe ks).map (List.length ∘ appendUint32LE [])) = List.replicate pairs.length 4 := by
      rw [List.eq_replicate_iff]
      refine ⟨by simp; omega, fun x hx => ?_⟩
      obtain ⟨e, _, rfl⟩ := List.mem_map.1 hx
      rfl
    rw [this, List.sum_replicate_nat, Nat.mul_comm]
  have hxl := congrArg List.length hx
  simp only [List.length_append, e32] at hxl
  have h3 : (appendUint24LE [] pairs.length).length = 3 := rfl
  rw [← hx] at ha
  have hc : u24At D o = pairs.length := by
    have := ha.left.left.u24
    omega
  refine ⟨?_, by rw [kernSize, hc]; omega⟩
  have hsub : pairs.map Prod.fst ⊆ b.glyphOrder ×ˢ b.glyphOrder := by
    intro p hp
    obtain ⟨i, hi, rfl⟩ := List.mem_iff_getElem.1 hp
    have hi' : i < pairs.keys.length := hi
    obtain ⟨a, c, h1, h2, _⟩ := (Builder.pairKey_iff hn hl).1 (hks i hi' (by omega))
    exact List.mem_product.2 ⟨List.mem_of_getElem? h1, List.mem_of_getElem? h2⟩
  have := (List.subperm_of_subset hk hsub).length_le
  rw [List.length_map, List.length_product] at this
  omega

end Built
end BuilderModel
