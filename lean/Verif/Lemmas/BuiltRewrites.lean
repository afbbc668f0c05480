import Verif.Lemmas.Rules
import Verif.Lemmas.GlyphIndex
import Verif.Lemmas.BuildAt

/-! # Rules and sets in built fonts -/

namespace BuilderModel
open Go Helpers Spec FontModel Builder

theorem byte_ofNat (v : Nat) : byte v = UInt8.ofNat v := rfl

/-! ## Blocks of rules -/

theorem rulesLoop_ok {rule : Rule → Res Bytes} : ∀ {rules : List Rule} {off : Nat} {blocks : List Bytes},
    rulesLoop rule off rules = .ok blocks →
    blocks.length = rules.length ∧ (off ≤ 16777215 → off + (blocks.map List.length).sum ≤ 16777215) ∧
    ∀ i (hi : i < rules.length) (hb : i < blocks.length), rule rules[i] = .ok blocks[i]
  | [], off, blocks, h => by simp only [rulesLoop, Res.ok.injEq] at h; subst h; simp
  | r :: rs, off, blocks, h => by
    simp only [rulesLoop, Res.bind_eq_ok, ite_err, Res.pure_eq, Res.ok.injEq] at h
    obtain ⟨bytes, hb, hs, rest, hr, rfl⟩ := h
    obtain ⟨h1, h2, h3⟩ := rulesLoop_ok hr
    refine ⟨by simp [h1], fun _ => ?_, ?_⟩
    · have := h2 (by omega)
      simp only [List.map_cons, List.sum_cons]
      omega
    · intro i hi hb'
      cases i with
      | zero => simpa using hb
      | succ i => simpa using h3 i (by simpa using hi) (by simpa using hb')

theorem built_rule {f : Font} {off : Nat} {rule : Rule → Res Bytes} {rules : List Rule} {section_ : Bytes}
    (ha : At f.data off section_) (hs : rulesSection rule rules = .ok section_) {i : Nat}
    (hi : i < rules.length) : ∃ bytes, rule rules[i] = .ok bytes ∧ f.getRule off i = .ok bytes := by
  simp only [rulesSection, ite_panic, Res.bind_eq_ok, Res.pure_eq, Res.ok.injEq] at hs
  obtain ⟨hn, blocks, hb, rfl⟩ := hs
  obtain ⟨h1, h2, h3⟩ := rulesLoop_ok hb
  have hib : i < blocks.length := by omega
  refine ⟨blocks[i], h3 i hi hib, ?_⟩
  have hnum := ha.left.left.u16
  rw [Nat.mod_eq_of_lt (by omega)] at hnum
  have hends := ha.left.right
  have hblocks := ha.right
  have hl2 : (appendUint16LE [] rules.length).length = 2 := rfl
  rw [List.length_append, hl2, ends24_length, List.length_map] at hblocks
  rw [hl2] at hends
  have hl := hblocks.len
  rw [flatten_length] at hl
  obtain ⟨e1, e2⟩ := bounds24 hends (by have := h2 (by omega); omega) (i := i) (by simpa using hib)
  have hps := psum_le_sum (blocks.map List.length) (i + 1)
  have hpm := psum_succ (l := blocks.map List.length) (i := i) (by simpa using hib)
  rw [List.getElem_map] at hpm
  rw [Font.getRule_eq (by omega) (by omega) (by omega) (by omega) (by omega), e1, e2, hnum, hpm]
  have := (hblocks.block hib).sub
  rw [show off + 2 + 3 * rules.length + psum (blocks.map List.length) i =
    off + (2 + 3 * blocks.length) + psum (blocks.map List.length) i by omega, Nat.add_sub_cancel_left, this]

/-! ## Parts of built rules -/

theorem flushFragment_data {group : Nat → Res UInt8} {elem : Nat → Res Bytes} {r : Rule} {s s' : RuleState}
    (h : flushFragment group elem r s = .ok s') : s.data <+: s'.data := by
  simp only [flushFragment, Res.bind_eq_ok, Res.pure_eq, Res.ok.injEq] at h
  obtain ⟨_, _, _, _, _, _, rfl⟩ := h
  exact List.prefix_append _ _

theorem blockLoop_data {group : Nat → Res UInt8} {elem : Nat → Res Bytes} {r : Rule} :
    ∀ {n : Nat} {s s' : RuleState} {has has' : Bool}, blockLoop group elem r n s has = .ok (s', has') →
    s.data <+: s'.data
  | 0, s, s', has, has', h => by
    simp only [blockLoop, Res.ok.injEq, Prod.mk.injEq] at h
    rw [h.1]
    exact List.prefix_rfl
  | n + 1, s, s', has, has', h => by
    rw [blockLoop, Res.bind_eq_ok] at h
    obtain ⟨g, _, h⟩ := h
    rw [Res.bind_eq_ok] at h
    obtain ⟨s1, h1, h⟩ := h
    have h2 := blockLoop_data h
    have h3 : s.data <+: s1.data := by
      by_cases hc : (if g then decide (s.accElems ≠ 0 ∨ s.accGroups = 15)
        else decide (s.accElems = 15)) = true
      · rw [if_pos hc] at h1; exact flushFragment_data h1
      · rw [if_neg hc] at h1
        simp only [Res.ok.injEq] at h1
        rw [h1]
        exact List.prefix_rfl
    refine h3.trans (List.IsPrefix.trans ?_ h2)
    cases g <;> exact List.prefix_rfl

theorem blockBytes_data {group : Nat → Res UInt8} {elem : Nat → Res Bytes} {r : Rule} {n : Nat}
    {s s' : RuleState} (h : blockBytes group elem r n s = .ok s') : s.data <+: s'.data := by
  rw [blockBytes, Res.bind_eq_ok] at h
  obtain ⟨⟨s1, has⟩, h1, h⟩ := h
  refine (blockLoop_data h1).trans ?_
  simp only at h
  split at h
  · exact flushFragment_data h
  · split at h <;> simp only [Res.pure_eq, Res.ok.injEq] at h <;> subst h
    · exact List.prefix_append _ _
    · exact List.prefix_rfl

theorem ruleBytes_parts {group : Nat → Res UInt8} {elem : Nat → Res Bytes} {r : Rule} {x : Bytes}
    (h : ruleBytes group elem r = .ok x) : r.output.length ≤ 255 ∧ ∃ out fragments,
      mapRes elem r.output = .ok out ∧
      x = [byte r.condition, byte r.headLen, byte r.bodyLen, byte r.tailLen, byte r.output.length] ++
        (out.flatten ++ fragments) := by
  simp only [ruleBytes, ite_panic, Res.bind_eq_ok, Res.pure_eq, Res.ok.injEq] at h
  obtain ⟨h1, _, _, out, ho, s1, hs1, s2, hs2, s3, hs3, rfl⟩ := h
  obtain ⟨t, ht⟩ := (blockBytes_data hs1).trans ((blockBytes_data hs2).trans (blockBytes_data hs3))
  exact ⟨by omega, out, t, ho, by rw [← ht, List.append_assoc]⟩

theorem glyphElem_outs {b : Builder} : ∀ {l : List Nat} {out : List Bytes}, mapRes b.glyphElem l = .ok out →
    ∃ is, mapRes b.glyphIndexE l = .ok is ∧ out.flatten = is.flatMap word16
  | [], out, h => by simp only [mapRes, Res.ok.injEq] at h; subst h; exact ⟨[], rfl, rfl⟩
  | a :: l, out, h => by
    simp only [mapRes, Res.bind_eq_ok, Res.pure_eq, Res.ok.injEq, glyphElem] at h
    obtain ⟨x, ⟨i, hi, rfl⟩, bs, hbs, rfl⟩ := h
    obtain ⟨is, h1, h2⟩ := glyphElem_outs hbs
    refine ⟨i :: is, ?_, ?_⟩
    · rw [mapRes, hi, Res.ok_bind, h1]; rfl
    · rw [List.flatten_cons, List.flatMap_cons, h2, word16_eq]

theorem runeElem_outs : ∀ {l : List Nat} {out : List Bytes}, mapRes runeElem l = .ok out →
    out.flatten = l.flatMap word32
  | [], out, h => by simp only [mapRes, Res.ok.injEq] at h; subst h; rfl
  | a :: l, out, h => by
    simp only [mapRes, Res.bind_eq_ok, Res.pure_eq, Res.ok.injEq, runeElem] at h
    obtain ⟨x, rfl, bs, hbs, rfl⟩ := h
    rw [List.flatten_cons, List.flatMap_cons, runeElem_outs hbs, word32_eq]

theorem mapRes_indices {b : Builder} (hn : b.glyphOrder.Nodup) (hl : b.glyphOrder.length ≤ 65536) :
    ∀ {l is : List Nat}, mapRes b.glyphIndexE l = .ok is →
    is.length = l.length ∧ (∀ i ∈ is, i < 65536) ∧ is.map (b.glyphOrder[·]?) = l.map some
  | [], is, h => by simp only [mapRes, Res.ok.injEq] at h; subst h; simp
  | a :: l, is, h => by
    simp only [mapRes, Res.bind_eq_ok, Res.pure_eq, Res.ok.injEq] at h
    obtain ⟨i, hi, bs, hbs, rfl⟩ := h
    obtain ⟨h1, h2, h3⟩ := mapRes_indices hn hl hbs
    have he := (glyphIndexE_iff hn hl).1 hi
    have hlt := (List.getElem?_eq_some_iff.1 he).1
    refine ⟨by simp [h1], ?_, ?_⟩
    · intro x hx
      rcases List.mem_cons.1 hx with rfl | hx
      · omega
      · exact h2 x hx
    · simp [he, h3]

/-! ## Sets -/

theorem ranges_enc {b : Builder} (hn : b.glyphOrder.Nodup) (hl : b.glyphOrder.length ≤ 65536) :
    ∀ {l : List (Nat × Nat)} {out : List Bytes}, mapRes b.rangeBytes l = .ok out →
    ∃ es : List (Nat × Nat), out.flatten = es.flatMap (fun r => word16 r.1 ++ [UInt8.ofNat r.2]) ∧
      es.map (fun e => (b.glyphOrder[e.1]?, b.glyphOrder[e.1 + e.2]?)) = l.map (fun u => (some u.1, some u.2)) ∧
      es.length = l.length ∧ ∀ e ∈ es, e.2 ≤ 255 ∧ e.1 + e.2 < 65536
  | [], out, h => by
    simp only [mapRes, Res.ok.injEq] at h; subst h; exact ⟨[], rfl, rfl, rfl, by simp⟩
  | u :: l, out, h => by
    simp only [mapRes, Res.bind_eq_ok, Res.pure_eq, Res.ok.injEq] at h
    obtain ⟨x, hx, bs, hbs, rfl⟩ := h
    obtain ⟨es, h1, h2, h3, h4⟩ := ranges_enc hn hl hbs
    have key : ∀ i k, x = word16 i ++ [UInt8.ofNat k] → b.glyphOrder[i]? = some u.1 →
        b.glyphOrder[i + k]? = some u.2 → k ≤ 255 → ∃ es : List (Nat × Nat),
        (x :: bs).flatten = es.flatMap (fun r => word16 r.1 ++ [UInt8.ofNat r.2]) ∧
        es.map (fun e => (b.glyphOrder[e.1]?, b.glyphOrder[e.1 + e.2]?)) =
          (u :: l).map (fun u => (some u.1, some u.2)) ∧
        es.length = (u :: l).length ∧ ∀ e ∈ es, e.2 ≤ 255 ∧ e.1 + e.2 < 65536 := by
      intro i k hx hi hj hk
      refine ⟨(i, k) :: es, ?_, ?_, by simp [h3], ?_⟩
      · rw [List.flatten_cons, List.flatMap_cons, h1, hx]
      · simp only [List.map_cons, hi, hj, h2]
      · intro e he
        rcases List.mem_cons.1 he with rfl | he
        · have := (List.getElem?_eq_some_iff.1 hj).1
          exact ⟨hk, by simp only; omega⟩
        · exact h4 e he
    rw [rangeBytes, Res.bind_eq_ok] at hx
    obtain ⟨i, hi, hx⟩ := hx
    have hi' := (glyphIndexE_iff hn hl).1 hi
    split at hx
    · rename_i heq
      simp only [Res.pure_eq, Res.ok.injEq] at hx
      refine key i 0 ?_ hi' ?_ (by omega)
      · rw [← hx, word16_eq]; rfl
      · rw [← heq]; exact hi'
    · simp only [Res.bind_eq_ok, ite_err, Res.pure_eq, Res.ok.injEq] at hx
      obtain ⟨j, hj, hji, hlen, hx⟩ := hx
      have hj' := (glyphIndexE_iff hn hl).1 hj
      refine key i (j - i) ?_ hi' ?_ (by omega)
      · rw [← hx, word16_eq]; rfl
      · rw [show i + (j - i) = j by omega]; exact hj'

theorem setBytes_enc {b : Builder} (hn : b.glyphOrder.Nodup) (hl : b.glyphOrder.length ≤ 65536)
    {gs : GlyphSet} {x : Bytes} (h : b.setBytes gs = .ok x) :
    x.length = setSize gs ∧ ∃ e : EncSet, x = e.glyphBytes ∧ e.Ok 65536 ∧
      e.ranges.map (fun e => (b.glyphOrder[e.1]?, b.glyphOrder[e.1 + e.2]?)) =
        gs.ranges.map (fun u => (some u.1, some u.2)) ∧
      e.list.map (b.glyphOrder[·]?) = gs.list.map some := by
  simp only [setBytes, ite_panic, Res.bind_eq_ok, Res.pure_eq, Res.ok.injEq] at h
  obtain ⟨h1, h2, ranges, hr, list, hs, rfl⟩ := h
  obtain ⟨es, e1, e2, hlen, hrange⟩ := ranges_enc hn hl hr
  obtain ⟨is, e3, e4⟩ := glyphElem_outs (b := b) (l := gs.list) (out := list) hs
  obtain ⟨e5, e6, e7⟩ := mapRes_indices hn hl e3
  refine ⟨?_, ⟨es, is⟩, ?_, ⟨?_, ?_, hrange, e6⟩, e2, e7⟩
  · simp only [List.length_append, List.length_singleton, setSize, Nat.shiftLeft_eq]
    rw [e1, e4, ranges16_length, flat16_length]
    omega
  · rw [EncSet.glyphBytes, e1, e4]
    simp only [List.append_assoc, byte_ofNat, hlen, e5]
  · simp only; omega
  · simp only; omega

theorem checkSets_ok {b : Builder} : ∀ {l : List Nat} {off : Nat}, b.checkSets off l = .ok () →
    (∀ i (hi : i < l.length), ∃ gs, b.glyphSets.get l[i] = some gs ∧
      (l.filterMap fun u => b.glyphSets.get u)[i]? = some gs) ∧
    (l.filterMap fun u => b.glyphSets.get u).length = l.length ∧
    (off ≤ 65535 → off + ((l.filterMap fun u => b.glyphSets.get u).map setSize).sum ≤ 65535)
  | [], off, _ => by simp
  | u :: l, off, h => by
    rw [checkSets] at h
    cases hg : b.glyphSets.get u with
    | none => rw [hg] at h; simp at h
    | some gs =>
      rw [hg] at h
      simp only [ite_err] at h
      obtain ⟨h1, h2, h3⟩ := checkSets_ok h.2
      refine ⟨?_, by simp [hg, h2], fun _ => ?_⟩
      · intro i hi
        cases i with
        | zero => exact ⟨gs, by simpa using hg, by simp [hg]⟩
        | succ i =>
          obtain ⟨gs', a, c⟩ := h1 i (by simpa using hi)
          exact ⟨gs', by simpa using a, by simpa [hg] using c⟩
      · have := h3 (by omega)
        simp only [List.filterMap_cons, hg, List.map_cons, List.sum_cons]
        omega

theorem built_set {f : Font} {off : Nat} {b : Builder} {section_ : Bytes}
    (hn : b.glyphOrder.Nodup) (hl : b.glyphOrder.length ≤ 65536)
    (ha : At f.data off section_) (hs : b.glyphSetsSection = .ok section_) {i : Nat}
    (hi : i < b.glyphSetsOrder.length) : ∃ gs bytes, b.glyphSets.get b.glyphSetsOrder[i] = some gs ∧
      b.setBytes gs = .ok bytes ∧ f.getSet off i = .ok bytes := by
  simp only [glyphSetsSection, ite_panic, Res.bind_eq_ok, Res.pure_eq, Res.ok.injEq] at hs
  obtain ⟨hcount, hord, _, hc, blocks, hb, rfl⟩ := hs
  obtain ⟨h1, h2, h3⟩ := checkSets_ok hc
  obtain ⟨gs, hg, hgi⟩ := h1 i hi
  obtain ⟨hbl, hbb⟩ := mapRes_ok hb
  have hset : b.setsInOrder.length = b.glyphSetsOrder.length := h2
  have hii : i < b.setsInOrder.length := by omega
  have hib : i < blocks.length := by omega
  have hgi' : b.setsInOrder[i] = gs := by
    have h5 : b.setsInOrder[i]? = some gs := hgi
    rw [List.getElem?_eq_getElem hii] at h5
    simpa using h5
  have hbi := hbb i hii hib
  rw [hgi'] at hbi
  refine ⟨gs, blocks[i], hg, hbi, ?_⟩
  have hsizes : b.setsInOrder.map setSize = blocks.map List.length := by
    apply List.ext_getElem
    · simp [hbl]
    · intro k hk hk'
      rw [List.getElem_map, List.getElem_map]
      exact ((setBytes_enc hn hl (hbb k (by simpa using hk) (by simpa using hk'))).1).symm
  rw [hsizes] at ha
  have hnum := ha.left.left.byte
  rw [byte_val, Nat.mod_eq_of_lt (by omega)] at hnum
  have hends := ha.left.right
  have hblocks := ha.right
  rw [List.length_append, List.length_singleton, ends16_length, List.length_map] at hblocks
  rw [List.length_singleton] at hends
  have hlen := hblocks.len
  rw [flatten_length] at hlen
  have hsum : (blocks.map List.length).sum ≤ 65535 := by
    have := h3 (by omega)
    have e : (List.filterMap (fun u => b.glyphSets.get u) b.glyphSetsOrder).map setSize =
      blocks.map List.length := hsizes
    rw [e] at this
    omega
  obtain ⟨e1, e2⟩ := bounds16 hends hsum (i := i) (by simpa using hib)
  have hps := psum_le_sum (blocks.map List.length) (i + 1)
  have hpm := psum_succ (l := blocks.map List.length) (i := i) (by simpa using hib)
  rw [List.getElem_map] at hpm
  have hpos : 2 ≤ blocks[i].length := by
    rw [(setBytes_enc hn hl hbi).1, setSize]; omega
  rw [Font.getSet_eq (by omega) (by omega) (by omega) (by omega) (by omega), e1, e2, hnum, hpm]
  have := (hblocks.block hib).sub
  rw [show off + 1 + 2 * b.glyphSets.length + psum (blocks.map List.length) i =
    off + (1 + 2 * blocks.length) + psum (blocks.map List.length) i by omega, Nat.add_sub_cancel_left, this]

end BuilderModel
