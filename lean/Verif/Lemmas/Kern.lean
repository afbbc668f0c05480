import Verif.Lemmas.GlyphIndex
import Verif.Lemmas.Search32
import Verif.Spec.Kern
import Verif.Lemmas.Sort
import Verif.Lemmas.BuildParts
import Verif.Lemmas.Accessors

/-! # Kerning tables -/

namespace BuilderModel
open Go Spec FontModel

theorem get_eq_lookup {K V : Type} [DecidableEq K] [BEq K] [LawfulBEq K] (m : GoMap K V) (k : K) : m.get k = m.lookup k := by
  induction m with
  | nil => rfl
  | cons e m ih =>
    obtain ⟨k', v⟩ := e
    rw [GoMap.get, List.lookup_cons]
    by_cases h : k' = k
    · subst h; simp
    · have : (k == k') = false := by simpa using fun e => h (Eq.symm e)
      rw [if_neg h, this]; exact ih

theorem getElem?_idxOf' {l : List Nat} {u : Nat} (h : u ∈ l) : l[l.idxOf u]? = some u := by
  have := List.idxOf_lt_length_of_mem h
  rw [List.getElem?_eq_getElem this, List.getElem_idxOf]

theorem pair_or {i j : Nat} (hj : j < 65536) : (i <<< 16) ||| j = i * 65536 + j := by
  rw [← Nat.shiftLeft_add_eq_or_of_lt (by omega), Nat.shiftLeft_eq]

theorem int8_byte {v : Int} (h : IsInt8 v) : Font.int8 (byte (v % 256).toNat).toNat = v := by
  obtain ⟨h1, h2⟩ := h
  rw [byte_toNat, Font.int8]
  split <;> omega

namespace Builder

theorem pairKey_iff {b : Builder} (hn : b.glyphOrder.Nodup) (hl : b.glyphOrder.length ≤ 65536)
    {key : Nat × Nat} {k : Nat} : b.pairKey key = .ok k ↔
      ∃ i j, b.glyphOrder[i]? = some key.1 ∧ b.glyphOrder[j]? = some key.2 ∧ k = i * 65536 + j := by
  have hlt : ∀ {i u : Nat}, b.glyphOrder[i]? = some u → i < 65536 := by
    intro i u h
    obtain ⟨h, _⟩ := List.getElem?_eq_some_iff.1 h
    omega
  simp only [pairKey, Res.bind_eq_ok, glyphIndexP_iff hn hl, Res.pure_eq, Res.ok.injEq]
  constructor
  · rintro ⟨i, hi, j, hj, rfl⟩
    exact ⟨i, j, hi, hj, pair_or (hlt hj)⟩
  · rintro ⟨i, j, hi, hj, rfl⟩
    exact ⟨i, hi, j, hj, pair_or (hlt hj)⟩

theorem pairValue_eq {b : Builder} (hl : b.glyphOrder.length ≤ 65536)
    {values : GoMap (Nat × Nat) KernPair} (hv : ∀ e ∈ values, IsInt8 e.2.value)
    (hc : ∀ v ∈ b.kernClasses, IsInt8 v) {i j u v : Nat} (hi : b.glyphOrder[i]? = some u)
    (hj : b.glyphOrder[j]? = some v) {x : UInt8}
    (h : b.pairValue values (i * 65536 + j) = .ok x) :
    Font.int8 x.toNat = kernOf b.kernClasses values (u, v) := by
  obtain ⟨hi', hi⟩ := List.getElem?_eq_some_iff.1 hi
  obtain ⟨hj', hj⟩ := List.getElem?_eq_some_iff.1 hj
  have e1 : u16 ((i * 65536 + j) >>> 16) = i := by
    rw [Nat.shiftRight_eq_div_pow, u16]; omega
  have e2 : u16 (i * 65536 + j) = j := by rw [u16]; omega
  rw [pairValue, e1, e2, idx_lt hi', idx_lt hj', hi, hj] at h
  simp only [Res.ok_bind] at h
  rw [kernOf, ← get_eq_lookup]
  cases hg : values.get (u, v) with
  | none => rw [hg] at h; cases h
  | some p =>
    rw [hg] at h
    simp only at h ⊢
    split at h
    · rename_i h0
      rw [if_pos h0]
      rw [← Res.ok.inj h]
      exact int8_byte (hv _ (GoMap.mem_of_get hg))
    · rename_i h0
      rw [if_neg h0]
      simp only [Res.bind_eq_ok, Res.pure_eq, Res.ok.injEq] at h
      obtain ⟨w, hw, rfl⟩ := h
      by_cases hlt : p.cls - 1 < b.kernClasses.length
      · rw [idx_lt hlt] at hw
        rw [List.getElem?_eq_getElem hlt, Option.getD_some, Res.ok.inj hw]
        refine int8_byte (hc _ ?_)
        rw [← Res.ok.inj hw]; exact List.getElem_mem hlt
      · rw [idx_ge (by omega)] at hw; cases hw

/-- A kerning table of a font: for pairs of `pairs`, the values of `values`; zero otherwise. -/
theorem kernAt_eq {b : Builder} (hn : b.glyphOrder.Nodup) (hl : b.glyphOrder.length ≤ 65536)
    {pairs values : GoMap (Nat × Nat) KernPair} (hk : pairs.keys.Nodup)
    (hv : ∀ e ∈ values, IsInt8 e.2.value) (hc : ∀ v ∈ b.kernClasses, IsInt8 v)
    (hcount : pairs.length ≤ 16777215)
    {bytes : Bytes} (h : b.kernSection pairs values = .ok bytes)
    {f : Font} {off : Nat} (ha : At f.data off bytes) :
    rd24 f.data off = .ok pairs.length ∧
    ∀ i j, i < 65536 → j < 65536 → f.kernAt off i j = .ok (
      match b.glyphOrder[i]?, b.glyphOrder[j]? with
      | some u, some v => if (u, v) ∈ pairs.keys then kernOf b.kernClasses values (u, v) else 0
      | _, _ => 0) := by
  simp only [kernSection, Res.bind_eq_ok] at h
  obtain ⟨ks, hks, h⟩ := h
  simp only [ite_panic, Res.bind_eq_ok, Res.pure_eq, Res.ok.injEq] at h
  obtain ⟨_, vs, hvs, rfl⟩ := h
  obtain ⟨hl1, hks⟩ := mapRes_ok hks
  obtain ⟨hl2, hvs⟩ := mapRes_ok hvs
  have hperm : (isort natLe ks).Perm ks := isort_nat_perm _
  have hlen := hperm.length_eq
  have hkl : pairs.keys.length = pairs.length := by simp [GoMap.keys]
  generalize hsd : isort natLe ks = sorted at *
  -- keys are distinct
  have hinj : ∀ a c (h1 : a < ks.length) (h2 : c < ks.length), ks[a] = ks[c] → a = c := by
    intro a c h1 h2 he
    obtain ⟨i, j, hi, hj, e⟩ := (pairKey_iff hn hl).1 (hks a (by omega) h1)
    obtain ⟨i', j', hi', hj', e'⟩ := (pairKey_iff hn hl).1 (hks c (by omega) h2)
    have hb : ∀ {i u : Nat}, b.glyphOrder[i]? = some u → i < 65536 := by
      intro i u h
      obtain ⟨h, _⟩ := List.getElem?_eq_some_iff.1 h
      omega
    have := hb hi; have := hb hj; have := hb hi'; have := hb hj'
    obtain rfl : i = i' := by omega
    obtain rfl : j = j' := by omega
    refine nodup_inj hk (hi := by omega) (hj := by omega) (Prod.ext ?_ ?_)
    · rw [hi] at hi'; exact Option.some.inj hi'
    · rw [hj] at hj'; exact Option.some.inj hj'
  have hnd : sorted.Nodup := by
    rw [hperm.nodup_iff, List.nodup_iff_pairwise_ne, List.pairwise_iff_getElem]
    intro a c h1 h2 hac he
    have := hinj a c h1 h2 he
    omega
  have hle : sorted.Pairwise (fun a c => a ≤ c) := hsd ▸ isort_nat_pairwise _
  have hlt : ∀ a c (h1 : a < c) (h2 : c < sorted.length), sorted[a] < sorted[c] := by
    intro a c h1 h2
    have e1 := (List.pairwise_iff_getElem.1 hle) a c (by omega) h2 h1
    have e2 := (List.pairwise_iff_getElem.1 (List.nodup_iff_pairwise_ne.1 hnd)) a c (by omega) h2 h1
    omega
  have hbound : ∀ a (h1 : a < sorted.length), sorted[a] < 4294967296 := by
    intro a h1
    have hm : sorted[a] ∈ ks := hperm.mem_iff.1 (List.getElem_mem h1)
    obtain ⟨c, hc1, hc2⟩ := List.getElem_of_mem hm
    obtain ⟨i, j, hi, hj, e⟩ := (pairKey_iff hn hl).1 (hks c (by omega) hc1)
    obtain ⟨hi, _⟩ := List.getElem?_eq_some_iff.1 hi
    obtain ⟨hj, _⟩ := List.getElem?_eq_some_iff.1 hj
    omega
  -- the bytes
  have ha1 := ha.left.left
  have ha2 := ha.left.right
  have ha3 := ha.right
  have hl24 : (Helpers.appendUint24LE [] pairs.length).length = 3 := rfl
  have hbl : ((sorted.map (Helpers.appendUint32LE [])).map List.length) =
      List.replicate sorted.length 4 := by
    rw [List.map_map, List.eq_replicate_iff]
    refine ⟨by simp, ?_⟩
    intro x hx
    simp only [List.mem_map, Function.comp_apply] at hx
    obtain ⟨y, _, rfl⟩ := hx
    rfl
  have hps : ∀ a, a ≤ sorted.length → psum (List.replicate sorted.length 4) a = 4 * a := by
    intro a ha
    rw [psum, List.take_replicate, Nat.min_eq_left ha, List.sum_replicate_nat, Nat.mul_comm]
  rw [hl24] at ha2
  rw [List.length_append, hl24, flatten_length, hbl, List.sum_replicate_nat] at ha3
  have hrd : rd24 f.data off = .ok pairs.length := by
    rw [ha1.rd24, Nat.mod_eq_of_lt (by omega)]
  refine ⟨hrd, fun i j hi hj => ?_⟩
  have hu32 : ∀ a (h1 : a < sorted.length), u32At f.data (off + 3 + 4 * a) = sorted[a] := by
    intro a h1
    have := ha2.block (i := a) (by simpa using h1)
    rw [hbl, hps a (by omega), List.getElem_map] at this
    rw [this.u32, Nat.mod_eq_of_lt (hbound a h1)]
  have hlenD := ha3.len
  have hn' : sorted.length = pairs.length := by omega
  rw [Font.kernAt, hrd, pair_or hj]
  simp only [Res.ok_bind]
  generalize hT : i * 65536 + j = T
  have key : ∀ u v, b.glyphOrder[i]? = some u → b.glyphOrder[j]? = some v → (u, v) ∈ pairs.keys →
      T ∈ sorted := by
    intro u v hu hv' hm
    obtain ⟨c, hc1, hc2⟩ := List.getElem_of_mem hm
    have hc3 : c < ks.length := by omega
    obtain ⟨i', j', hi', hj', e⟩ := (pairKey_iff hn hl).1 (hks c hc1 hc3)
    rw [hc2] at hi' hj'
    have e1 := ((glyphIndex_iff hn hl).2 hu).symm.trans ((glyphIndex_iff hn hl).2 hi')
    have e2 := ((glyphIndex_iff hn hl).2 hv').symm.trans ((glyphIndex_iff hn hl).2 hj')
    simp only [Option.some.injEq] at e1 e2
    subst e1 e2
    rw [hperm.mem_iff, ← hT, ← e]
    exact List.getElem_mem hc3
  have nokey : ∀ a (h1 : a < sorted.length), sorted[a] = T → ∃ u v, b.glyphOrder[i]? = some u ∧
      b.glyphOrder[j]? = some v ∧ (u, v) ∈ pairs.keys := by
    intro a h1 he
    have hm : sorted[a] ∈ ks := hperm.mem_iff.1 (List.getElem_mem h1)
    obtain ⟨c, hc1, hc2⟩ := List.getElem_of_mem hm
    have hc3 : c < pairs.keys.length := by omega
    obtain ⟨i', j', hi', hj', e⟩ := (pairKey_iff hn hl).1 (hks c hc3 hc1)
    obtain ⟨hi1, _⟩ := List.getElem?_eq_some_iff.1 hi'
    obtain ⟨hj1, _⟩ := List.getElem?_eq_some_iff.1 hj'
    obtain rfl : i = i' := by omega
    obtain rfl : j = j' := by omega
    exact ⟨_, _, hi', hj', List.getElem_mem hc3⟩
  by_cases hz : pairs.length = 0
  · rw [hz]
    have hnil : pairs = [] := List.length_eq_zero_iff.1 hz
    rw [Font.search32_empty]
    simp only [Res.ok_bind]
    rw [if_pos (by omega)]
    subst hnil
    cases b.glyphOrder[i]? <;> cases b.glyphOrder[j]? <;> simp [GoMap.keys]
  · obtain ⟨p, hp, hs, huniq⟩ := Font.search32_find (D := f.data) (base := off + 3) (target := T)
      (n := pairs.length) (by omega) (by omega) (fun a c h1 h2 => by
        rw [hu32 a (by omega), hu32 c (by omega)]; exact hlt a c h1 (by omega))
    rw [hs]
    simp only [Res.ok_bind, Font.shl2]
    rw [if_neg (by omega), rd32_eq (by omega), hu32 p (by omega), Res.ok_bind]
    by_cases hT' : sorted[p]'(by omega) = T
    · rw [if_neg (by simpa using hT')]
      obtain ⟨u, v, hu, hv', hm⟩ := nokey p (by omega) hT'
      have hvp : p < vs.length := by omega
      have hb : rd8 f.data (off + 3 + 4 * pairs.length + p) = .ok vs[p].toNat := by
        rw [rd8_eq (by omega)]
        have := ha3.get (i := p) hvp
        rw [← this]
        congr 2
        omega
      have hpv := hvs p (by omega) hvp
      rw [hT', ← hT] at hpv
      rw [hb, hu, hv']
      simp only [Res.ok_bind, Res.pure_eq]
      rw [if_pos hm, pairValue_eq hl hv hc hu hv' hpv]
    · rw [if_pos (by simpa using hT')]
      have hnot : T ∉ sorted := by
        intro hm
        obtain ⟨c, hc1, hc2⟩ := List.getElem_of_mem hm
        have := huniq c (by omega) (by rw [hu32 c hc1, hc2])
        subst this
        exact hT' hc2
      cases hu : b.glyphOrder[i]? with
      | none => rfl
      | some u =>
        cases hv' : b.glyphOrder[j]? with
        | none => rfl
        | some v =>
          simp only [Res.pure_eq, Res.ok.injEq]
          rw [if_neg (fun hm => hnot (key u v hu hv' hm))]

/-- The section of a table is always written when the glyphs, values and classes exist. -/
theorem kernSection_exists {b : Builder} (hn : b.glyphOrder.Nodup) (hl : b.glyphOrder.length ≤ 65536)
    {pairs values : GoMap (Nat × Nat) KernPair} (hk : pairs.keys.Nodup)
    (hg : ∀ p ∈ pairs.keys, p.1 ∈ b.glyphOrder ∧ p.2 ∈ b.glyphOrder)
    (hv : ∀ p ∈ pairs.keys, p ∈ values.keys) (hc : ∀ e ∈ values, e.2.cls ≤ b.kernClasses.length) :
    ∃ x, b.kernSection pairs values = .ok x := by
  have hkey : ∀ p ∈ pairs.keys, b.pairKey p =
      .ok (b.glyphOrder.idxOf p.1 * 65536 + b.glyphOrder.idxOf p.2) := by
    intro p hp
    obtain ⟨h1, h2⟩ := hg p hp
    exact (pairKey_iff hn hl).2 ⟨_, _, getElem?_idxOf' h1, getElem?_idxOf' h2, rfl⟩
  have hidx : ∀ u ∈ b.glyphOrder, b.glyphOrder.idxOf u < 65536 := fun u hu => by
    have := List.idxOf_lt_length_of_mem hu; omega
  have hinj : ∀ u ∈ b.glyphOrder, ∀ v ∈ b.glyphOrder,
      b.glyphOrder.idxOf u = b.glyphOrder.idxOf v → u = v := by
    intro u hu v hv e
    have h1 := getElem?_idxOf' hu
    have h2 := getElem?_idxOf' hv
    rw [e, h2] at h1
    exact (Option.some.inj h1).symm
  rw [kernSection, mapRes_of hkey, Res.ok_bind]
  simp only
  generalize hks : pairs.keys.map (fun p : Nat × Nat =>
    b.glyphOrder.idxOf p.1 * 65536 + b.glyphOrder.idxOf p.2) = ks
  have hnd : ks.Nodup := by
    rw [← hks, List.nodup_iff_pairwise_ne, List.pairwise_map]
    refine (List.nodup_iff_pairwise_ne.1 hk).imp_of_mem ?_
    intro p q hp hq hpq e
    obtain ⟨p1, p2⟩ := hg p hp
    obtain ⟨q1, q2⟩ := hg q hq
    have := hidx _ p1; have := hidx _ p2; have := hidx _ q1; have := hidx _ q2
    exact hpq (Prod.ext (hinj _ p1 _ q1 (by omega)) (hinj _ p2 _ q2 (by omega)))
  have hperm : (isort natLe ks).Perm ks := isort_nat_perm _
  have hle : (isort natLe ks).Pairwise (fun a c => a ≤ c) := isort_nat_pairwise _
  have hnd' : (isort natLe ks).Nodup := hperm.nodup_iff.2 hnd
  rw [if_neg]
  · have : ∀ k ∈ isort natLe ks, ∃ x, b.pairValue values k = .ok x := by
      intro k hk'
      rw [hperm.mem_iff, ← hks, List.mem_map] at hk'
      obtain ⟨p, hp, rfl⟩ := hk'
      obtain ⟨p1, p2⟩ := hg p hp
      have e1 : u16 ((b.glyphOrder.idxOf p.1 * 65536 + b.glyphOrder.idxOf p.2) >>> 16) =
          b.glyphOrder.idxOf p.1 := by
        have := hidx _ p1; have := hidx _ p2
        rw [Nat.shiftRight_eq_div_pow, u16]; omega
      have e2 : u16 (b.glyphOrder.idxOf p.1 * 65536 + b.glyphOrder.idxOf p.2) =
          b.glyphOrder.idxOf p.2 := by
        have := hidx _ p2; rw [u16]; omega
      have i1 : idx b.glyphOrder (b.glyphOrder.idxOf p.1) = .ok p.1 :=
        idx_eq_ok.2 (getElem?_idxOf' p1)
      have i2 : idx b.glyphOrder (b.glyphOrder.idxOf p.2) = .ok p.2 :=
        idx_eq_ok.2 (getElem?_idxOf' p2)
      rw [pairValue, e1, e2, i1, i2]
      simp only [Res.ok_bind]
      cases hget : values.get (p.1, p.2) with
      | none => exact absurd (hv p hp) (GoMap.get_eq_none.1 hget)
      | some info =>
        simp only
        split
        · exact ⟨_, rfl⟩
        · have := hc _ (GoMap.mem_of_get hget)
          rw [idx_lt (by simp only at this; omega)]
          exact ⟨_, rfl⟩
    obtain ⟨vs, hvs⟩ : ∃ vs, mapRes (b.pairValue values) (isort natLe ks) = .ok vs := by
      clear hle hnd' hperm
      generalize isort natLe ks = l at this
      induction l with
      | nil => exact ⟨_, rfl⟩
      | cons k l ih =>
        obtain ⟨x, hx⟩ := this k (by simp)
        obtain ⟨vs, hvs⟩ := ih (fun k hk => this k (by simp [hk]))
        exact ⟨x :: vs, by rw [mapRes, hx, Res.ok_bind, hvs]; rfl⟩
    rw [hvs]
    exact ⟨_, rfl⟩
  · cases hl' : isort natLe ks with
    | nil => simp
    | cons a l =>
      rw [hl'] at hle hnd'
      rw [List.pairwise_cons] at hle
      rw [List.nodup_cons] at hnd'
      simp only [List.tail_cons, List.any_eq_true, beq_iff_eq, not_exists, not_and]
      rintro x hx rfl
      have := hle.1 0 hx
      obtain rfl : a = 0 := by omega
      exact hnd'.1 hx

theorem kernSection_ok {b : Builder} (hn : b.glyphOrder.Nodup) (hl : b.glyphOrder.length ≤ 65536)
    {pairs : GoMap (Nat × Nat) KernPair} (hk : pairs.keys.Nodup)
    (hg : ∀ p ∈ pairs.keys, p.1 ∈ b.glyphOrder ∧ p.2 ∈ b.glyphOrder)
    (hc : ∀ e ∈ pairs, e.2.cls ≤ b.kernClasses.length) :
    ∃ x, b.kernSection pairs pairs = .ok x :=
  kernSection_exists hn hl hk hg (fun _ h => h) hc

theorem setKerningPair_ok {b : Builder} (hb : KernOk b) (u v : Nat) {k : Int} (hk : IsInt8 k) :
    KernOk (b.setKerningPair u v k) ∧ ∀ p, kernOf b.kernClasses (b.setKerningPair u v k).horzKern p =
      if (u, v) = p then k else kernOf b.kernClasses b.horzKern p := by
  unfold setKerningPair
  split
  · rename_i h0
    refine ⟨⟨hb.order, GoMap.nodup_delete hb.horz _, hb.vert, ?_, hb.vertVal, hb.classes⟩, fun p => ?_⟩
    · intro e he
      exact hb.horzVal e (List.mem_filter.1 he).1
    · simp only [kernOf, ← get_eq_lookup]
      by_cases h : (u, v) = p
      · subst h; rw [GoMap.get_delete_self, h0]; simp
      · rw [GoMap.get_delete_ne _ (fun e => h e.symm), if_neg h]
  · refine ⟨⟨hb.order, GoMap.nodup_set hb.horz _ _, hb.vert, ?_, hb.vertVal, hb.classes⟩, fun p => ?_⟩
    · intro e he
      have hget := GoMap.get_of_mem (GoMap.nodup_set hb.horz (u, v) ⟨0, k⟩) (k := e.1) (v := e.2) he
      by_cases h : e.1 = (u, v)
      · rw [h, GoMap.get_set_self] at hget
        rw [← Option.some.inj hget]; exact hk
      · rw [GoMap.get_set_ne _ _ h] at hget
        exact hb.horzVal _ (GoMap.mem_of_get hget)
    · simp only [kernOf, ← get_eq_lookup]
      by_cases h : (u, v) = p
      · subst h; rw [GoMap.get_set_self]; simp
      · rw [GoMap.get_set_ne _ _ (fun e => h e.symm), if_neg h]

end Builder

theorem new_kernOk {rolls : List UInt64} {d : DateModel.Date} {b : Builder} (h : new rolls d = .ok b) :
    KernOk b := by
  unfold new at h
  split at h
  · cases h
  · rw [← Res.ok.inj h]
    exact ⟨by simp, by simp, by simp, by simp, by simp, by simp⟩

namespace Builder

theorem addGlyph_kernOk {b b' : Builder} {rolls : List Nat} {mask : Mask.Img} {uid : Nat}
    (hb : KernOk b) (hsync : ∀ u ∈ b.glyphOrder, b.glyphData.get u ≠ none)
    (h : b.addGlyph rolls mask = .ok (b', uid)) :
    KernOk b' ∧ ∀ u ∈ b'.glyphOrder, b'.glyphData.get u ≠ none := by
  simp only [Builder.addGlyph, Res.bind_eq_ok, ite_err] at h
  obtain ⟨_, _, _, h⟩ := h
  split at h
  · cases h
  · rename_i u hu
    simp only [Res.pure_eq, Res.ok.injEq, Prod.mk.injEq] at h
    obtain ⟨rfl, rfl⟩ := h
    have hn := List.find?_some hu
    simp only [Bool.and_eq_true, Option.isNone_iff_eq_none] at hn
    refine ⟨⟨?_, hb.horz, hb.vert, hb.horzVal, hb.vertVal, hb.classes⟩, ?_⟩
    · simp only [List.nodup_append]
      refine ⟨hb.order, by simp, ?_⟩
      rintro a ha c hc rfl
      simp only [List.mem_singleton] at hc
      exact hsync a ha (hc ▸ hn.1)
    · intro v hv
      simp only [List.mem_append, List.mem_singleton] at hv
      by_cases h : v = u
      · subst h; simp [GoMap.get_set_self]
      · simp only [GoMap.get_set_ne _ _ h]
        exact hsync v (hv.resolve_right h)

end Builder
end BuilderModel
