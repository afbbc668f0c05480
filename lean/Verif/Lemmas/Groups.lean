import Verif.Lemmas.Mapping

/-! # Groups of glyphs -/

namespace BuilderModel
open Go Helpers Spec FontModel

theorem two_eq {v : Nat} (h : v < 65536) : two v = appendUint16LE [] v := by
  have e : UInt8.ofNat (v % 256) = UInt8.ofNat v := by apply UInt8.toNat_inj.1; simp
  simp [two, appendUint16LE, byte, Nat.shiftRight_eq_div_pow, e]

theorem two_length (v : Nat) : (two v).length = 2 := rfl

theorem At.two {D : Bytes} {o v : Nat} (h : At D o (two v)) (hv : v < 65536) :
    FontModel.rd16 D o = .ok v := by
  rw [two_eq hv] at h
  rw [h.rd16, Nat.mod_eq_of_lt hv]

theorem and127 : ∀ n : Nat, n < 256 → n &&& 0b01111111 = n % 128 := by decide +kernel
theorem and128 : ∀ n : Nat, n < 256 → (n &&& 0b10000000 = 0 ↔ n < 128) := by decide +kernel

theorem ofNat_small {n : Nat} (h : n < 256) : (UInt8.ofNat n).toNat = n := by
  simp; omega

namespace Stored'

/-- The first byte of a group. -/
def info : Stored → Nat
  | .single _ => 0
  | .range n _ _ => 128 + (n - 1)
  | .list _ gs => gs.length - 1

theorem info_lt {st : Stored} (h : st.Valid) : info st < 256 := by
  cases st <;> simp only [info, Stored.Valid] at * <;> omega

theorem bytes_cons (st : Stored) : ∃ y, st.bytes = UInt8.ofNat (info st) :: y := by
  cases st <;> exact ⟨_, rfl⟩

theorem rd_info {D : Bytes} {o : Nat} {st : Stored} (h : At D o st.bytes) (hv : st.Valid) :
    rd8 D o = .ok (info st) := by
  obtain ⟨y, hy⟩ := bytes_cons st
  rw [hy] at h
  rw [h.rd8, ofNat_small (info_lt hv)]

theorem size_eq {st : Stored} (hv : st.Valid) : (info st &&& 0b01111111) + 1 = st.glyphs.length := by
  rw [and127 _ (info_lt hv)]
  cases st <;> simp only [info, Stored.Valid, Stored.glyphs, List.length_map, List.length_range,
    List.length_singleton] at * <;> omega

theorem bytes_length {st : Stored} : st.bytes.length =
    match st with
    | .single _ => 3
    | .range _ _ _ => 4
    | .list _ gs => 2 + 2 * gs.length := by
  cases st with
  | single g => rfl
  | range n fl g => rfl
  | list fl gs =>
    simp only [Stored.bytes, List.length_cons, List.length_flatten, List.map_map]
    have : (List.map (List.length ∘ two) gs) = List.replicate gs.length 2 := by
      rw [List.eq_replicate_iff]
      refine ⟨by simp, ?_⟩
      intro x hx
      simp only [List.mem_map, Function.comp_apply] at hx
      obtain ⟨y, _, rfl⟩ := hx
      rfl
    rw [this, List.sum_replicate_nat]
    omega

/-- The glyphs of a list. -/
theorem rd_list {D : Bytes} {o : Nat} {fl : UInt8} {gs : List Nat}
    (h : At D o (Stored.list fl gs).bytes) (hv : (Stored.list fl gs).Valid) {j : Nat}
    (hj : j < gs.length) : rd16 D (o + 2 + 2 * j) = .ok gs[j] := by
  have h1 := (At.cons.1 (At.cons.1 h).2).2
  have := h1.block (i := j) (by simpa using hj)
  have e : ((gs.map two).map List.length) = List.replicate gs.length 2 := by
    rw [List.map_map, List.eq_replicate_iff]
    refine ⟨by simp, ?_⟩
    intro x hx
    simp only [List.mem_map, Function.comp_apply] at hx
    obtain ⟨y, _, rfl⟩ := hx
    rfl
  have hps : psum (List.replicate gs.length 2) j = 2 * j := by
    rw [psum, List.take_replicate, Nat.min_eq_left (by omega), List.sum_replicate_nat, Nat.mul_comm]
  rw [e, hps, List.getElem_map] at this
  exact this.two (hv.2.2 _ (List.getElem_mem hj))

end Stored'

open FontModel.Font

theorem groupSize_eq {f : Font} {g : Group} {st : Stored} (hd : g.direct = false)
    (h : At f.data g.offset st.bytes) (hv : st.Valid) : f.groupSize g = .ok st.glyphs.length := by
  rw [groupSize, hd]
  simp only [Bool.false_eq_true, if_false]
  rw [Stored'.rd_info h hv, Res.ok_bind, Res.pure_eq, Stored'.size_eq hv]

theorem groupSelect_out {f : Font} {g : Group} {st : Stored} (hd : g.direct = false)
    (h : At f.data g.offset st.bytes) (hv : st.Valid) {i : Nat} (hi : st.glyphs.length ≤ i) :
    (f.groupSelect g i).isPanic = true := by
  rw [groupSelect, hd]
  simp only [Bool.false_eq_true, if_false]
  rw [Stored'.rd_info h hv, Res.ok_bind, Stored'.size_eq hv, if_pos hi]
  rfl

theorem groupSelect_single {f : Font} {g : Group} {x : Nat} (hd : g.direct = false)
    (h : At f.data g.offset (Stored.single x).bytes) (hv : (Stored.single x).Valid) :
    f.groupSelect g 0 = .ok x := by
  rw [groupSelect, hd]
  simp only [Bool.false_eq_true, if_false]
  rw [Stored'.rd_info h hv, Res.ok_bind, Stored'.size_eq hv]
  exact (At.cons.1 h).2.two hv

theorem groupSelect_range {f : Font} {g : Group} {n x : Nat} {fl : UInt8} (hd : g.direct = false)
    (h : At f.data g.offset (Stored.range n fl x).bytes) (hv : (Stored.range n fl x).Valid) {i : Nat}
    (hi : i < n) : f.groupSelect g i = .ok (x + i) := by
  obtain ⟨h1, h2, h3⟩ := id hv
  rw [groupSelect, hd]
  simp only [Bool.false_eq_true, if_false]
  rw [Stored'.rd_info h hv, Res.ok_bind, Stored'.size_eq hv]
  have e1 : (Stored.range n fl x).glyphs.length = n := by simp [Stored.glyphs]
  have e2 : Stored'.info (Stored.range n fl x) = 128 + (n - 1) := rfl
  rw [e1, e2, if_neg (by omega), if_neg (by omega), if_pos (by rw [Ne, and128 _ (by omega)]; omega),
    (At.cons.1 (At.cons.1 h).2).2.two (by omega), Res.ok_bind, Res.pure_eq]
  congr 1
  rw [u16]
  omega

/-- What `Select` reads for lists: the choice is multiplied by 4 instead of 2. -/
theorem groupSelect_list {f : Font} {g : Group} {gs : List Nat} {fl : UInt8} (hd : g.direct = false)
    (h : At f.data g.offset (Stored.list fl gs).bytes) (hv : (Stored.list fl gs).Valid) {i : Nat}
    (hi : i < gs.length) : f.groupSelect g i = rd16 f.data (g.offset + 2 + 4 * i) := by
  obtain ⟨h1, h2, h3⟩ := id hv
  rw [groupSelect, hd]
  simp only [Bool.false_eq_true, if_false]
  rw [Stored'.rd_info h hv, Res.ok_bind, Stored'.size_eq hv]
  have e1 : (Stored.list fl gs).glyphs.length = gs.length := rfl
  have e2 : Stored'.info (Stored.list fl gs) = gs.length - 1 := rfl
  rw [e1, e2, shl2, if_neg (by omega), if_neg (by omega),
    if_neg (by rw [Ne, Decidable.not_not, and128 _ (by omega)]; omega)]

/-- What `AnimationFlags` reads: the byte after the flags. -/
theorem groupAnimFlags_eq {f : Font} {g : Group} {st : Stored} (hd : g.direct = false)
    (h : At f.data g.offset st.bytes) (hv : st.Valid) : f.groupAnimFlags g =
      if st.glyphs.length = 1 then .ok 0 else rd8 f.data (g.offset + 2) := by
  rw [groupAnimFlags, hd]
  simp only [Bool.false_eq_true, if_false]
  rw [Stored'.rd_info h hv, Res.ok_bind]
  have := Stored'.size_eq hv
  by_cases h0 : Stored'.info st &&& 0b01111111 = 0
  · rw [if_pos h0, if_pos (by omega)]; rfl
  · rw [if_neg h0, if_neg (by omega)]

/-- The number of bytes that the staircase skips for a group. -/
theorem staircase_step {D : Bytes} {base endOff start n : Nat} {st : Stored}
    (h : At D (base + start) st.bytes) (hv : st.Valid) (hs : st.Skippable)
    (he : start + st.bytes.length < endOff) :
    staircase D base endOff (n + 1) start = staircase D base endOff n (start + st.bytes.length) := by
  rw [staircase, Stored'.rd_info h hv]
  simp only [Res.ok_bind]
  rw [Stored'.size_eq hv]
  have hskip : (if st.glyphs.length > 1 then
      (if st.glyphs.length &&& 128 ≠ 0 then start + 3 else start + (1 + st.glyphs.length <<< 1)) + 1
      else (if st.glyphs.length &&& 128 ≠ 0 then start + 3 else start + (1 + st.glyphs.length <<< 1))) =
      start + st.bytes.length := by
    rw [Stored'.bytes_length]
    cases st with
    | single g => simp [Stored.glyphs]
    | range m fl g =>
      simp only [Stored.Skippable] at hs
      subst hs
      simp [Stored.glyphs]
    | list fl gs =>
      have e1 : (Stored.list fl gs).glyphs.length = gs.length := rfl
      simp only [Stored.Skippable, Stored.Valid] at hs hv
      rw [e1, if_pos (by omega), if_neg (by rw [Ne, Decidable.not_not, and128 _ (by omega)]; omega), shl1]
      show _ = start + (2 + 2 * gs.length)
      omega
  rw [hskip, if_neg (by omega)]

/-- The staircase goes past groups that can be skipped. -/
theorem staircase_eq {D : Bytes} {base endOff : Nat} : ∀ {gs : List Stored} {start k : Nat},
    At D (base + start) (gs.map Stored.bytes).flatten → (∀ g ∈ gs, g.Valid) → k < gs.length →
    start + (gs.map Stored.bytes).flatten.length ≤ endOff →
    (∀ i (hi : i < gs.length), i < k → gs[i].Skippable) →
    ∃ o, staircase D base endOff k start = .ok o ∧ At D (base + o) (gs[k]?.elim [] Stored.bytes)
  | [], _, _, _, _, hk, _, _ => by simp at hk
  | g :: gs, start, 0, h, hv, _, _, _ => ⟨start, rfl, by
      simp only [List.map_cons, List.flatten_cons] at h
      exact h.left⟩
  | g :: gs, start, k + 1, h, hv, hk, he, hs => by
    simp only [List.map_cons, List.flatten_cons, List.length_append] at h he
    have hk' : k < gs.length := by simpa using hk
    have hpos : 0 < (gs.map Stored.bytes).flatten.length := by
      cases gs with
      | nil => simp at hk'
      | cons a l =>
        obtain ⟨y, hy⟩ := Stored'.bytes_cons a
        simp [hy]
    rw [staircase_step h.left (hv g (by simp)) (hs 0 (by simp) (by omega)) (by omega)]
    have := staircase_eq (gs := gs) (start := start + g.bytes.length) (k := k) (endOff := endOff)
      (by rw [← Nat.add_assoc]; exact h.right) (fun x hx => hv x (by simp [hx])) hk' (by omega)
      (fun i hi hik => hs (i + 1) (by simpa using hi) (by omega))
    simpa using this

/-! ## Groups of the builder -/

namespace Builder

theorem continuous_eq : ∀ (l : List Nat) (a : Nat), isContinuous (a :: l) = true →
    (∀ x ∈ a :: l, x < 65535) → a :: l = (List.range (l.length + 1)).map (a + ·)
  | [], a, _, _ => by simp
  | b :: l, a, h, hl => by
    simp only [isContinuous, Bool.and_eq_true, beq_iff_eq] at h
    have ha := hl a (by simp)
    have hb : b = a + 1 := by
      rw [h.1, u16, Nat.mod_eq_of_lt (by omega)]
    have ih := continuous_eq l b h.2 (fun x hx => hl x (by simp [hx]))
    rw [List.length_cons, List.range_succ_eq_map, List.map_cons, List.map_map, ih, Nat.add_zero]
    congr 1
    apply List.map_congr_left
    intro x _
    simp only [Function.comp_apply]
    omega

/-- How the builder stores a group: its glyphs in ascending order. -/
theorem groupBytes_stored {b : Builder} (hn : b.glyphOrder.Nodup) (hl : b.glyphOrder.length ≤ 65535)
    {g : MapGroup} {x : Bytes} (h : b.groupBytes g = .ok x) :
    ∃ st : Stored, st.Valid ∧ x = st.bytes ∧ st.glyphs.Pairwise (· ≤ ·) ∧
      (st.glyphs.map fun i => b.glyphOrder[i]?).Perm (g.glyphs.map some) ∧
      (2 ≤ g.glyphs.length → st.flags = g.animFlags.toNat) ∧
      (g.glyphs.length = 1 → ∃ i, st = .single i) := by
  simp only [groupBytes, ite_panic, Res.bind_eq_ok] at h
  obtain ⟨hlen, idx, hidx, h⟩ := h
  obtain ⟨h1, h2⟩ := mapRes_ok hidx
  have hi : ∀ i (hi : i < idx.length), b.glyphOrder[idx[i]]? = some (g.glyphs[i]'(by omega)) :=
    fun i hi => (glyphIndexP_iff hn (by omega)).1 (h2 i (by omega) hi)
  have hmap : (idx.map fun i => b.glyphOrder[i]?) = g.glyphs.map some := by
    apply List.ext_getElem
    · simp [h1]
    · intro i q1 q2
      simp only [List.getElem_map]
      exact hi i (by simpa using q1)
  have hlt : ∀ i ∈ idx, i < 65535 := by
    intro i him
    obtain ⟨j, hj, rfl⟩ := List.getElem_of_mem him
    obtain ⟨q, _⟩ := List.getElem?_eq_some_iff.1 (hi j hj)
    omega
  split at h
  · rename_i i
    simp only [Res.pure_eq, Res.ok.injEq] at h
    have hi' := hlt i (by simp)
    refine ⟨.single i, by simp only [Stored.Valid]; omega, ?_, by simp [Stored.glyphs], ?_, ?_, ?_⟩
    · rw [← h, Stored.bytes, two_eq (by omega)]; rfl
    · rw [← hmap]; exact List.Perm.refl _
    · intro q; simp at h1; omega
    · intro _; exact ⟨i, rfl⟩
  · rename_i hne
    have hge : 2 ≤ g.glyphs.length := by
      rcases Nat.lt_or_ge g.glyphs.length 2 with q | q
      · have : idx.length = 1 := by omega
        obtain ⟨i, hi⟩ := List.length_eq_one_iff.1 this
        exact absurd hi (hne i)
      · exact q
    have hperm := isort_nat_perm idx
    have hpw := isort_nat_pairwise idx
    have hlt' : ∀ i ∈ isort natLe idx, i < 65535 := fun i q => hlt i (hperm.mem_iff.1 q)
    have hperm' : ((isort natLe idx).map fun i => b.glyphOrder[i]?).Perm (g.glyphs.map some) := by
      rw [← hmap]; exact hperm.map _
    have hlen' := hperm.length_eq
    generalize isort natLe idx = sorted at *
    split at h
    · rename_i hcont
      simp only [Res.pure_eq, Res.ok.injEq] at h
      cases sorted with
      | nil => simp at hlen'; omega
      | cons a l =>
        have hc := continuous_eq l a hcont hlt'
        have hn' : l.length + 1 = g.glyphs.length := by simp at hlen'; omega
        have hgl : (Stored.range g.glyphs.length g.animFlags a).glyphs = a :: l := by
          rw [hc, hn']; rfl
        refine ⟨.range g.glyphs.length g.animFlags a, ⟨hge, by omega, ?_⟩, ?_, ?_, ?_, ?_, ?_⟩
        · have hmem : a + l.length ∈ a :: l := by
            rw [hc, List.mem_map]
            exact ⟨l.length, by simp, rfl⟩
          have := hlt' _ hmem
          omega
        · rw [← h, Stored.bytes, two_eq (by have := hlt' a (by simp); omega)]
          have : ∀ n, n < 128 → (0b10000000 ||| n) = 128 + n := by decide +kernel
          rw [this _ (by omega)]
          rfl
        · rw [hgl]; exact hpw
        · rw [hgl]; exact hperm'
        · intro _; rfl
        · intro q; omega
    · simp only [Res.pure_eq, Res.ok.injEq] at h
      have hsl : sorted.length = g.glyphs.length := by omega
      refine ⟨.list g.animFlags sorted, ⟨by omega, by omega, ?_⟩, ?_, ?_, ?_, ?_, ?_⟩
      · intro i q; have := hlt' i q; omega
      · rw [← h, Stored.bytes, hsl]
        have : sorted.map two = sorted.map (appendUint16LE []) :=
          List.map_congr_left fun i q => two_eq (by have := hlt' i q; omega)
        rw [this]
        rfl
      · exact hpw
      · exact hperm'
      · intro _; rfl
      · intro q; omega

/-- The bytes of the cases of a switch. -/
theorem casesBytes_stored {b : Builder} (hn : b.glyphOrder.Nodup) (hl : b.glyphOrder.length ≤ 65535) :
    ∀ {gs : List MapGroup} {len : Nat} {x : Bytes}, b.casesBytes len gs = .ok x →
    ∃ sts : List Stored, sts.length = gs.length ∧ x = (sts.map Stored.bytes).flatten ∧
      ∀ i (hi : i < gs.length) (hs : i < sts.length), sts[i].Valid ∧
        b.groupBytes gs[i] = .ok sts[i].bytes ∧
        sts[i].glyphs.Pairwise (· ≤ ·) ∧
        (sts[i].glyphs.map fun i => b.glyphOrder[i]?).Perm (gs[i].glyphs.map some) ∧
        (2 ≤ gs[i].glyphs.length → sts[i].flags = gs[i].animFlags.toNat) ∧
        (gs[i].glyphs.length = 1 → ∃ j, sts[i] = .single j)
  | [], len, x, h => by
    simp only [casesBytes, Res.ok.injEq] at h
    exact ⟨[], rfl, h.symm, by simp⟩
  | g :: gs, len, x, h => by
    simp only [casesBytes, Res.bind_eq_ok, ite_err, Res.pure_eq, Res.ok.injEq] at h
    obtain ⟨y, hy, _, z, hz, rfl⟩ := h
    obtain ⟨st, s1, s2, s3, s4, s5, s6⟩ := groupBytes_stored hn hl hy
    obtain ⟨sts, t1, t2, t3⟩ := casesBytes_stored hn hl hz
    refine ⟨st :: sts, by simp [t1], by simp [s2, t2], fun i hi hs => ?_⟩
    cases i with
    | zero => exact ⟨s1, s2 ▸ hy, s3, s4, s5, s6⟩
    | succ i => exact t3 i (by simpa using hi) (by simpa using hs)

end Builder
end BuilderModel
