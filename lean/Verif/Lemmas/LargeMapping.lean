import Verif.Lemmas.Mapping
import Verif.Lemmas.LargeMasks

/-! # Mappings of more than 16 MiB -/

namespace BuilderModel
open Go Helpers Spec FontModel

/-- An entry whose end is not after its start. -/
theorem _root_.FontModel.Font.findEntry_panic {f : Font} {target j : Nat}
    (hs : f.KeysSorted) (hj : j < nEntries f.data f)
    (ht : u32At f.data (f.offMapping + 2 + 4 * j) = target)
    (he : end24 f.data (mappingEnds f.data f) j ≤ start24 f.data (mappingEnds f.data f) j)
    (hl : mappingData f.data f ≤ f.data.length) :
    f.findEntry target = .panic "invalid font data" := by
  have hm : mappingData f.data f = f.offMapping + 2 + 4 * nEntries f.data f + 3 * nEntries f.data f := rfl
  have hm' : mappingEnds f.data f = f.offMapping + 2 + 4 * nEntries f.data f := rfl
  rw [Font.findEntry, Font.numEntries, rd16_eq (by omega), Res.ok_bind]
  have e : u16At f.data f.offMapping = nEntries f.data f := rfl
  rw [e]
  rw [Font.KeysSorted] at hs
  generalize mappingData f.data f = M at *
  generalize mappingEnds f.data f = E at *
  generalize nEntries f.data f = n at *
  obtain ⟨i, hi, he', hu⟩ := Font.search32_find (D := f.data) (base := f.offMapping + 2) (target := target)
      (n := n) (by omega) (by omega) hs
  obtain rfl := hu j hj ht
  simp only [he', Res.ok_bind, Font.shl2, Font.shl1]
  rw [if_neg (by omega), rd32_eq (by omega), Res.ok_bind, if_neg (by simp [ht])]
  rw [show f.offMapping + 2 + 4 * n + j + 2 * j = E + 3 * j by omega, rd24_eq (by omega), Res.ok_bind]
  have es : (if j > 0 then rd24 f.data (E + 3 * j - 3) else Res.ok 0) = .ok (start24 f.data E j) := by
    split
    · rename_i h0
      rw [rd24_eq (by omega), start24_succ _ _ _ h0, end24]
      congr 2; omega
    · have : j = 0 := by omega
      subst this; rfl
  rw [es, Res.ok_bind]
  have ee : u24At f.data (E + 3 * j) = end24 f.data E j := rfl
  rw [ee, if_pos he]

namespace Builder

/-- The bytes of the groups do not depend on the data before them. -/
theorem casesBytes_inj {b : Builder} : ∀ {gs : List MapGroup} {l l' : Nat} {x x' : Bytes},
    b.casesBytes l gs = .ok x → b.casesBytes l' gs = .ok x' → x = x'
  | [], _, _, _, _, h, h' => by
    rw [casesBytes] at h h'
    rw [← Res.ok.inj h, ← Res.ok.inj h']
  | g :: gs, l, l', x, x', h, h' => by
    simp only [casesBytes, Res.bind_eq_ok, ite_err, Res.pure_eq, Res.ok.injEq] at h h'
    obtain ⟨y, hy, _, z, hz, rfl⟩ := h
    obtain ⟨y', hy', _, z', hz', rfl⟩ := h'
    rw [hy] at hy'
    obtain rfl := Res.ok.inj hy'
    rw [casesBytes_inj hz hz']

/-- The bytes of an entry do not depend on the data before it. -/
theorem entryBytes_inj {b : Builder} {e : MapEntry} {l l' : Nat} {x x' : Bytes}
    (h : b.entryBytes l e = .ok x) (h' : b.entryBytes l' e = .ok x') : x = x' := by
  by_cases h1 : e.switchType = 255
  · have : b.entryBytes l e = b.entryBytes l' e := by
      unfold entryBytes
      rw [if_pos h1, if_pos h1]
    rw [this, h'] at h
    exact (Res.ok.inj h).symm
  · by_cases h2 : e.switchType = 254
    · have : b.entryBytes l e = b.entryBytes l' e := by
        unfold entryBytes
        rw [if_neg h1, if_pos h2, if_neg h1, if_pos h2]
      rw [this, h'] at h
      exact (Res.ok.inj h).symm
    · rw [entryBytes, if_neg h1, if_neg h2] at h h'
      simp only [Res.bind_eq_ok, Res.pure_eq, Res.ok.injEq] at h h'
      obtain ⟨y, hy, rfl⟩ := h
      obtain ⟨y', hy', rfl⟩ := h'
      rw [casesBytes_inj hy hy']

/-- A group takes up to 258 bytes. -/
theorem groupBytes_le {b : Builder} {g : MapGroup} {x : Bytes} (h : b.groupBytes g = .ok x) : x.length ≤ 258 := by
  simp only [groupBytes, ite_panic, Res.bind_eq_ok] at h
  obtain ⟨hl, is, hi, h⟩ := h
  have hil := (mapRes_ok hi).1
  split at h
  · rw [Res.pure_eq] at h
    rw [← Res.ok.inj h]
    simp [appendUint16LE]
  · split at h
    · rw [Res.pure_eq] at h
      rw [← Res.ok.inj h]
      simp [appendUint16LE]
    · rw [Res.pure_eq] at h
      rw [← Res.ok.inj h]
      have e : ((isort natLe is).map (appendUint16LE [])).map List.length = List.replicate is.length 2 := by
        rw [List.map_map, List.eq_replicate_iff]
        refine ⟨by rw [List.length_map]; exact (isort_perm natLe is).length_eq, ?_⟩
        intro y hy
        obtain ⟨z, _, rfl⟩ := List.mem_map.1 hy
        rfl
      rw [List.length_append, flatten_length, e, List.sum_replicate_nat]
      simp only [List.length_cons, List.length_nil]
      omega

theorem casesBytes_le {b : Builder} : ∀ {gs : List MapGroup} {l : Nat} {x : Bytes},
    b.casesBytes l gs = .ok x → x.length ≤ 258 * gs.length
  | [], _, _, h => by rw [casesBytes] at h; rw [← Res.ok.inj h]; simp
  | g :: gs, l, x, h => by
    simp only [casesBytes, Res.bind_eq_ok, ite_err, Res.pure_eq, Res.ok.injEq] at h
    obtain ⟨y, hy, _, z, hz, rfl⟩ := h
    have := groupBytes_le hy
    have := casesBytes_le hz
    simp only [List.length_append, List.length_cons]
    omega

theorem entryBytes_le {b : Builder} {e : MapEntry} {l : Nat} {x : Bytes}
    (h : b.entryBytes l e = .ok x) : x.length ≤ 259 + 258 * e.cases.length := by
  rw [entryBytes] at h
  split at h
  · split at h
    · split at h
      · simp only [Res.bind_eq_ok, Res.pure_eq, Res.ok.injEq] at h
        obtain ⟨i, _, rfl⟩ := h
        simp only [appendUint16LE, List.length_append, List.length_cons, List.length_nil]
        omega
      · cases h
    · cases h
  · split at h
    · split at h
      · simp only [ite_panic, Res.bind_eq_ok, Res.pure_eq, Res.ok.injEq] at h
        obtain ⟨_, y, hy, rfl⟩ := h
        have := groupBytes_le hy
        simp only [List.length_append, List.length_cons, List.length_nil]
        omega
      · cases h
    · simp only [Res.bind_eq_ok, Res.pure_eq, Res.ok.injEq] at h
      obtain ⟨y, hy, rfl⟩ := h
      have := casesBytes_le hy
      simp only [List.length_append, List.length_cons, List.length_nil]
      omega

end Builder

namespace Table
variable {b b' : Builder} {f : Font} {cs : List Int} {blocks : List Bytes}

theorem start_eq (t : Table b b' f cs blocks) {j : Nat} (hj : j < blocks.length)
    (h : psum (blocks.map List.length) j ≤ 16777215) :
    start24 f.data (mappingEnds f.data f) j = psum (blocks.map List.length) j := by
  cases j with
  | zero => rw [psum_zero]; rfl
  | succ j =>
    rw [start24_succ _ _ _ (by omega), end24, Nat.add_sub_cancel,
      ends24_at t.atEnds (by rw [List.length_map]; omega), Nat.zero_add, Nat.mod_eq_of_lt (by omega)]

theorem end_eq (t : Table b b' f cs blocks) {j : Nat} (hj : j < blocks.length) :
    end24 f.data (mappingEnds f.data f) j = psum (blocks.map List.length) (j + 1) % 16777216 := by
  rw [end24, ends24_at t.atEnds (by simpa using hj), Nat.zero_add]

/-- The first entry that ends after 16 MiB is not found as it was written. -/
theorem wraps (t : Table b b' f cs blocks) (h : 16777215 < (blocks.map List.length).sum) :
    ∃ j, ∃ hj : j < cs.length, ∃ hb : j < blocks.length,
      ((blocks[j]).length < 16777216 → f.findEntry (runeBits cs[j]) = .panic "invalid font data") ∧
      ∀ k s e m, f.findEntry (runeBits cs[j]) = .ok (some (k, s, e, m)) → e + 1 < s + (blocks[j]).length := by
  obtain ⟨j, hb, h1, h2⟩ := exists_wrap h
  rw [List.length_map] at hb
  have hj : j < cs.length := by rw [← t.len]; exact hb
  have hs := t.start_eq hb h1
  have he := t.end_eq hb
  have hblk := (t.block hb).len
  have hsucc := psum_succ (l := blocks.map List.length) (i := j) (by simpa using hb)
  rw [List.getElem_map] at hsucc
  have hkey : u32At f.data (f.offMapping + 2 + 4 * j) = runeBits cs[j] := by
    rw [t.keys j hj, runeBits]; have := t.range j hj; omega
  refine ⟨j, hj, hb, fun hlt => ?_, fun k s e m hf => ?_⟩
  · exact Font.findEntry_panic t.sorted (by rw [t.num]; exact hj) hkey (by rw [he, hs]; omega) (by omega)
  · rcases Nat.lt_or_ge (start24 f.data (mappingEnds f.data f) j) (end24 f.data (mappingEnds f.data f) j) with h3 | h3
    · rw [Font.findEntry_some t.sorted (by rw [t.num]; exact hj) hkey h3 (by rw [hs]; omega)] at hf
      simp only [Res.ok.injEq, Option.some.injEq, Prod.mk.injEq] at hf
      rw [hs, he] at hf
      omega
    · rw [Font.findEntry_panic t.sorted (by rw [t.num]; exact hj) hkey h3 (by omega)] at hf
      cases hf

end Table
end BuilderModel
