import Verif.Lemmas.BuildAt
import Verif.Lemmas.FindEntry
import Verif.Lemmas.GlyphIndex
import Verif.Lemmas.Sort
import Verif.Spec.Mapping

/-! # The mapping of a built font -/

namespace BuilderModel
open Go Helpers Spec FontModel

namespace Builder

/-- The blocks of the entries, in order. -/
theorem entriesLoop_ok {b : Builder} : ∀ {cs : List Int} {len : Nat} {blocks : List Bytes},
    b.entriesLoop len cs = .ok blocks → blocks.length = cs.length ∧
    ∀ i (hi : i < cs.length) (hb : i < blocks.length), ∃ e l, b.runeMapping.get cs[i] = some e ∧
      b.computeNumSwitchCases e.switchType = .ok e.cases.length ∧ b.entryBytes l e = .ok blocks[i]
  | [], len, blocks, h => by
    simp only [entriesLoop, Res.ok.injEq] at h; subst h; simp
  | c :: cs, len, blocks, h => by
    rw [entriesLoop] at h
    split at h
    · cases h
    · rename_i e he
      simp only [Res.bind_eq_ok, ite_panic, Res.pure_eq, Res.ok.injEq] at h
      obtain ⟨n, hn, hne, x, hx, rest, hr, rfl⟩ := h
      obtain ⟨h1, h2⟩ := entriesLoop_ok hr
      refine ⟨by simp [h1], fun i hi hb => ?_⟩
      cases i with
      | zero => exact ⟨e, len, by simpa using he, by rw [hn]; congr 1; omega, by simpa using hx⟩
      | succ i => simpa using h2 i (by simpa using hi) (by simpa using hb)

/-- An entry starts with its switch type. -/
theorem entryBytes_cons {b : Builder} {l : Nat} {e : MapEntry} {x : Bytes}
    (h : b.entryBytes l e = .ok x) : ∃ y, x = byte e.switchType :: y := by
  rw [entryBytes] at h
  split at h
  · split at h
    · split at h
      · simp only [Res.bind_eq_ok, Res.pure_eq, Res.ok.injEq] at h
        obtain ⟨i, _, rfl⟩ := h
        exact ⟨_, rfl⟩
      · cases h
    · cases h
  · split at h
    · split at h
      · simp only [ite_panic, Res.bind_eq_ok, Res.pure_eq, Res.ok.injEq] at h
        obtain ⟨_, i, _, rfl⟩ := h
        exact ⟨_, rfl⟩
      · cases h
    · simp only [Res.bind_eq_ok, Res.pure_eq, Res.ok.injEq] at h
      obtain ⟨i, _, rfl⟩ := h
      exact ⟨_, rfl⟩

end Builder

/-- The table of a built font: the code points `cs` in ascending order, the bytes of their entries. -/
structure Table (b b' : Builder) (f : Font) (cs : List Int) (blocks : List Bytes) : Prop where
  count : cs.length = b.runeMapping.length
  len : blocks.length = cs.length
  mem : ∀ x, x ∈ cs ↔ x ∈ b.runeMapping.keys
  range : ∀ a (h : a < cs.length), 0 ≤ cs[a] ∧ cs[a] < 2147483648
  entries : ∀ i (hi : i < cs.length) (hb : i < blocks.length), ∃ e l, b.runeMapping.get cs[i] = some e ∧
    b'.computeNumSwitchCases e.switchType = .ok e.cases.length ∧ b'.entryBytes l e = .ok blocks[i]
  num : nEntries f.data f = cs.length
  ends : mappingEnds f.data f = f.offMapping + (2 + 4 * cs.length)
  data : mappingData f.data f = f.offMapping + (2 + 4 * cs.length + 3 * blocks.length)
  keys : ∀ a (h : a < cs.length), u32At f.data (f.offMapping + 2 + 4 * a) = cs[a].toNat
  sorted : f.KeysSorted
  atEnds : At f.data (mappingEnds f.data f) (ends24 0 (blocks.map List.length))
  atData : At f.data (mappingData f.data f) blocks.flatten
  size : f.offConditions = f.offMapping + (2 + 7 * b.runeMapping.length) + (blocks.map List.length).sum

theorem built_table {env : Env} {b b' : Builder} {f : Font} {s : Parts} {w bi : GoMap Bytes Int}
    (h : Built env b b' f s w bi) (hk : b.runeMapping.keys.Nodup)
    (hr : ∀ c ∈ b.runeMapping.keys, c < 2147483648) : ∃ cs blocks, Table b b' f cs blocks := by
  have ha := h.atMapping
  have hm := h.mapping
  have e1 : b'.runeMapping = b.runeMapping := by rw [h.b'_eq]
  simp only [Builder.mappingSection, ite_panic, Res.bind_eq_ok, Res.pure_eq, Res.ok.injEq, e1] at hm
  obtain ⟨hn, hneg, blocks, hbl, hx⟩ := hm
  have hperm := isort_perm (fun x y : Int => decide (x ≤ y)) b.runeMapping.keys
  have hsorted := isort_pairwise (le := fun x y : Int => decide (x ≤ y))
    (by simp; omega) (by simp; omega) b.runeMapping.keys
  obtain ⟨hl, hbl⟩ := Builder.entriesLoop_ok hbl
  have hlen := hperm.length_eq
  have hkl : b.runeMapping.keys.length = b.runeMapping.length := by simp [GoMap.keys]
  have hnd := hperm.nodup_iff.2 hk
  have hmem : ∀ x, x ∈ isort (fun x y : Int => decide (x ≤ y)) b.runeMapping.keys ↔
      x ∈ b.runeMapping.keys := fun x => hperm.mem_iff
  generalize isort (fun x y : Int => decide (x ≤ y)) b.runeMapping.keys = cs at *
  have hrange : ∀ a (h1 : a < cs.length), 0 ≤ cs[a] ∧ cs[a] < 2147483648 := by
    intro a h1
    have hin := (hmem _).1 (List.getElem_mem h1)
    refine ⟨?_, hr _ hin⟩
    simp only [List.any_eq_true, decide_eq_true_eq, not_exists, not_and] at hneg
    have := hneg _ hin
    omega
  have hlt : ∀ a d (h1 : a < d) (h2 : d < cs.length), cs[a] < cs[d] := by
    intro a d h1 h2
    have q1 := (List.pairwise_iff_getElem.1 hsorted) a d (by omega) h2 h1
    have q2 := (List.pairwise_iff_getElem.1 (List.nodup_iff_pairwise_ne.1 hnd)) a d (by omega) h2 h1
    simp only [decide_eq_true_eq] at q1
    omega
  rw [← hx] at ha
  have ha1 := ha.left.left.left
  have ha2 := ha.left.left.right
  have ha3 := ha.left.right
  have ha4 := ha.right
  have hl16 : (appendUint16LE [] b.runeMapping.length).length = 2 := rfl
  have hc4 : ((cs.map fun c => appendUint32LE [] c.toNat).map List.length) =
      List.replicate cs.length 4 := by
    rw [List.map_map, List.eq_replicate_iff]
    refine ⟨by simp, ?_⟩
    intro x hx
    simp only [List.mem_map, Function.comp_apply] at hx
    obtain ⟨y, _, rfl⟩ := hx
    rfl
  have hfl : (cs.map fun c => appendUint32LE [] c.toNat).flatten.length = 4 * cs.length := by
    rw [flatten_length, hc4, List.sum_replicate_nat]; omega
  have hlenx : s.mapping.length = 2 + 4 * cs.length + 3 * blocks.length +
      (blocks.map List.length).sum := by
    rw [← hx]
    simp only [List.length_append, hl16, hfl, ends24_length, List.length_map]
    rw [flatten_length]
  have hoff : f.offConditions = f.offMapping + s.mapping.length := by
    rw [h.font]
    simp only [Parts.font, Parts.pre, Parts.list, List.take, List.flatten_cons, List.flatten_nil,
      List.length_append, List.length_nil]
    omega
  rw [List.length_append, hl16, hfl] at ha3
  simp only [List.length_append, hl16, hfl, ends24_length, List.length_map] at ha4
  rw [hl16] at ha2
  have hN : nEntries f.data f = cs.length := by
    rw [nEntries, ha1.u16, Nat.mod_eq_of_lt, ← hkl, hlen]
    simp only [FontModel.maxGlyphs] at hn; omega
  have hE : mappingEnds f.data f = f.offMapping + (2 + 4 * cs.length) := by
    rw [mappingEnds, hN]; omega
  have hM : mappingData f.data f = f.offMapping + (2 + 4 * cs.length + 3 * blocks.length) := by
    rw [mappingData, hE, hN]; omega
  have hu32 : ∀ a (h1 : a < cs.length), u32At f.data (f.offMapping + 2 + 4 * a) = cs[a].toNat := by
    intro a h1
    have := ha2.block (i := a) (by simpa using h1)
    have hps : psum (List.replicate cs.length 4) a = 4 * a := by
      rw [psum, List.take_replicate, Nat.min_eq_left (by omega), List.sum_replicate_nat, Nat.mul_comm]
    rw [hc4, hps, List.getElem_map] at this
    rw [this.u32, Nat.mod_eq_of_lt]
    have := hrange a h1
    omega
  have hks : f.KeysSorted := by
    intro a d h1 h2
    rw [hN] at h2
    rw [hu32 a (by omega), hu32 d h2]
    have := hlt a d h1 h2
    have := hrange a (by omega)
    omega
  refine ⟨cs, blocks, by omega, hl, hmem, hrange, ?_, hN, hE, hM, hu32, hks, ?_, ?_, ?_⟩
  · rw [← e1]; exact hbl
  · rw [hE]; exact ha3
  · rw [hM]; exact ha4
  · rw [hoff, hlenx]; omega

/-- The place of a code point in the table. -/
theorem Table.place {b b' : Builder} {f : Font} {cs : List Int} {blocks : List Bytes} (t : Table b b' f cs blocks)
    {c : Int} {e : MapEntry} (he : b.runeMapping.get c = some e) : ∃ j, ∃ hj : j < cs.length, cs[j] = c ∧
      ∃ l, b'.computeNumSwitchCases e.switchType = .ok e.cases.length ∧
        b'.entryBytes l e = .ok (blocks[j]'(by rw [t.len]; exact hj)) := by
  have hcm : c ∈ cs := by
    rw [t.mem]
    exact List.mem_map.2 ⟨_, GoMap.mem_of_get he, rfl⟩
  obtain ⟨j, hj, hjc⟩ := List.getElem_of_mem hcm
  have hjb : j < blocks.length := by rw [t.len]; exact hj
  obtain ⟨e', l, hge, hcases, hbytes⟩ := t.entries j hj hjb
  rw [hjc, he] at hge
  cases hge
  exact ⟨j, hj, hjc, l, hcases, hbytes⟩

/-- The bytes of an entry are where the ends before it put them. -/
theorem Table.block {b b' : Builder} {f : Font} {cs : List Int} {blocks : List Bytes} (t : Table b b' f cs blocks)
    {j : Nat} (hj : j < blocks.length) :
    At f.data (mappingData f.data f + psum (blocks.map List.length) j) blocks[j] := t.atData.block hj

/-- Code points that are not mapped are not found. -/
theorem built_none {env : Env} {b b' : Builder} {f : Font} {s : Parts} {w bi : GoMap Bytes Int}
    (h : Built env b b' f s w bi) (hk : b.runeMapping.keys.Nodup)
    (hr : ∀ c ∈ b.runeMapping.keys, c < 2147483648) (c : Int)
    (hc : -2147483648 ≤ c ∧ c < 2147483648) (hnone : b.runeMapping.get c = none) :
    f.findEntry (runeBits c) = .ok none := by
  obtain ⟨cs, blocks, t⟩ := built_table h hk hr
  apply Font.findEntry_none _ t.sorted
  · intro j hj heq
    rw [t.num] at hj
    rw [t.keys j hj] at heq
    have hcj : cs[j] = c := by
      have := t.range j hj
      rw [runeBits] at heq
      omega
    rw [GoMap.get_eq_none, ← t.mem, ← hcj] at hnone
    exact hnone (List.getElem_mem hj)
  · have := t.atEnds.len
    omega

/-- What the lookup of a code point finds in a built font. -/
theorem built_entry {env : Env} {b b' : Builder} {f : Font} {s : Parts} {w bi : GoMap Bytes Int}
    (h : Built env b b' f s w bi) (hk : b.runeMapping.keys.Nodup)
    (hr : ∀ c ∈ b.runeMapping.keys, c < 2147483648)
    (hsize : f.offConditions - (f.offMapping + (2 + 7 * b.runeMapping.length)) ≤ 16777215) (c : Int)
    (hc : -2147483648 ≤ c ∧ c < 2147483648) (e : MapEntry) (he : b.runeMapping.get c = some e) :
    ∃ l x start, b'.entryBytes l e = .ok x ∧
      b'.computeNumSwitchCases e.switchType = .ok e.cases.length ∧
      At f.data (mappingData f.data f + start) x ∧
      f.findEntry (runeBits c) =
        .ok (some (e.switchType % 256, start + 1, start + x.length, mappingData f.data f)) := by
  obtain ⟨cs, blocks, t⟩ := built_table h hk hr
  obtain ⟨j, hj, hjc, l, hcases, hbytes⟩ := t.place he
  have hjb : j < blocks.length := by rw [t.len]; exact hj
  obtain ⟨hb1, hb2⟩ := bounds24 t.atEnds (by have := t.size; omega) (i := j) (by simpa using hjb)
  have hblk := t.block hjb
  rw [psum_succ (by simpa using hjb), List.getElem_map] at hb2
  obtain ⟨y, hy⟩ := Builder.entryBytes_cons hbytes
  refine ⟨l, blocks[j], _, hbytes, hcases, hblk, ?_⟩
  have hpos : 0 < (blocks[j]).length := by rw [hy]; simp
  have hfl2 := hblk.len
  rw [Font.findEntry_some t.sorted (by rw [t.num]; exact hj) (j := j) (target := runeBits c)
    (by rw [t.keys j hj, hjc, runeBits]; have := t.range j hj; omega)
    (by rw [hb1, hb2]; omega) (by rw [hb1]; omega), hb1, hb2]
  rw [hy] at hblk
  rw [hblk.byte, byte_val]

end BuilderModel
