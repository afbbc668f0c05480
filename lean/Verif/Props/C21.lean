import Verif.Lemmas.BuiltMapping
import Verif.Lemmas.ManyCodePoints
import Verif.Spec.SampleBuilder

/-!
# C21: code point lookup finds exactly the mapped code points

For any table with ascending keys, and for all fonts made by the builder whose mapping entries have up
to 16 MiB: the end offsets have 24 bits, and `Build` does not check that the entries fit.
-/

namespace C21
open Go Spec FontModel BuilderModel

/-- For any mapping table with ascending keys and non-empty entries: the entry of the key that equals
the code point (its type byte, start, end), and not found when there is no such key. -/
theorem lookup (f : Font) (target : Nat)
    (hsorted : ∀ a b, a < b → b < nEntries f.data f →
      u32At f.data (f.offMapping + 2 + 4 * a) < u32At f.data (f.offMapping + 2 + 4 * b))
    (hbound : mappingData f.data f ≤ f.data.length)
    (hentries : ∀ j < nEntries f.data f,
      start24 f.data (mappingEnds f.data f) j < end24 f.data (mappingEnds f.data f) j ∧
      mappingData f.data f + end24 f.data (mappingEnds f.data f) j ≤ f.data.length) :
    ((∀ j < nEntries f.data f, u32At f.data (f.offMapping + 2 + 4 * j) ≠ target) ∧
      f.findEntry target = .ok none) ∨
    ∃ j < nEntries f.data f, u32At f.data (f.offMapping + 2 + 4 * j) = target ∧
      f.findEntry target = .ok (some
        (byteAt f.data (mappingData f.data f + start24 f.data (mappingEnds f.data f) j),
         start24 f.data (mappingEnds f.data f) j + 1, end24 f.data (mappingEnds f.data f) j,
         mappingData f.data f)) := by
  by_cases h : ∃ j, j < nEntries f.data f ∧ u32At f.data (f.offMapping + 2 + 4 * j) = target
  · obtain ⟨j, hj, ht⟩ := h
    obtain ⟨h1, h2⟩ := hentries j hj
    exact .inr ⟨j, hj, ht, Font.findEntry_some hsorted hj ht h1 (by omega)⟩
  · have hno : ∀ j < nEntries f.data f, u32At f.data (f.offMapping + 2 + 4 * j) ≠ target :=
      fun j hj ht => h ⟨j, hj, ht⟩
    refine .inl ⟨hno, Font.findEntry_none ?_ hsorted hno⟩
    rw [mappingData] at hbound
    omega

/-- A code point that is not mapped is not found in the built font. -/
theorem unmapped (env : Env) (b b' : Builder) (f : Font) (h : b.build env = .ok (b', f))
    (hm : MapOk b) (c : Int)
    (hc : -2147483648 ≤ c ∧ c < 2147483648) (hn : b.runeMapping.get c = none) (settings : List Nat) :
    f.utf8 (runeBits c) settings = .ok none := by
  obtain ⟨s, w, bi, hB⟩ := build_parts h
  exact utf8_none hB hm hc hn settings

/-- A code point mapped to a glyph gives a group with this glyph only. -/
theorem glyph_partial (env : Env) (b b' : Builder) (f : Font) (h : b.build env = .ok (b', f))
    (hm : MapOk b) (hsize : f.offConditions - (f.offMapping + (2 + 7 * b.runeMapping.length)) ≤ 16777215) (c : Int)
    (hc : -2147483648 ≤ c ∧ c < 2147483648) (u : Nat) (fl : UInt8)
    (he : b.runeMapping.get c = some ⟨255, [⟨[u], fl⟩]⟩) (settings : List Nat) :
    ∃ g i, f.utf8 (runeBits c) settings = .ok (some g) ∧ b.glyphOrder[i]? = some u ∧
      f.groupSize g = .ok 1 ∧ f.groupAnimFlags g = .ok 0 ∧ f.groupSelect g 0 = .ok i := by
  obtain ⟨s, w, bi, hB⟩ := build_parts h
  exact utf8_single hB hm hsize hc he settings

/-- A code point mapped to a group gives the place where this group is stored: its glyphs (in
ascending order of their indices) and its animation flags. -/
theorem group_partial (env : Env) (b b' : Builder) (f : Font) (h : b.build env = .ok (b', f))
    (hm : MapOk b) (hsize : f.offConditions - (f.offMapping + (2 + 7 * b.runeMapping.length)) ≤ 16777215) (c : Int)
    (hc : -2147483648 ≤ c ∧ c < 2147483648) (g : MapGroup)
    (he : b.runeMapping.get c = some ⟨254, [g]⟩) (settings : List Nat) :
    ∃ r, ∃ st : Stored, f.utf8 (runeBits c) settings = .ok (some r) ∧ r.direct = false ∧
      At f.data r.offset st.bytes ∧ st.Valid ∧ st.glyphs.Pairwise (· ≤ ·) ∧
      (st.glyphs.map fun i => b.glyphOrder[i]?).Perm (g.glyphs.map some) ∧
      st.flags = g.animFlags.toNat := by
  obtain ⟨s, w, bi, hB⟩ := build_parts h
  exact utf8_group hB hm hsize hc he settings

/-- A code point that is mapped in any way, also with a switch, leads to its own entry: the bytes at
the place that is found are those that `Build` makes for this entry. -/
theorem entry_partial (env : Env) (b b' : Builder) (f : Font) (h : b.build env = .ok (b', f))
    (hm : MapOk b) (hsize : f.offConditions - (f.offMapping + (2 + 7 * b.runeMapping.length)) ≤ 16777215) (c : Int)
    (hc : -2147483648 ≤ c ∧ c < 2147483648) (e : MapEntry) (he : b.runeMapping.get c = some e) :
    ∃ l x start, b'.entryBytes l e = .ok x ∧ At f.data (mappingData f.data f + start) x ∧
      f.findEntry (runeBits c) =
        .ok (some (e.switchType % 256, start + 1, start + x.length, mappingData f.data f)) := by
  obtain ⟨s, w, bi, hB⟩ := build_parts h
  have hr : ∀ c ∈ b.runeMapping.keys, c < 2147483648 := by
    intro c hc
    obtain ⟨e, he, rfl⟩ := List.mem_map.1 hc
    exact hm.runes e he
  obtain ⟨l, x, o, h1, h2, h3, h4⟩ := built_entry hB hm.keys hr hsize c hc _ he
  exact ⟨l, x, o, h1, h3, h4⟩

/-- Every mapped code point leads to its own entry exactly when the entries fit the 24 bits of their end offsets. -/
theorem entries_exact (env : Env) (b b' : Builder) (f : Font) (h : b.build env = .ok (b', f)) (hm : MapOk b) :
    (∀ c e, b.runeMapping.get c = some e → ∃ l x start, b'.entryBytes l e = .ok x ∧
      f.findEntry (runeBits c) =
        .ok (some (e.switchType % 256, start + 1, start + x.length, mappingData f.data f))) ↔
    f.offConditions - (f.offMapping + (2 + 7 * b.runeMapping.length)) ≤ 16777215 := by
  obtain ⟨s, w, bi, hB⟩ := build_parts h
  have hr : ∀ c ∈ b.runeMapping.keys, c < 2147483648 := by
    intro c hc
    obtain ⟨e, he, rfl⟩ := List.mem_map.1 hc
    exact hm.runes e he
  constructor
  · intro hall
    obtain ⟨cs, blocks, t⟩ := built_table hB hm.keys hr
    have hsz := t.size
    rcases Nat.lt_or_ge 16777215 (blocks.map List.length).sum with hbig | hsmall
    · exfalso
      obtain ⟨j, hj, hb, _, h2⟩ := t.wraps hbig
      obtain ⟨e, l, h3, _, h5⟩ := t.entries j hj hb
      obtain ⟨l', x, start, h6, h7⟩ := hall _ _ h3
      have := h2 _ _ _ _ h7
      rw [Builder.entryBytes_inj h6 h5] at this
      omega
    · omega
  · intro hsize c e he
    have hc : c ∈ b.runeMapping.keys := List.mem_map.2 ⟨_, GoMap.mem_of_get he, rfl⟩
    obtain ⟨cs, blocks, t⟩ := built_table hB hm.keys hr
    obtain ⟨j, hj, rfl⟩ := List.getElem_of_mem ((t.mem c).2 hc)
    have := t.range j hj
    obtain ⟨l, x, o, h1, h2, h3, h4⟩ := built_entry hB hm.keys hr hsize cs[j] (by omega) _ he
    exact ⟨l, x, o, h1, h4⟩

/-- Beyond that, when no entry has more than 65000 cases, some mapped code point can't be looked up. -/
theorem large_panics (env : Env) (b b' : Builder) (f : Font) (h : b.build env = .ok (b', f)) (hm : MapOk b)
    (hcases : ∀ e ∈ b.runeMapping, e.2.cases.length ≤ 65000)
    (hbig : 16777215 < f.offConditions - (f.offMapping + (2 + 7 * b.runeMapping.length))) :
    ∃ c e, b.runeMapping.get c = some e ∧ ∀ settings, f.utf8 (runeBits c) settings = .panic "invalid font data" := by
  obtain ⟨s, w, bi, hB⟩ := build_parts h
  have hr : ∀ c ∈ b.runeMapping.keys, c < 2147483648 := by
    intro c hc
    obtain ⟨e, he, rfl⟩ := List.mem_map.1 hc
    exact hm.runes e he
  obtain ⟨cs, blocks, t⟩ := built_table hB hm.keys hr
  have hsz := t.size
  obtain ⟨j, hj, hb, h1, _⟩ := t.wraps (by omega)
  obtain ⟨e, l, h3, _, h5⟩ := t.entries j hj hb
  have hl := Builder.entryBytes_le h5
  have := hcases _ (GoMap.mem_of_get h3)
  simp only at this
  refine ⟨_, e, h3, fun settings => ?_⟩
  rw [Font.utf8, h1 (by omega)]
  rfl

/-- A builder with 32500 code points whose entries take 517 bytes each: `Build` returns a font, in which the lookup of
a mapped code point panics whatever the settings. -/
theorem large_violated : ∃ b b' f, Reachable b ∧ b.build Sample.env = .ok (b', f) ∧ ∃ c e,
    b.runeMapping.get c = some e ∧ ∀ settings, f.utf8 (runeBits c) settings = .panic "invalid font data" := by
  obtain ⟨m, hr, h1, h2⟩ := Sample.many_codePoints 32500 (by omega)
  obtain ⟨⟨b', f⟩, hb, hsz⟩ := Sample.large_mapping_built (m := m) (fun e he => (h2 e he).2) (by omega)
  refine ⟨_, b', f, hr, hb, large_panics _ _ _ _ hb hr.inv.toKept.mapping (fun e he => ?_) ?_⟩
  · rw [(h2 e he).2.2]; decide
  · show 16777215 < f.offConditions - (f.offMapping + (2 + 7 * m.length))
    simp only at hsz
    omega

/-- `Map` accepts code points from 32 with a glyph that exists, and changes only this code point. -/
theorem map_exact (b : Builder) (c : Int) (u : Nat) :
    (∃ b', b.map c u = .ok b' ∧ 32 ≤ c ∧ (b.glyphData.get u).isSome ∧
      b'.runeMapping.get c = some ⟨255, [⟨[u], 0⟩]⟩ ∧
      (∀ c', c' ≠ c → b'.runeMapping.get c' = b.runeMapping.get c') ∧
      b' = { b with runeMapping := b'.runeMapping }) ∨
    (∃ m, b.map c u = .err m) ∧ (c < 32 ∨ b.glyphData.get u = none) := by
  rw [Builder.map]
  split
  · exact .inr ⟨⟨_, rfl⟩, .inl (by assumption)⟩
  · split
    · exact .inr ⟨⟨_, rfl⟩, .inr (Option.isNone_iff_eq_none.1 ‹_›)⟩
    · refine .inl ⟨_, rfl, by omega, ?_, GoMap.get_set_self _ _ _,
        fun c' hc => GoMap.get_set_ne _ _ hc, rfl⟩
      cases hg : b.glyphData.get u <;> simp_all

/-- `MapGroup`. -/
theorem mapGroup_exact (b : Builder) (c : Int) (fl : UInt8) (us : List Nat) :
    (∃ b', b.mapGroup c fl us = .ok b' ∧ 32 ≤ c ∧ 2 ≤ us.length ∧ us.length ≤ 127 ∧
      (∀ u ∈ us, (b.glyphData.get u).isSome) ∧
      b'.runeMapping.get c = some ⟨254, [⟨us, fl⟩]⟩ ∧
      (∀ c', c' ≠ c → b'.runeMapping.get c' = b.runeMapping.get c') ∧
      b' = { b with runeMapping := b'.runeMapping }) ∨
    (∃ m, b.mapGroup c fl us = .err m) ∧
      (c < 32 ∨ us.length < 2 ∨ 127 < us.length ∨ ∃ u ∈ us, b.glyphData.get u = none) := by
  rw [Builder.mapGroup]
  split
  · exact .inr ⟨⟨_, rfl⟩, .inl (by assumption)⟩
  · split
    · exact .inr ⟨⟨_, rfl⟩, .inr (.inl (by assumption))⟩
    · split
      · exact .inr ⟨⟨_, rfl⟩, .inr (.inr (.inl (by assumption)))⟩
      · split
        · rename_i ha
          obtain ⟨u, hu, hn⟩ := List.any_eq_true.1 ha
          exact .inr ⟨⟨_, rfl⟩, .inr (.inr (.inr ⟨u, hu, by simpa using hn⟩))⟩
        · rename_i ha
          refine .inl ⟨_, rfl, by omega, by omega, by omega, ?_, GoMap.get_set_self _ _ _,
            fun c' hc => GoMap.get_set_ne _ _ hc, rfl⟩
          intro u hu
          cases hg : b.glyphData.get u with
          | some _ => rfl
          | none => exact absurd (List.any_eq_true.2 ⟨u, hu, by rw [hg]; rfl⟩) ha

/-- Six mapped code points, one glyph each; a code point between, before and after them. -/
example : let f := (Sample.result Sample.mapped).2
    (∃ b', Sample.mapped.build Sample.env = .ok (b', f)) ∧
    Sample.chosen f 68 [0] 0 = .ok (some 1) ∧ Sample.chosen f 65 [0] 0 = .ok (some 2) ∧
    Sample.chosen f 65 [1] 0 = .ok (some 0) ∧ Sample.chosen f 70 [0] 0 = .ok (some 0) ∧
    Sample.chosen f 64 [0] 0 = .ok none ∧ Sample.chosen f 71 [0] 0 = .ok none ∧
    f.offConditions - f.offMapping ≤ 16777215 := by
  refine ⟨⟨(Sample.result Sample.mapped).1, ?_⟩, ?_⟩ <;> decide +kernel

example : MapOk Sample.mapped ∧ Sample.mapped.runeMapping.get 68 = some ⟨255, [⟨[1002], 0⟩]⟩ ∧
    Sample.mapped.runeMapping.get 69 = some ⟨254, [⟨[1003, 1002, 1001], 9⟩]⟩ := by
  refine ⟨⟨?_, ?_, ?_⟩, ?_⟩ <;> decide +kernel

/-- The built table meets the hypotheses of `lookup`. -/
example : let f := (Sample.result Sample.mapped).2
    (∀ b < nEntries f.data f, ∀ a < b,
      u32At f.data (f.offMapping + 2 + 4 * a) < u32At f.data (f.offMapping + 2 + 4 * b)) ∧
    mappingData f.data f ≤ f.data.length ∧ nEntries f.data f = 6 ∧
    ∀ j < nEntries f.data f,
      start24 f.data (mappingEnds f.data f) j < end24 f.data (mappingEnds f.data f) j ∧
      mappingData f.data f + end24 f.data (mappingEnds f.data f) j ≤ f.data.length := by
  decide +kernel

end C21
