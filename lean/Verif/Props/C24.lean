import Verif.Lemmas.BuiltMapping
import Verif.Lemmas.Overflow

/-!
# C24: switch-dependent mappings select the group of the evaluated case

Holds when the groups of all cases before the evaluated one are single glyphs, lists of less than 128
glyphs or ranges of exactly 128. After other ranges the code looks at the wrong place, since it skips
them as if they were lists.
-/

namespace C24
open Go Spec FontModel BuilderModel

/-- The groups of an entry are stored with their glyphs (in ascending order of indices) and flags; and
when the switch evaluates to case `k`, and the groups before it can be skipped, the lookup gives the
place of group `k`. -/
theorem case_partial (env : Env) (b b' : Builder) (f : Font) (h : b.build env = .ok (b', f))
    (hm : MapOk b) (hsize : f.offConditions - (f.offMapping + (2 + 7 * b.runeMapping.length)) ≤ 16777215) (c : Int)
    (hc : -2147483648 ≤ c ∧ c < 2147483648) (e : MapEntry) (he : b.runeMapping.get c = some e)
    (ht : e.switchType < 254) :
    ∃ sts : List Stored, sts.length = e.cases.length ∧
      (∀ i (hi : i < e.cases.length) (hs : i < sts.length), sts[i].Valid ∧
        sts[i].glyphs.Pairwise (· ≤ ·) ∧
        (sts[i].glyphs.map fun i => b.glyphOrder[i]?).Perm (e.cases[i].glyphs.map some) ∧
        (2 ≤ e.cases[i].glyphs.length → sts[i].flags = e.cases[i].animFlags.toNat)) ∧
      ∀ settings k, f.evaluateSwitch e.switchType settings = .ok k → (hk : k < sts.length) →
        (∀ i (hi : i < sts.length), i < k → sts[i].Skippable) →
        ∃ r, f.utf8 (runeBits c) settings = .ok (some r) ∧ r.direct = false ∧ r.caseBranch = k ∧
          r.switchType = e.switchType ∧ At f.data r.offset sts[k].bytes := by
  obtain ⟨s, w, bi, hB⟩ := build_parts h
  obtain ⟨sts, h1, h2, h3⟩ := utf8_switch hB hm hsize hc he ht
  refine ⟨sts, h1, fun i hi hs => ?_, h3⟩
  obtain ⟨q1, q2, q3, q4, _⟩ := h2 i hi hs
  exact ⟨q1, q2, q3, q4⟩

/-- For entries of `MapWithSwitchSingles`, and for all values of the settings of a switch with up to
256 combinations, the selected glyph is the one given for the case. -/
theorem singles_partial (env : Env) (b b' : Builder) (f : Font) (h : b.build env = .ok (b', f))
    (hm : MapOk b) (hsize : f.offConditions - (f.offMapping + (2 + 7 * b.runeMapping.length)) ≤ 16777215) (c : Int)
    (hc : -2147483648 ≤ c ∧ c < 2147483648) (k : Nat) (us : List Nat)
    (he : b.runeMapping.get c = some ⟨k, us.map fun u => ⟨[u], 0⟩⟩) (hk : k < b.switches.length)
    (ht : k < 254) (hok : SwitchOk b b.switches[k])
    (hcount : us.length = combinations (b.switches[k].map (options b)))
    (hsmall : combinations (b.switches[k].map (options b)) ≤ 256) (settings : List Nat)
    (hset : b.settings.length ≤ settings.length)
    (hval : ∀ j ∈ b.switches[k], settings.getD j 0 < options b j) :
    ∃ r i, f.utf8 (runeBits c) settings = .ok (some r) ∧ f.groupSize r = .ok 1 ∧
      f.groupAnimFlags r = .ok 0 ∧ f.groupSelect r 0 = .ok i ∧
      b.glyphOrder[i]? = us[mixedRadix (b.switches[k].map fun j => (options b j, settings.getD j 0))]? ∧
      i < b.glyphOrder.length := by
  obtain ⟨s, w, bi, hB⟩ := build_parts h
  obtain ⟨sts, h1, h2, h3⟩ := utf8_switch hB hm hsize hc he ht
  have hlt := mixedRadix_lt (b.switches[k].map fun j => (options b j, settings.getD j 0)) (by
    intro d hd
    obtain ⟨j, hj, rfl⟩ := List.mem_map.1 hd
    exact hval j hj)
  rw [List.map_map, show (Prod.fst ∘ fun j => (options b j, settings.getD j 0)) = options b from rfl,
    ← hcount] at hlt
  have hev := evaluate_built hB hk hok hset
  generalize mixedRadix _ = m at hev hlt ⊢
  rw [Nat.mod_eq_of_lt (by omega)] at hev
  simp only [List.length_map] at h1 h2
  have hsingle : ∀ i (hi : i < sts.length), ∃ j, sts[i] = .single j := by
    intro i hi
    exact (h2 i (by omega) hi).2.2.2.2 (by simp)
  obtain ⟨r, r1, r2, r3, r4, r5⟩ := h3 settings m hev (by omega) (by
    intro i hi _
    obtain ⟨j, hj⟩ := hsingle i hi
    rw [hj]; trivial)
  obtain ⟨j, hj⟩ := hsingle m (by omega)
  obtain ⟨q1, _, q3, _, _⟩ := h2 m (by omega) (by omega)
  rw [hj] at r5 q1 q3
  refine ⟨r, j, r1, groupSize_eq r2 r5 q1, by rw [groupAnimFlags_eq r2 r5 q1]; rfl,
    groupSelect_single r2 r5 q1, ?_⟩
  simp only [Stored.glyphs, List.map_cons, List.map_nil, List.getElem_map] at q3
  have hp := List.perm_singleton.1 q3
  have hg : b.glyphOrder[j]? = some us[m] := by simpa using hp
  exact ⟨by rw [hg, List.getElem?_eq_getElem hlt], (List.getElem?_eq_some_iff.1 hg).1⟩

/-- `MapWithSwitchSingles` makes such entries, one glyph for each combination (counted with 64 bits). It does not check that
the glyphs exist. -/
theorem mapWithSwitchSingles_ok (b b' : Builder) (c : Int) (k : Nat) (us : List Nat)
    (hne : ∀ s ∈ b.switches, s ≠ []) (h : b.mapWithSwitchSingles c k us = .ok b') :
    32 ≤ c ∧ k < 254 ∧ b'.runeMapping.get c = some ⟨k, us.map fun u => ⟨[u], 0⟩⟩ ∧
    (∀ c', c' ≠ c → b'.runeMapping.get c' = b.runeMapping.get c') ∧
    b' = { b with runeMapping := b'.runeMapping } ∧
    ∃ sw, b.switches[k]? = some sw ∧ us.length < 9223372036854775808 ∧
      us.length = combinations (sw.map (options b)) % 18446744073709551616 := by
  simp only [Builder.mapWithSwitchSingles, ite_err, ite_panic, Res.bind_eq_ok, Res.pure_eq,
    Res.ok.injEq] at h
  obtain ⟨h1, h2, h3, n, hn, h4, rfl⟩ := h
  rw [← Decidable.not_not.1 h4] at hn
  obtain ⟨sw, s1, _, _, s2, s3⟩ := numCases_length (by omega) hn hne
  refine ⟨by omega, by omega, GoMap.get_set_self _ _ _, fun c' hc => GoMap.get_set_ne _ _ hc, rfl, sw,
    s1, s3, s2.symm⟩

/-- A range before the evaluated case: the second group for C is the range 2, 3. The lookup gives a
place inside of other data, from which selection reads glyph 511. -/
theorem case_violated : let f := (Sample.result Sample.mapped).2
    (∃ b', Sample.mapped.build Sample.env = .ok (b', f)) ∧
    Sample.mapped.runeMapping.get 67 = some ⟨0, [⟨[1001, 1002], 5⟩, ⟨[1003, 1004], 6⟩]⟩ ∧
    f.evaluateSwitch 0 [1] = .ok 1 ∧ Sample.chosen f 67 [0] 0 = .ok (some 0) ∧
    Sample.chosen f 67 [0] 1 = .ok (some 1) ∧
    Sample.chosen f 67 [1] 0 = .ok (some 511) := by
  refine ⟨⟨(Sample.result Sample.mapped).1, ?_⟩, ?_⟩ <;> decide +kernel

/-- With 2^64 combinations, no glyphs are asked for, and none is accepted for A. The font is parsed back, and has four
glyphs. The lookup of A finds data of another code point, from which selection reads the glyphs 9 and 10. -/
theorem overflow_violated : let f := (Sample.result Sample.noCasesMore).2
    Sample.noCasesMore.runeMapping.get 65 = some ⟨0, []⟩ ∧ ReadBack Sample.env Sample.noCasesMore f ∧
    Sample.noCasesMore.glyphOrder.length = 4 ∧
    Sample.chosen f 65 (List.replicate 64 0) 0 = .ok (some 9) ∧
    Sample.chosen f 65 (List.replicate 64 0) 1 = .ok (some 10) := by
  refine ⟨by decide +kernel, noCasesMore_readBack, ?_, ?_, ?_⟩ <;> decide +kernel

/-- `MapWithSwitch` with single glyphs among the groups: flags are collected for groups of two and
more glyphs only, but taken with the index of the group. Correct calls panic. -/
theorem mapWithSwitch_violated :
    (Sample.switched.mapWithSwitch 66 0 [[1001], [1002]] []).isPanic = true ∧
    (Sample.switched.mapWithSwitch 66 0 [[1001], [1002, 1003]] [7]).isPanic = true := by
  decide +kernel

/-- The example: A with single glyphs, B with lists. -/
example : let f := (Sample.result Sample.mapped).2
    Sample.mapped.runeMapping.get 65 = some ⟨0, [⟨[1003], 0⟩, ⟨[1001], 0⟩]⟩ ∧
    Sample.mapped.runeMapping.get 66 = some ⟨0, [⟨[1001, 1003], 5⟩, ⟨[1004, 1002], 6⟩]⟩ ∧
    Sample.chosen f 65 [0] 0 = .ok (some 2) ∧ Sample.chosen f 65 [1] 0 = .ok (some 0) ∧
    Sample.chosen f 66 [0] 0 = .ok (some 0) ∧ Sample.chosen f 66 [1] 0 = .ok (some 1) := by
  decide +kernel

example : MapOk Sample.mapped ∧ SwitchOk Sample.mapped [0] ∧ Sample.mapped.switches = [[0]] ∧
    combinations ([0].map (options Sample.mapped)) = 2 := by
  refine ⟨⟨?_, ?_, ?_⟩, ⟨?_, ?_, ?_, ?_⟩, ?_⟩ <;> decide +kernel

end C24
