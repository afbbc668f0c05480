import Verif.Lemmas.TextRules

/-!
# All the rules over code points of built fonts
-/

namespace BuilderModel
open Go Spec Builder FontModel TesterModel

/-- The codes of all the rules over code points, whatever their code points. -/
theorem built_utf8_wide {env : BuilderModel.Env} {b b' : Builder} {f : Font} (hr : Reachable b)
    (h : b.build env = .ok (b', f)) :
    ∃ R : List RuleCode, R.length = b.utf8Rules.length ∧
      (∀ i (hi : i < R.length), f.getUtf8Rule i = .ok (R[i].bytes word32)) ∧
      (R.map fun r => (⟨0, r.singles, r.outs, 0⟩ : Replacement)) = textRules b ∧
      ∀ r ∈ R, r.condition = 255 ∧ r.NoSets ∧ r.Ok (· < 4294967296) := by
  obtain ⟨s, w, bi, hB⟩ := build_parts h
  have e1 : b'.utf8Rules = b.utf8Rules := by rw [hB.b'_eq]
  have key : ∀ i < b.utf8Rules.length, ∃ rc : RuleCode, f.getUtf8Rule i = .ok (rc.bytes word32) ∧
      some ⟨0, rc.singles, rc.outs, 0⟩ = (textRules b)[i]? ∧ rc.condition = 255 ∧ rc.NoSets ∧ rc.Ok (· < 4294967296) := by
    intro i hi
    obtain ⟨bytes, h1, h2⟩ := built_rule hB.atUtf8Rules hB.utf8Rules (i := i) (by rw [e1]; exact hi)
    simp only [e1] at h1
    have hm := List.getElem_mem hi
    obtain ⟨c, seq, bits, hc, hs, ho, a1, a2, a3, a4, a5, a6, a7⟩ := hr.madeRules.1 _ hm
    obtain ⟨hg, hseq⟩ := merge_ones_only ho.groups ho.elems a7
    obtain ⟨rc, rfl, r1, r2, r3, r4, r5, r6, r7, r8, r9⟩ := rule_code (φ := id)
      (Builder.rune_codes (fun _ => True) fun _ => trivial) (fun e u he => by
        simp only [Option.some.injEq] at he; exact he) ho hg h1
    obtain ⟨r9, r10⟩ := r9
    rw [List.map_id] at r9 r10
    have hcond : rc.condition = 255 := by rw [r1, a5]; rfl
    have hsing : rc.singles = b.utf8Rules[i].inElems := r9
    have houts : rc.outs = [c] := by rwa [a4] at r10
    obtain ⟨o1, o2, o3⟩ := ok_of_singles (P := fun v => v < 4294967296) r2 r3 r4 (fun v hmem => by
      rw [hsing, hseq] at hmem
      exact hs v hmem)
    refine ⟨rc, by rw [Font.getUtf8Rule]; exact h2, ?_, hcond, r8, ?_⟩
    · rw [textRules, List.getElem?_map, List.getElem?_eq_getElem hi, r9, r10]; rfl
    · have := ho.len
      have := ho.le
      exact ⟨o1, o2, o3, by omega, by rw [houts]; simp, by rw [houts, r6, a2]; exact a6⟩
  obtain ⟨R, g1, g2⟩ := codes_list key
  refine ⟨R, g1, fun i hi => (g2 i hi).1, ?_, fun r hm => ?_⟩
  · refine List.ext_getElem? fun i => ?_
    by_cases hi : i < R.length
    · rw [List.getElem?_map, List.getElem?_eq_getElem hi]; exact (g2 i hi).2.1
    · rw [List.getElem?_eq_none (by simpa using hi), List.getElem?_eq_none (by rw [textRules, List.length_map]; omega)]
  · obtain ⟨i, hi, rfl⟩ := List.getElem_of_mem hm
    exact (g2 i hi).2.2

end BuilderModel
