import Verif.Lemmas.Kern
import Verif.Lemmas.BuildAt

/-! # The glyphs and values of kerning tables that are written -/

namespace BuilderModel.Builder
open Go Spec FontModel

/-- When a table is written, its glyphs exist and its pairs have values. -/
theorem kernSection_glyphs {b : Builder} (hn : b.glyphOrder.Nodup) (hl : b.glyphOrder.length ≤ 65536)
    {pairs values : GoMap (Nat × Nat) KernPair} {bytes : Bytes} (h : b.kernSection pairs values = .ok bytes)
    {p : Nat × Nat} (hp : p ∈ pairs.keys) :
    (∃ i j : Nat, b.glyphOrder[i]? = some p.1 ∧ b.glyphOrder[j]? = some p.2) ∧ p ∈ values.keys := by
  simp only [kernSection, Res.bind_eq_ok] at h
  obtain ⟨ks, hks, h⟩ := h
  simp only [ite_panic, Res.bind_eq_ok, Res.pure_eq, Res.ok.injEq] at h
  obtain ⟨_, vs, hvs, rfl⟩ := h
  obtain ⟨hl1, hks⟩ := mapRes_ok hks
  obtain ⟨hl2, hvs⟩ := mapRes_ok hvs
  have hperm : (isort natLe ks).Perm ks := isort_nat_perm _
  obtain ⟨a, ha, rfl⟩ := List.mem_iff_getElem.1 hp
  have ha' : a < ks.length := by omega
  obtain ⟨i, j, hi, hj, e⟩ := (pairKey_iff hn hl).1 (hks a ha ha')
  refine ⟨⟨i, j, hi, hj⟩, ?_⟩
  obtain ⟨c, hc, he⟩ := List.mem_iff_getElem.1 (hperm.mem_iff.2 (List.getElem_mem ha'))
  have hv := hvs c hc (by omega)
  rw [he, e] at hv
  obtain ⟨hi', hi⟩ := List.getElem?_eq_some_iff.1 hi
  obtain ⟨hj', hj⟩ := List.getElem?_eq_some_iff.1 hj
  have e1 : u16 ((i * 65536 + j) >>> 16) = i := by
    rw [Nat.shiftRight_eq_div_pow, u16]; omega
  have e2 : u16 (i * 65536 + j) = j := by rw [u16]; omega
  rw [pairValue, e1, e2, idx_lt hi', idx_lt hj', hi, hj] at hv
  simp only [Res.ok_bind] at hv
  cases hg : values.get pairs.keys[a] with
  | none =>
    have : values.get (pairs.keys[a].1, pairs.keys[a].2) = none := hg
    rw [this] at hv
    cases hv
  | some x =>
    refine Classical.byContradiction fun hm => ?_
    rw [GoMap.get_eq_none.2 hm] at hg
    cases hg

end BuilderModel.Builder
