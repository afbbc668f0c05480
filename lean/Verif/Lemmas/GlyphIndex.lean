import Verif.Model.Build
import Verif.Lemmas.GoMap
import Verif.Lemmas.At

/-! # The table of glyph indices of `Build` -/

namespace BuilderModel

theorem nodup_inj {α : Type} {l : List α} (hn : l.Nodup) {i j : Nat} {hi : i < l.length}
    {hj : j < l.length} (h : l[i] = l[j]) : i = j := by
  have hp := List.pairwise_iff_getElem.1 (List.nodup_iff_pairwise_ne.1 hn)
  rcases Nat.lt_trichotomy i j with h1 | h1 | h1
  · exact absurd h (hp i j hi hj h1)
  · exact h1
  · exact absurd h.symm (hp j i hj hi h1)

end BuilderModel

namespace BuilderModel.Builder
open Go

theorem lookupLoop_get : ∀ (l : List Nat) (k : Nat) (m : GoMap Nat Nat), l.Nodup →
    k + l.length ≤ 65536 → ∀ u, (lookupLoop l k m).get u =
      match l.findIdx? (· == u) with
      | some i => some (k + i)
      | none => m.get u
  | [], k, m, _, _, u => by simp [lookupLoop]
  | v :: l, k, m, hn, hk, u => by
    rw [List.nodup_cons] at hn
    rw [List.length_cons] at hk
    rw [lookupLoop, lookupLoop_get l (k + 1) _ hn.2 (by omega)]
    rw [List.findIdx?_cons]
    by_cases h : v = u
    · subst h
      have : l.findIdx? (· == v) = none := by
        rw [List.findIdx?_eq_none_iff]
        intro x hx
        simp only [beq_eq_false_iff_ne]
        rintro rfl; exact hn.1 hx
      simp only [this, GoMap.get_set_self, beq_self_eq_true, if_true, u16, Nat.add_zero]
      rw [Nat.mod_eq_of_lt (by omega)]
    · have hb : (v == u) = false := by simpa using h
      simp only [hb]
      rw [GoMap.get_set_ne _ _ (fun e => h e.symm)]
      cases l.findIdx? (· == u) with
      | none => simp
      | some i => simp; omega

theorem glyphIndex_iff {b : Builder} (hn : b.glyphOrder.Nodup) (hl : b.glyphOrder.length ≤ 65536)
    {u i : Nat} : b.glyphIndex u = some i ↔ b.glyphOrder[i]? = some u := by
  rw [glyphIndex, lookupLoop_get _ _ _ hn (by omega)]
  cases h : b.glyphOrder.findIdx? (· == u) with
  | none =>
    rw [List.findIdx?_eq_none_iff] at h
    simp only [GoMap.get, reduceCtorEq, false_iff]
    intro e
    have := h u (List.mem_of_getElem? e)
    simp at this
  | some j =>
    rw [List.findIdx?_eq_some_iff_getElem] at h
    obtain ⟨hj, h1, _⟩ := h
    have h1 : b.glyphOrder[j] = u := by simpa using h1
    simp only [Nat.zero_add, Option.some.injEq]
    constructor
    · rintro rfl; rw [List.getElem?_eq_getElem hj, h1]
    · intro e
      obtain ⟨hi, e⟩ := List.getElem?_eq_some_iff.1 e
      exact nodup_inj hn (h1.trans e.symm)

theorem glyphIndexP_iff {b : Builder} (hn : b.glyphOrder.Nodup) (hl : b.glyphOrder.length ≤ 65536)
    {u i : Nat} : b.glyphIndexP u = .ok i ↔ b.glyphOrder[i]? = some u := by
  rw [← glyphIndex_iff hn hl, glyphIndexP]
  cases b.glyphIndex u <;> simp

theorem glyphIndexE_iff {b : Builder} (hn : b.glyphOrder.Nodup) (hl : b.glyphOrder.length ≤ 65536)
    {u i : Nat} : b.glyphIndexE u = .ok i ↔ b.glyphOrder[i]? = some u := by
  rw [← glyphIndex_iff hn hl, glyphIndexE]
  cases b.glyphIndex u <;> simp

end BuilderModel.Builder
