import Verif.Lemmas.Ranged

/-!
# Splitting a transition never succeeds

`insertTransition` puts the second part after the first one, and `splitTransitionAt` expects it before.
-/

namespace TreeModel
open Go ScannerModel Helpers

theorem orderedPos_gt {l : List Transition} {first i : Nat} {t : Transition} (ht : l[i]? = some t)
    (hf : t.first < first) : ∀ n, i < n → i < orderedPos l first n
  | 0, h => by omega
  | n + 1, h => by
    unfold orderedPos
    by_cases hn : n = i
    · subst hn
      rw [ht]
      simp only
      rw [if_pos hf]
      omega
    · have := orderedPos_gt ht hf n (by omega)
      split
      · split
        · omega
        · exact this
      · exact this

theorem splitAt_never {k : Kind} {mv : Nat → Bool} {c : Compiler} {v : View} {i p : Nat}
    (hw : ∀ t ∈ v.trans, t.last < 2 ^ (8 * k.width)) (q : Compiler × View) :
    splitAt k mv c v i p ≠ .ok q := by
  intro h
  unfold splitAt at h
  cases ht : v.trans[i]? with
  | none => rw [show idx v.trans i = .panic "index out of range" by unfold idx; rw [ht]] at h; cases h
  | some t =>
    rw [show idx v.trans i = .ok t from idx_eq_ok.2 ht] at h
    simp only [Res.ok_bind] at h
    obtain ⟨hi, hg⟩ := List.getElem?_eq_some_iff.1 ht
    have hl : t.last < 2 ^ (8 * k.width) := hw t (hg ▸ List.getElem_mem hi)
    split at h
    · cases h
    split at h
    · cases h
    rename_i h1 h2
    have hwrap : wrap k (p + 1) = p + 1 := Nat.mod_eq_of_lt (by omega)
    rw [hwrap] at h
    unfold insertTrans at h
    simp only [List.length_set] at h
    split at h
    · cases h
    rename_i h3
    simp only [Res.ok_bind] at h
    have hgr : ∀ m s, (View.grown ⟨v.trans.set i { t with last := p }, s⟩ m).trans = v.trans.set i { t with last := p } := by
      intro m s
      unfold View.grown
      split <;> rfl
    rw [hgr] at h
    have hj : i < orderedPos (v.trans.set i { t with last := p }) (p + 1)
        (v.trans.set i { t with last := p }).length := by
      refine orderedPos_gt (t := { t with last := p }) ?_ (by show t.first < p + 1; omega) _ (by simpa using hi)
      rw [List.getElem?_set]
      simp [hi]
    have hj2 := orderedPos_le (v.trans.set i { t with last := p }) (p + 1) (v.trans.set i { t with last := p }).length
    simp only [List.length_set] at hj hj2
    rw [if_pos (by simp only [List.length_set]; unfold u8; omega)] at h
    cases h

theorem appendRange_inside {k : Kind} {mv : Nat → Bool} {c : Compiler} {state x y rule : Nat} {st : State}
    (hst : c.states[state]? = some st) (hr : Ranged st.trans) (hw : ∀ t ∈ st.trans, t.last < 2 ^ (8 * k.width))
    {t : Transition} (ht : t ∈ st.trans) (h1 : t.first ≤ x) (h2 : x ≤ t.last) (hxy : x ≤ y)
    (h3 : x = t.first → y < t.last) (c' : Compiler) : appendRange k mv c state x y rule ≠ .ok c' := by
  intro h
  unfold appendRange at h
  rw [idx_eq_ok.2 hst, Res.ok_bind] at h
  obtain ⟨i, b, he, hf⟩ := findTrans_ranged hr x
  rw [he, Res.ok_bind] at h
  simp only at h
  have hb : b = true := by
    cases b with
    | true => rfl
    | false => exact absurd ⟨h1, h2⟩ (hf.miss rfl t ht)
  obtain ⟨t', hi, h4, h5⟩ := hf.hit hb
  have : t' = t := hr.eq (List.mem_of_getElem? hi) ht ⟨h4, h5⟩ ⟨h1, h2⟩
  subst this
  have hil := (List.getElem?_eq_some_iff.1 hi).1
  have never : ∀ q, appendLoop k mv rule y 1024 c ⟨st.trans, .same⟩ x i ≠ .ok q := by
    intro q hq
    rw [appendLoop, if_pos ⟨hxy, hil⟩, idx_eq_ok.2 hi, Res.ok_bind] at hq
    unfold confront at hq
    rw [if_neg (by omega)] at hq
    have hs : ∀ p q, splitAt k mv c ⟨st.trans, .same⟩ i p ≠ .ok q := fun p q => splitAt_never hw q
    have hsb : ∀ a b q, splitBy k mv c ⟨st.trans, .same⟩ i a b ≠ .ok q := by
      intro a b q hh
      unfold splitBy at hh
      cases hc : splitAt k mv c ⟨st.trans, .same⟩ i (wrap k (a + 2 ^ (8 * k.width) - 1)) with
      | ok r => exact hs _ _ hc
      | err m => rw [hc] at hh; cases hh
      | panic m => rw [hc] at hh; cases hh
    by_cases hxf : x = t'.first
    · have := h3 hxf
      rw [if_pos hxf, if_neg (by omega)] at hq
      simp only at hq
      cases hc : splitAt k mv c ⟨st.trans, .same⟩ i y with
      | ok r => exact hs _ _ hc
      | err m => rw [hc] at hq; cases hq
      | panic m => rw [hc] at hq; cases hq
    · rw [if_neg hxf, if_pos h5] at hq
      split at hq
      all_goals
        rename_i heq
        split at heq <;> cases heq
      all_goals
        rename_i hlt
      · cases hc : splitBy k mv c ⟨st.trans, .same⟩ i x y with
        | ok r => exact hsb _ _ _ hc
        | err m => rw [hc] at hq; cases hq
        | panic m => rw [hc] at hq; cases hq
      · cases hc : splitBy k mv c ⟨st.trans, .same⟩ i x t'.last with
        | ok r => exact hsb _ _ _ hc
        | err m => rw [hc] at hq; cases hq
        | panic m => rw [hc] at hq; cases hq
  cases hc : appendLoop k mv rule y 1024 c ⟨st.trans, .same⟩ x i with
  | ok q => exact never q hc
  | err m => rw [hc] at h; cases h
  | panic m => rw [hc] at h; cases h

end TreeModel
