import Verif.Lemmas.Chains
import Verif.Lemmas.ChainRun

/-!
# Adding single elements to a state that also has ranges
-/

namespace TreeModel
open Go Helpers ScannerModel Spec

/-- One transition was changed or inserted. -/
structure Put (l l' : List Transition) (g : Nat) (t : Transition) : Prop where
  ranged : Ranged l'
  hit : trig l' g = some t
  miss : ∀ x, x ≠ g → trig l' x = trig l x
  mem : ∀ x ∈ l', x = t ∨ x ∈ l

theorem Put.insert {l : List Transition} (h : Ranged l) (hl : l.length < 254) {g : Nat} (ho : Off l g g) (r n : Nat) :
    Put l (ins l ⟨g, g, r, n⟩) g ⟨g, g, r, n⟩ := by
  have hR := h.ins hl (t := ⟨g, g, r, n⟩) (Nat.le_refl _) ho
  refine ⟨hR, hR.trig_some.2 ⟨mem_ins.2 (Or.inl rfl), Nat.le_refl _, Nat.le_refl _⟩, ?_, fun x hx => mem_ins.1 hx⟩
  intro x hx
  cases ht : trig l x with
  | none =>
    rw [Ranged.trig_none] at ht ⊢
    intro t hm
    rcases mem_ins.1 hm with rfl | hm
    · simp only; omega
    · exact ht t hm
  | some t =>
    rw [hR.trig_some]
    obtain ⟨h1, h2⟩ := h.trig_some.1 ht
    exact ⟨mem_ins.2 (Or.inr h1), h2⟩

theorem Put.set {l : List Transition} (h : Ranged l) {i g : Nat} {t : Transition} (hi : l[i]? = some t)
    (hf : t.first = g) (hl : t.last = g) (r n : Nat) : Put l (l.set i ⟨g, g, r, n⟩) g ⟨g, g, r, n⟩ := by
  obtain ⟨hlt, _⟩ := List.getElem?_eq_some_iff.1 hi
  have hself : (l.set i (⟨g, g, r, n⟩ : Transition))[i]? = some ⟨g, g, r, n⟩ := by
    rw [List.getElem?_set, if_pos rfl, if_pos hlt]
  have hmem : ∀ x ∈ l.set i (⟨g, g, r, n⟩ : Transition), x = ⟨g, g, r, n⟩ ∨ x ∈ l := by
    intro x hx
    rcases List.mem_or_eq_of_mem_set hx with hx | hx
    · exact Or.inr hx
    · exact Or.inl hx
  have hR : Ranged (l.set i ⟨g, g, r, n⟩) := by
    refine ⟨?_, ?_, by rw [List.length_set]; exact h.len⟩
    · intro x hx
      rcases hmem x hx with rfl | hx
      · exact Nat.le_refl _
      · exact h.le x hx
    · have e : ((l.set i (⟨g, g, r, n⟩ : Transition)).map fun t => (t.first, t.last)) = l.map fun t => (t.first, t.last) := by
        rw [List.map_set]
        refine List.ext_getElem? fun j => ?_
        rw [List.getElem?_set]
        split
        · rename_i hij
          subst hij
          rw [List.length_map, if_pos hlt, List.getElem?_map, hi, Option.map_some, hf, hl]
        · rfl
      have h2 : (l.map fun t => (t.first, t.last)).Pairwise fun a b : Nat × Nat => a.2 < b.1 := List.pairwise_map.2 h.sorted
      rw [← e] at h2
      exact List.pairwise_map.1 h2
  refine ⟨hR, hR.trig_some.2 ⟨List.mem_of_getElem? hself, Nat.le_refl _, Nat.le_refl _⟩, ?_, hmem⟩
  intro x hx
  cases ht : trig l x with
  | none =>
    rw [Ranged.trig_none] at ht ⊢
    intro y hy
    rcases hmem y hy with rfl | hy
    · simp only; omega
    · exact ht y hy
  | some y =>
    rw [hR.trig_some]
    obtain ⟨h1, h2⟩ := h.trig_some.1 ht
    refine ⟨?_, h2⟩
    obtain ⟨j, hj⟩ := List.getElem?_of_mem h1
    refine List.mem_of_getElem? (i := j) ?_
    rw [List.getElem?_set, if_neg]
    · exact hj
    · rintro rfl
      rw [hi] at hj
      cases hj
      omega

theorem off_of_none {l : List Transition} {g : Nat} (h : trig l g = none) : Off l g g := by
  intro t ht
  have := Ranged.trig_none.1 h t ht
  omega

theorem appendRange_meet {k : Kind} {mv : Nat → Bool} {c : Compiler} {state g rule : Nat} {st : State}
    (hst : c.states[state]? = some st) (h : Ranged st.trans) (hw : g + 1 < 2 ^ (8 * k.width))
    {t : Transition} (ht : trig st.trans g = some t) (h1 : t.first = g) (h2 : t.last = g) : ∃ i, st.trans[i]? = some t ∧
    appendRange k mv c state g g rule = linkAt mv c ⟨st.trans, .same⟩ i rule 0 >>= store state := by
  obtain ⟨i, b, he, hf⟩ := findTrans_ranged h g
  cases b with
  | false =>
    have := Ranged.trig_none.2 (hf.miss rfl)
    rw [this] at ht; cases ht
  | true =>
    obtain ⟨t', ht', htg⟩ := hf.hit rfl
    have hmem := List.mem_of_getElem? ht'
    have htt : t' = t := h.eq hmem (h.trig_some.1 ht).1 htg (h.trig_some.1 ht).2
    subst htt
    refine ⟨i, ht', ?_⟩
    unfold appendRange
    rw [idx_eq_ok.2 hst, Res.ok_bind, he, Res.ok_bind]
    have hloop : appendLoop k mv rule g 1024 c ⟨st.trans, .same⟩ g i =
        linkAt mv c ⟨st.trans, .same⟩ i rule 0 := by
      rw [appendLoop.eq_2]
      obtain ⟨hil, _⟩ := List.getElem?_eq_some_iff.1 ht'
      rw [if_pos ⟨Nat.le_refl _, hil⟩, idx_eq_ok.2 ht', Res.ok_bind]
      have hc : confront k t' g g = (.firstLast, g, t'.last) := by
        unfold confront
        rw [if_neg (by omega), if_pos h1.symm, if_pos (by omega)]
      rw [hc]
      simp only
      cases linkAt mv c ⟨st.trans, .same⟩ i rule 0 with
      | ok x =>
        rw [Res.ok_bind]
        exact appendLoop_done _ _ _ _ _ _ _ (by
          rw [h2]; unfold wrap; rw [Nat.mod_eq_of_lt hw]; omega)
      | err e => rfl
      | panic e => rfl
    simp only [hloop]
    rfl

/-- Linking at one element. -/
theorem appendRange_put_link {k : Kind} {mv : Nat → Bool} {c : Compiler} {state g : Nat} {st : State}
    (hst : c.states[state]? = some st) (h : Ranged st.trans) (hw : g + 1 < 2 ^ (8 * k.width))
    (hone : ∀ t, trig st.trans g = some t → t.first = t.last) :
    (appendRange k mv c state g g ruleNone = .err hitLimits ∧ 254 ≤ st.trans.length) ∨
    ∃ n, (∀ e, ({ c with clock := n } : Compiler).stateLinker mv (oldNext st g) 0 = .err e →
        appendRange k mv c state g g ruleNone = .err e) ∧
      ∀ c1 s m, ({ c with clock := n } : Compiler).stateLinker mv (oldNext st g) 0 = .ok (c1, s, m) →
        c1.states[state]? = some st → ∃ l', Put st.trans l' g ⟨g, g, oldRule st g, s⟩ ∧
        l'.length ≤ st.trans.length + 1 ∧
        appendRange k mv c state g g ruleNone = .ok { c1 with states := c1.states.set state { st with trans := l' } } := by
  cases ht : trig st.trans g with
  | some t =>
    have hlast := hone t ht
    obtain ⟨hm, hg⟩ := h.trig_some.1 ht
    obtain ⟨i, hi, he⟩ := appendRange_meet (mv := mv) (rule := ruleNone) hst h hw ht (by omega) (by omega)
    right
    have hnext : oldNext st g = t.next := by simp [oldNext, ht]
    have hrule : oldRule st g = t.rule := by simp [oldRule, ht]
    refine ⟨c.clock, ?_, ?_⟩
    · intro e hh
      rw [he]
      unfold linkAt
      rw [idx_eq_ok.2 hi, Res.ok_bind, if_neg (by simp), ← hnext, hh]
      rfl
    · intro c1 s m hh hc1
      rw [he]
      unfold linkAt
      rw [idx_eq_ok.2 hi, Res.ok_bind, if_neg (by simp), ← hnext, hh, Res.ok_bind]
      simp only [Res.pure_eq, Res.ok_bind, store]
      rw [idx_eq_ok.2 hc1, Res.ok_bind, moved_trans, moved_result m (by simp)]
      have hu := Put.set h hi (g := g) (by omega) (by omega) t.rule s
      refine ⟨_, ?_, by simp, rfl⟩
      rw [hrule, show t.first = g by omega, show t.last = g by omega]
      exact hu
  | none =>
    have hnext : oldNext st g = stateNone := by simp [oldNext, ht]
    have hrule : oldRule st g = ruleNone := by simp [oldRule, ht]
    have ho := off_of_none ht
    rcases appendRange_off_link (mv := mv) hst h (Nat.le_refl g) hw ho with he | ⟨hl, he, hk⟩
    · exact Or.inl he
    · right
      refine ⟨c.clock + 1, by rw [hnext]; exact he, ?_⟩
      intro c1 s m hh hc1
      rw [hnext] at hh
      rw [hrule]
      exact ⟨_, Put.insert h hl ho _ _, by rw [ins_length]; omega, hk c1 s m hh hc1⟩

/-- Setting a rule at one element. -/
theorem appendRange_put_rule {k : Kind} {mv : Nat → Bool} {c : Compiler} {state g rule : Nat} {st : State}
    (hst : c.states[state]? = some st) (h : Ranged st.trans) (hw : g + 1 < 2 ^ (8 * k.width)) (hr : rule ≠ ruleNone)
    (hone : ∀ t, trig st.trans g = some t → t.first = t.last) :
    (appendRange k mv c state g g rule = .err hitLimits ∧ 254 ≤ st.trans.length) ∨
    ∃ n l', Put st.trans l' g ⟨g, g, if oldRule st g = ruleNone then rule else oldRule st g, oldNext st g⟩ ∧
      l'.length ≤ st.trans.length + 1 ∧ appendRange k mv c state g g rule =
        .ok { c with clock := n, states := c.states.set state { st with trans := l' } } := by
  cases ht : trig st.trans g with
  | some t =>
    have hlast := hone t ht
    obtain ⟨hm, hg⟩ := h.trig_some.1 ht
    obtain ⟨i, hi, he⟩ := appendRange_meet (mv := mv) (rule := rule) hst h hw ht (by omega) (by omega)
    right
    have hnext : oldNext st g = t.next := by simp [oldNext, ht]
    have hrule : oldRule st g = t.rule := by simp [oldRule, ht]
    rw [he, hnext, hrule]
    unfold linkAt
    rw [idx_eq_ok.2 hi, Res.ok_bind, if_pos hr]
    by_cases h0 : t.rule = ruleNone
    · rw [if_pos h0, if_pos h0]
      simp only [Res.pure_eq, Res.ok_bind, store]
      rw [idx_eq_ok.2 hst, Res.ok_bind]
      have hu := Put.set h hi (g := g) (by omega) (by omega) rule t.next
      rw [show t.first = g by omega, show t.last = g by omega]
      exact ⟨c.clock, _, hu, by simp, rfl⟩
    · rw [if_neg h0, if_neg h0]
      simp only [Res.pure_eq, Res.ok_bind, store]
      rw [idx_eq_ok.2 hst, Res.ok_bind]
      refine ⟨c.clock, _, ⟨h, ?_, fun _ _ => rfl, fun x hx => Or.inr hx⟩, by simp, rfl⟩
      rw [ht]
      obtain ⟨a, b, r, n⟩ := t
      simp only at hlast hg
      have : a = g := by omega
      have : b = g := by omega
      subst a b
      rfl
  | none =>
    have hnext : oldNext st g = stateNone := by simp [oldNext, ht]
    have hrule : oldRule st g = ruleNone := by simp [oldRule, ht]
    have ho := off_of_none ht
    rw [hnext, hrule, if_pos rfl]
    rcases appendRange_off_rule (mv := mv) hst h (Nat.le_refl g) hw ho hr with he | ⟨hl, he⟩
    · exact Or.inl he
    · exact Or.inr ⟨_, _, Put.insert h hl ho _ _, by rw [ins_length]; omega, he⟩

end TreeModel
