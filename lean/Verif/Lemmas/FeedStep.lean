import Verif.Lemmas.Linker

/-!
# Feeding one element to a compiler that reads rules without sets
-/

namespace TreeModel
open Go Helpers ScannerModel

variable {c : Compiler} {d : Nat} {R : List Nat → Prop} {L : List Nat → Nat → Option Nat} {H : List Nat → Nat × Nat}

theorem Inv.clock (h : Inv c d R L H) (n : Nat) : Inv { c with clock := n } d R L H :=
  ⟨h.pos, h.len, h.single, h.bound, h.inj, h.reach, h.look, h.heads, h.noHeads, h.usesLen, h.rulesLen, h.nodup,
    h.range, h.freeUses, h.live, h.rules⟩

theorem Inv.state (h : Inv c d R L H) {p : List Nat} {cur : Nat} (hp : walk c.states p = some cur) :
    ∃ st, c.states[cur]? = some st ∧ Single st.trans := by
  have hlt := h.bound p cur hp
  exact ⟨_, List.getElem?_eq_getElem hlt, h.single _ (List.getElem_mem hlt)⟩

theorem moved_result {l T : List Transition} (m : Bool) (hT : T.length = l.length) :
    ({ (View.moved ⟨l, .same⟩ m) with trans := T } : View).result = T := by
  cases m
  · rfl
  · simp only [View.moved, View.result]
    rw [← hT, List.take_length]

theorem moved_trans {l : List Transition} (m : Bool) : (View.moved ⟨l, .same⟩ m).trans = l := by cases m <;> rfl

theorem setAt_mid {l : List Transition} {i : Nat} (h : i ≤ l.length) (a b : Transition) :
    setAt (l.take i ++ a :: l.drop i) i b = .ok (l.take i ++ b :: l.drop i) := by
  rw [setAt_lt (by simp; omega), List.set_append, if_neg (by simp [Nat.min_eq_left h])]
  simp [Nat.min_eq_left h]

theorem orderedPos_le (l : List Transition) (g n : Nat) : orderedPos l g n ≤ n := by
  induction n with
  | zero => exact Nat.le_refl _
  | succ n ih =>
    unfold orderedPos
    split
    · split
      · exact Nat.le_refl _
      · omega
    · omega

/-- The transition that is in use before. -/
def oldRule (st : State) (g : Nat) : Nat := ((trig st.trans g).map (·.rule)).getD ruleNone
def oldNext (st : State) (g : Nat) : Nat := ((trig st.trans g).map (·.next)).getD stateNone

/-- Linking at one element. -/
theorem appendRange_link {k : Kind} {mv : Nat → Bool} {state g : Nat} {st : State}
    (hst : c.states[state]? = some st) (h : Single st.trans) (hw : g + 1 < 2 ^ (8 * k.width)) :
    (appendRange k mv c state g g ruleNone = .err hitLimits ∧ 254 ≤ st.trans.length) ∨
    ∃ n, (∀ e, ({ c with clock := n } : Compiler).stateLinker mv (oldNext st g) 0 = .err e →
        appendRange k mv c state g g ruleNone = .err e) ∧
      ∀ c1 s m, ({ c with clock := n } : Compiler).stateLinker mv (oldNext st g) 0 = .ok (c1, s, m) →
        c1.states[state]? = some st → ∃ l', Upsert st.trans l' g ⟨g, g, oldRule st g, s⟩ ∧
        l'.length ≤ st.trans.length + 1 ∧
        appendRange k mv c state g g ruleNone = .ok { c1 with states := c1.states.set state { st with trans := l' } } := by
  cases ht : trig st.trans g with
  | some t =>
    obtain ⟨i, hi, he⟩ := appendRange_hit (mv := mv) (rule := ruleNone) hst h hw ht
    obtain ⟨hm, hg⟩ := (trig_some h).1 ht
    right
    have hnext : oldNext st g = t.next := by simp [oldNext, ht]
    have hrule : oldRule st g = t.rule := by simp [oldRule, ht]
    have hlast := h.one t hm
    refine ⟨c.clock, ?_, ?_⟩
    · intro e hh
      rw [he]
      unfold linkAt
      rw [idx_eq_ok.2 hi, Res.ok_bind, if_neg (by simp), ← hnext, hh]
      rfl
    · intro c1 s m hh hc1
      rw [he]
      unfold linkAt
      rw [idx_eq_ok.2 hi, Res.ok_bind, if_neg (by simp), ← hnext, hh, Res.ok_bind]
      simp only [Res.pure_eq, Res.ok_bind, store]
      rw [idx_eq_ok.2 hc1, Res.ok_bind, moved_trans, moved_result m (by simp)]
      have hu := Upsert.set h hi ⟨g, g, t.rule, s⟩ hg.symm (by rw [← hlast]; exact hg.symm)
      rw [hg] at hu
      refine ⟨_, ?_, by simp, rfl⟩
      rw [hrule, ← hlast, hg]
      exact hu
  | none =>
    have he := appendRange_miss (mv := mv) (rule := ruleNone) hst h hw ht
    have hnext : oldNext st g = stateNone := by simp [oldNext, ht]
    have hrule : oldRule st g = ruleNone := by simp [oldRule, ht]
    rw [he]
    unfold insertNew insertTrans
    by_cases hfull : st.trans.length ≥ 254
    · left
      simp only
      rw [if_pos hfull]
      exact ⟨rfl, hfull⟩
    · right
      refine ⟨c.clock + 1, ?_, ?_⟩
      · intro e hh
        simp only
        rw [if_neg hfull, Res.ok_bind]
        simp only
        rw [if_pos trivial, ← hnext, hh]
        rfl
      · intro c1 s m hh hc1
        have hgr : ∀ b, (View.grown ⟨st.trans, .same⟩ b) = ⟨st.trans, .same⟩ := by intro b; cases b <;> rfl
        simp only
        rw [if_neg hfull, Res.ok_bind]
        simp only [hgr]
        rw [if_pos trivial, ← hnext, hh, Res.ok_bind]
        simp only
        rw [moved_trans, setAt_mid (orderedPos_le _ _ _), Res.ok_bind]
        simp only [Res.pure_eq, Res.ok_bind, store]
        rw [idx_eq_ok.2 hc1, Res.ok_bind, moved_result m (by simp)]
        refine ⟨_, ?_, by simp; omega, rfl⟩
        rw [hrule]
        exact Upsert.insert h (by omega) ((trig_none h).1 ht) _ _

/-- Setting a rule at one element. -/
theorem appendRange_rule {k : Kind} {mv : Nat → Bool} {state g rule : Nat} {st : State}
    (hst : c.states[state]? = some st) (h : Single st.trans) (hw : g + 1 < 2 ^ (8 * k.width)) (hr : rule ≠ ruleNone) :
    (appendRange k mv c state g g rule = .err hitLimits ∧ 254 ≤ st.trans.length) ∨
    ∃ n l', Upsert st.trans l' g ⟨g, g, if oldRule st g = ruleNone then rule else oldRule st g, oldNext st g⟩ ∧
      l'.length ≤ st.trans.length + 1 ∧ appendRange k mv c state g g rule =
        .ok { c with clock := n, states := c.states.set state { st with trans := l' } } := by
  cases ht : trig st.trans g with
  | some t =>
    obtain ⟨i, hi, he⟩ := appendRange_hit (mv := mv) (rule := rule) hst h hw ht
    obtain ⟨hm, hg⟩ := (trig_some h).1 ht
    right
    have hnext : oldNext st g = t.next := by simp [oldNext, ht]
    have hrule : oldRule st g = t.rule := by simp [oldRule, ht]
    have hlast := h.one t hm
    rw [he, hnext, hrule]
    unfold linkAt
    rw [idx_eq_ok.2 hi, Res.ok_bind, if_pos hr]
    by_cases h0 : t.rule = ruleNone
    · rw [if_pos h0, if_pos h0]
      simp only [Res.pure_eq, Res.ok_bind, store]
      rw [idx_eq_ok.2 hst, Res.ok_bind]
      have hu := Upsert.set h hi ⟨g, g, rule, t.next⟩ hg.symm (by rw [← hlast]; exact hg.symm)
      rw [hg] at hu
      rw [← hlast, hg]
      exact ⟨c.clock, _, hu, by simp, rfl⟩
    · rw [if_neg h0, if_neg h0]
      simp only [Res.pure_eq, Res.ok_bind, store]
      rw [idx_eq_ok.2 hst, Res.ok_bind]
      refine ⟨c.clock, _, ⟨h, ?_, fun _ _ => rfl⟩, by simp, rfl⟩
      rw [ht]
      congr 1
      rw [← hg]
      cases t
      simp only at hlast
      simp [hlast]
  | none =>
    have he := appendRange_miss (mv := mv) (rule := rule) hst h hw ht
    have hnext : oldNext st g = stateNone := by simp [oldNext, ht]
    have hrule : oldRule st g = ruleNone := by simp [oldRule, ht]
    rw [he, hnext, hrule, if_pos rfl]
    unfold insertNew insertTrans
    by_cases hfull : st.trans.length ≥ 254
    · left
      simp only
      rw [if_pos hfull]
      exact ⟨rfl, hfull⟩
    · right
      have hgr : ∀ b, (View.grown ⟨st.trans, .same⟩ b) = ⟨st.trans, .same⟩ := by intro b; cases b <;> rfl
      simp only
      rw [if_neg hfull, Res.ok_bind]
      simp only [hgr]
      rw [if_neg hr, setAt_mid (orderedPos_le _ _ _), Res.ok_bind]
      simp only [Res.pure_eq, Res.ok_bind, store]
      rw [idx_eq_ok.2 hst, Res.ok_bind]
      exact ⟨_, _, Upsert.insert h (by omega) ((trig_none h).1 ht) _ _, by simp; omega, rfl⟩

end TreeModel
