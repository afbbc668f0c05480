import Verif.Lemmas.Ranged
import Verif.Lemmas.FeedAll

/-!
# Feeding rules that start apart from the others

No state of the tree is then shared with another rule, whatever sets the rules use.
-/

namespace TreeModel
open Go Helpers ScannerModel

/-- Inserting ranges with the same target. -/
def insAll (l : List Transition) (ps : List (Nat × Nat)) (rule next : Nat) : List Transition :=
  ps.foldl (fun l p => ins l ⟨p.1, p.2, rule, next⟩) l

/-- Ranges that may be inserted together in the transitions. -/
structure Level (k : Kind) (l : List Transition) (ps : List (Nat × Nat)) : Prop where
  le : ∀ p ∈ ps, p.1 ≤ p.2
  small : ∀ p ∈ ps, p.2 + 1 < 2 ^ (8 * k.width)
  off : ∀ p ∈ ps, Off l p.1 p.2
  apart : ps.Pairwise fun p q => q.2 < p.1 ∨ p.2 < q.1

theorem Level.tail {k : Kind} {l : List Transition} {p : Nat × Nat} {ps : List (Nat × Nat)} (h : Level k l (p :: ps))
    (r n : Nat) : Level k (ins l ⟨p.1, p.2, r, n⟩) ps := by
  obtain ⟨h1, h2⟩ := List.pairwise_cons.1 h.apart
  refine ⟨fun q hq => h.le q (by simp [hq]), fun q hq => h.small q (by simp [hq]), fun q hq t ht => ?_, h2⟩
  rcases mem_ins.1 ht with rfl | ht
  · exact h1 q hq
  · exact h.off q (by simp [hq]) t ht

theorem insAll_length (l : List Transition) (r n : Nat) : ∀ ps : List (Nat × Nat),
    (insAll l ps r n).length = l.length + ps.length := by
  intro ps
  induction ps generalizing l with
  | nil => rfl
  | cons p ps ih =>
    unfold insAll at ih ⊢
    rw [List.foldl_cons, ih, ins_length, List.length_cons]
    omega

/-- The compiler while it reads such rules. From depth `d` on the current rule has not been entered. -/
structure Neat (c : Compiler) (d : Nat) : Prop where
  pos : 0 < c.states.length
  len : c.states.length ≤ 254
  freed : c.freed = []
  usesLen : c.uses.length + 1 = c.states.length
  rulesLen : c.rules.length + 1 = c.states.length
  nodup : c.byDepth.flatten.Nodup
  range : ∀ s ∈ c.byDepth.flatten, 0 < s ∧ s < c.states.length
  used : ∀ s ∈ c.byDepth.flatten, ∃ n, c.uses[s - 1]? = some (n + 1)
  rules : ∀ i l, c.byDepth[i]? = some l → ∀ s ∈ l, ∃ r, c.rules[s - 1]? = some [r] ∧ r ≤ c.ruleIndex ∧
    (d ≤ i → r < c.ruleIndex)
  ranged : ∀ st ∈ c.states, Ranged st.trans

theorem Neat.fetch {c : Compiler} (h : Neat c c.depth) : c.fetchReusable stateNone = .ok stateNone := by
  unfold Compiler.fetchReusable
  rw [if_neg (by decide)]
  cases hb : c.byDepth[c.depth]? with
  | none => rfl
  | some l =>
    cases l with
    | nil => rfl
    | cons a l =>
      simp only
      rw [if_neg (by simp), Res.ok_bind]
      simp only [Compiler.rulePosition, Res.ok_bind]
      refine findReusable_none fun s hs => ?_
      have hr := h.range s (mem_flatten hb hs)
      have hlen := h.len
      obtain ⟨r, h1, _, h2⟩ := h.rules _ _ hb s hs
      refine ⟨hr.1, by omega, _, h1, ?_⟩
      have := h2 (Nat.le_refl _)
      intro e
      simp at e
      omega

/-- The first link to the next depth makes a new state. -/
theorem Neat.link {c : Compiler} (h : Neat c c.depth) (hto : c.toStates = []) (hd : c.depth ≤ c.byDepth.length)
    (mv : Nat → Bool) :
    (c.stateLinker mv stateNone 0 = .err hitLimits ∧ c.states.length = 254) ∨
    c.states.length < 254 ∧ ∃ B m, c.stateLinker mv stateNone 0 = .ok ({ c with
        states := c.states ++ [State.reset], clock := c.clock + 1, rules := c.rules ++ [[c.ruleIndex]]
        uses := c.uses ++ [1], byDepth := B, toStates := [c.states.length] }, c.states.length, m) ∧
      B.flatten.Perm (c.states.length :: c.byDepth.flatten) ∧
      (∃ l, B[c.depth]? = some l ∧ c.states.length ∈ l ∧
        ∀ y ∈ l, y = c.states.length ∨ ∃ l0, c.byDepth[c.depth]? = some l0 ∧ y ∈ l0) ∧
      (∀ i, i ≠ c.depth → B[i]? = c.byDepth[i]?) := by
  have hpos := h.pos
  have hlen := h.len
  have hul := h.usesLen
  have hrl := h.rulesLen
  unfold Compiler.stateLinker
  rw [h.fetch, Res.ok_bind, if_pos rfl]
  unfold Compiler.newState Compiler.fetchFreedOrNew
  rw [h.freed]
  simp only [List.getLast?_nil]
  by_cases hfull : c.states.length ≥ 254
  · rw [if_pos hfull]
    exact Or.inl ⟨rfl, by omega⟩
  · right
    refine ⟨by omega, ?_⟩
    rw [if_neg hfull, Res.ok_bind]
    simp only
    rw [if_neg (by simp)]
    have hset : setAt (c.states ++ [State.reset]) c.states.length State.reset = .ok (c.states ++ [State.reset]) := by
      rw [setAt_lt (by simp), List.set_append, if_neg (by omega), Nat.sub_self]
      rfl
    rw [hset, Res.ok_bind]
    unfold Compiler.initRules
    rw [if_neg (by omega)]
    unfold Compiler.setRules
    simp only
    rw [if_pos (by omega), if_neg (by omega), Res.ok_bind]
    obtain ⟨B, h1, h2, h3, _, h5⟩ := registerState_ok (c := { c with
      states := c.states ++ [State.reset], clock := c.clock + 1, rules := c.rules ++ [[c.ruleIndex]] })
      (s := c.states.length) hd (fun hm => by have := (h.range _ hm).2; omega)
    refine ⟨B, mv c.clock, ?_, h2, h3, h5⟩
    simp only [h.freed] at h1
    rw [h1, Res.ok_bind]
    simp only [Res.pure_eq, Res.ok_bind, hto, insert_nil]
    unfold Compiler.adjustUses
    simp only
    rw [if_neg (by omega), if_pos (by omega), if_neg (by omega), if_neg (by omega), Res.ok_bind, if_neg (by simp),
      if_neg (by simp)]
    simp [h.freed]

theorem findReusable_some {c : Compiler} {want l : List Nat} {L : Nat} (hL : L ∈ l)
    (h : ∀ s ∈ l, 0 < s ∧ s < 255 ∧ ∃ rs, c.rules[s - 1]? = some rs ∧ (rs = want ↔ s = L)) :
    c.findReusable want l = .ok L := by
  induction l with
  | nil => cases hL
  | cons s l ih =>
    obtain ⟨h1, h2, rs, h3, h4⟩ := h s (by simp)
    unfold Compiler.findReusable
    rw [show sub8 s 1 = s - 1 by unfold sub8; omega, idx_eq_ok.2 h3, Res.ok_bind]
    by_cases hs : s = L
    · rw [if_pos (h4.2 hs), hs]
      rfl
    · rw [if_neg (fun e => hs (h4.1 e))]
      refine ih ?_ fun x hx => h x (by simp [hx])
      rcases List.mem_cons.1 hL with e | e
      · exact absurd e.symm hs
      · exact e

/-- The state `L` is the one of the current rule at the current depth. -/
structure Current (c : Compiler) (L : Nat) : Prop where
  pos : 0 < L
  to : c.toStates = [L]
  at_ : ∃ l, c.byDepth[c.depth]? = some l ∧ L ∈ l ∧
    ∀ s ∈ l, 0 < s ∧ s < 255 ∧ ∃ rs, c.rules[s - 1]? = some rs ∧ (rs = [c.ruleIndex] ↔ s = L)

theorem insert_same (s : Nat) : basicOrderedNonRepeatInsert [s] s = .ok [s] := by
  unfold basicOrderedNonRepeatInsert orderedInsertPos
  simp [idx_lt]

/-- Further links go to the same state. -/
theorem Current.link {c : Compiler} {L u : Nat} (h : Current c L) (hu : c.uses[L - 1]? = some u) (hu' : u < 255)
    (mv : Nat → Bool) :
    c.stateLinker mv stateNone 0 = .ok ({ c with uses := c.uses.set (L - 1) (u + 1) }, L, false) := by
  have hpos := h.pos
  obtain ⟨l, h1, h2, h3⟩ := h.at_
  have hne : L ≠ stateNone := by have := (h3 L h2).2.1; unfold stateNone; omega
  have hf : c.fetchReusable stateNone = .ok L := by
    unfold Compiler.fetchReusable
    rw [if_neg (by decide), h1]
    cases l with
    | nil => cases h2
    | cons a l =>
      simp only
      rw [if_neg (by simp), Res.ok_bind]
      simp only [Compiler.rulePosition, Res.ok_bind]
      exact findReusable_some h2 h3
  unfold Compiler.stateLinker
  rw [hf, Res.ok_bind, if_neg hne, Res.ok_bind]
  simp only
  rw [h.to, insert_same, Res.ok_bind]
  obtain ⟨hlt, _⟩ := List.getElem?_eq_some_iff.1 hu
  unfold Compiler.adjustUses
  simp only
  rw [if_neg (by omega), if_neg (by omega), idx_eq_ok.2 hu, Res.ok_bind, if_neg (by omega)]
  simp only [Res.pure_eq, Res.ok_bind]
  rw [if_neg (by simp), if_neg (by simp), ← h.to]
  rfl

theorem appendRanges_again {k : Kind} {mv : Nat → Bool} {cur L : Nat} : ∀ (ps : List (Nat × Nat)) {c : Compiler} {u : Nat}
    {st : State}, Current c L → c.uses[L - 1]? = some u → c.states[cur]? = some st → Ranged st.trans →
    u ≤ st.trans.length → Level k st.trans ps →
    (appendRanges k mv cur ruleNone ps c = .err hitLimits ∧ 253 < st.trans.length + ps.length) ∨
    ∃ n, Ranged (insAll st.trans ps ruleNone L) ∧ appendRanges k mv cur ruleNone ps c = .ok { c with
      clock := n, uses := c.uses.set (L - 1) (u + ps.length)
      states := c.states.set cur { st with trans := insAll st.trans ps ruleNone L } }
  | [], c, u, st, h, hu, hst, hR, _, _ => by
    right
    refine ⟨c.clock, hR, ?_⟩
    have e1 : c.uses.set (L - 1) u = c.uses := by
      obtain ⟨hlt, e⟩ := List.getElem?_eq_some_iff.1 hu
      rw [← e, List.set_getElem_self]
    have e2 : c.states.set cur st = c.states := by
      obtain ⟨hlt, e⟩ := List.getElem?_eq_some_iff.1 hst
      rw [← e, List.set_getElem_self]
    simp only [appendRanges, List.length_nil, Nat.add_zero, insAll, List.foldl_nil]
    rw [e1, e2]
  | p :: ps, c, u, st, h, hu, hst, hR, hle, hl => by
    have hlt : cur < c.states.length := (List.getElem?_eq_some_iff.1 hst).1
    have hlu : L - 1 < c.uses.length := (List.getElem?_eq_some_iff.1 hu).1
    rw [appendRanges]
    rcases appendRange_off_link (mv := mv) hst hR (hl.le p (by simp)) (hl.small p (by simp)) (hl.off p (by simp)) with
      ⟨he, hf⟩ | ⟨hf, _, ho⟩
    · left
      rw [he]
      exact ⟨rfl, by simp only [List.length_cons]; omega⟩
    · have hlk := Current.link (c := { c with clock := c.clock + 1 }) (L := L) (u := u) ⟨h.pos, h.to, h.at_⟩ hu
        (by omega) mv
      rw [ho _ _ _ hlk hst, Res.ok_bind]
      have hR' := hR.ins hf (t := ⟨p.1, p.2, ruleNone, L⟩) (hl.le p (by simp)) (hl.off p (by simp))
      rcases appendRanges_again (cur := cur) ps (c := { c with
          clock := c.clock + 1, uses := c.uses.set (L - 1) (u + 1)
          states := c.states.set cur { st with trans := ins st.trans ⟨p.1, p.2, ruleNone, L⟩ } }) (u := u + 1)
          (st := { st with trans := ins st.trans ⟨p.1, p.2, ruleNone, L⟩ }) ⟨h.pos, h.to, h.at_⟩
          (by simp [hlu]) (by simp [hlt]) hR' (by simp only [ins_length]; omega) (hl.tail _ _) with
        ⟨he, hf'⟩ | ⟨n, hR2, he⟩
      · left
        refine ⟨he, ?_⟩
        simp only [ins_length] at hf'
        simp only [List.length_cons]
        omega
      · right
        refine ⟨n, hR2, he.trans ?_⟩
        simp only [List.set_set, List.length_cons]
        rw [show u + 1 + ps.length = u + (ps.length + 1) by omega]
        rfl

/-- A level of links from the state `cur`. -/
theorem appendRanges_links {k : Kind} {mv : Nat → Bool} {cur : Nat} {ps : List (Nat × Nat)} {c : Compiler} {st : State}
    (h : Neat c c.depth) (hto : c.toStates = []) (hd : c.depth ≤ c.byDepth.length) (hst : c.states[cur]? = some st)
    (hR : Ranged st.trans) (hl : Level k st.trans ps) (hne : ps ≠ []) :
    (appendRanges k mv cur ruleNone ps c = .err hitLimits ∧
      (c.states.length = 254 ∨ 253 < st.trans.length + ps.length)) ∨
    c.states.length < 254 ∧ ∃ n B, Ranged (insAll st.trans ps ruleNone c.states.length) ∧
      appendRanges k mv cur ruleNone ps c = .ok { c with
        clock := n, uses := c.uses ++ [ps.length], rules := c.rules ++ [[c.ruleIndex]], byDepth := B
        toStates := [c.states.length]
        states := c.states.set cur { st with trans := insAll st.trans ps ruleNone c.states.length } ++ [State.reset] } ∧
      B.flatten.Perm (c.states.length :: c.byDepth.flatten) ∧
      (∃ l, B[c.depth]? = some l ∧ c.states.length ∈ l ∧
        ∀ y ∈ l, y = c.states.length ∨ ∃ l0, c.byDepth[c.depth]? = some l0 ∧ y ∈ l0) ∧
      (∀ i, i ≠ c.depth → B[i]? = c.byDepth[i]?) := by
  obtain ⟨p, ps, rfl⟩ := List.exists_cons_of_ne_nil hne
  have hlt : cur < c.states.length := (List.getElem?_eq_some_iff.1 hst).1
  have hul := h.usesLen
  have hrl := h.rulesLen
  rw [appendRanges]
  rcases appendRange_off_link (mv := mv) hst hR (hl.le p (by simp)) (hl.small p (by simp)) (hl.off p (by simp)) with
    ⟨he, hf⟩ | ⟨hf, herr, ho⟩
  · left
    rw [he]
    exact ⟨rfl, Or.inr (by simp only [List.length_cons]; omega)⟩
  · have hN : Neat { c with clock := c.clock + 1 } c.depth :=
      ⟨h.pos, h.len, h.freed, h.usesLen, h.rulesLen, h.nodup, h.range, h.used, h.rules, h.ranged⟩
    rcases hN.link hto hd mv with ⟨he, hf'⟩ | ⟨hs, B, m, he, b1, b2, b3⟩
    · left
      rw [herr _ he]
      exact ⟨rfl, Or.inl hf'⟩
    · simp only at he hs b1 b2 b3
      rw [ho _ _ _ he (by simp only; rw [List.getElem?_append_left hlt]; exact hst), Res.ok_bind]
      have hR' := hR.ins hf (t := ⟨p.1, p.2, ruleNone, c.states.length⟩) (hl.le p (by simp)) (hl.off p (by simp))
      obtain ⟨l, l1, l2, l3⟩ := b2
      have hcur : Current { c with
          clock := c.clock + 1 + 1, uses := c.uses ++ [1], rules := c.rules ++ [[c.ruleIndex]], byDepth := B
          toStates := [c.states.length]
          states := (c.states ++ [State.reset]).set cur
            { st with trans := ins st.trans ⟨p.1, p.2, ruleNone, c.states.length⟩ } } c.states.length := by
        refine ⟨h.pos, rfl, l, l1, l2, fun s hs' => ?_⟩
        simp only
        rcases l3 s hs' with rfl | ⟨l0, h0, h1⟩
        · refine ⟨h.pos, by omega, _, ?_, ⟨fun _ => rfl, fun _ => rfl⟩⟩
          rw [List.getElem?_append_right (by omega), show c.states.length - 1 - c.rules.length = 0 by omega]
          rfl
        · have hr := h.range s (mem_flatten h0 h1)
          obtain ⟨r, h2, _, h3⟩ := h.rules _ _ h0 s h1
          have := h3 (Nat.le_refl _)
          refine ⟨hr.1, by omega, [r], ?_, ⟨fun e => ?_, fun e => by omega⟩⟩
          · rw [List.getElem?_append_left (by omega)]; exact h2
          · simp at e; omega
      have hset : (c.states ++ [State.reset]).set cur
          { st with trans := ins st.trans ⟨p.1, p.2, ruleNone, c.states.length⟩ } = c.states.set cur
          { st with trans := ins st.trans ⟨p.1, p.2, ruleNone, c.states.length⟩ } ++ [State.reset] := by
        rw [List.set_append, if_pos hlt]
      rcases appendRanges_again (mv := mv) ps hcur (u := 1) (cur := cur)
          (st := { st with trans := ins st.trans ⟨p.1, p.2, ruleNone, c.states.length⟩ })
          (by simp only; rw [List.getElem?_append_right (by omega), show c.states.length - 1 - c.uses.length = 0 by omega]
              rfl)
          (by simp only; rw [List.getElem?_set_self (by simp; omega)]) hR' (by simp only [ins_length]; omega) (hl.tail _ _) with
        ⟨he', hf'⟩ | ⟨n, hR2, he'⟩
      · left
        refine ⟨he', Or.inr ?_⟩
        simp only [ins_length] at hf'
        simp only [List.length_cons]
        omega
      · right
        refine ⟨hs, n, B, hR2, he'.trans ?_, b1, ⟨l, l1, l2, l3⟩, b3⟩
        simp only [List.set_set, List.length_cons]
        rw [List.set_append, if_pos hlt, List.set_append, if_neg (by omega),
          show c.states.length - 1 - c.uses.length = 0 by omega, Nat.add_comm 1 ps.length]
        rfl

/-- A level of rules at the state `cur`. -/
theorem appendRanges_rules {k : Kind} {mv : Nat → Bool} {cur rule : Nat} (hr : rule ≠ ruleNone) :
    ∀ (ps : List (Nat × Nat)) {c : Compiler} {st : State}, c.states[cur]? = some st → Ranged st.trans →
    Level k st.trans ps →
    (appendRanges k mv cur rule ps c = .err hitLimits ∧ 253 < st.trans.length + ps.length) ∨
    ∃ n, Ranged (insAll st.trans ps rule stateNone) ∧ appendRanges k mv cur rule ps c = .ok { c with
      clock := n, states := c.states.set cur { st with trans := insAll st.trans ps rule stateNone } }
  | [], c, st, hst, hR, _ => by
    right
    refine ⟨c.clock, hR, ?_⟩
    have e2 : c.states.set cur st = c.states := by
      obtain ⟨hlt, e⟩ := List.getElem?_eq_some_iff.1 hst
      rw [← e, List.set_getElem_self]
    simp only [appendRanges, insAll, List.foldl_nil]
    rw [e2]
  | p :: ps, c, st, hst, hR, hl => by
    have hlt : cur < c.states.length := (List.getElem?_eq_some_iff.1 hst).1
    rw [appendRanges]
    rcases appendRange_off_rule (mv := mv) hst hR (hl.le p (by simp)) (hl.small p (by simp)) (hl.off p (by simp)) hr with
      ⟨he, hf⟩ | ⟨hf, he⟩
    · left
      rw [he]
      exact ⟨rfl, by simp only [List.length_cons]; omega⟩
    · rw [he, Res.ok_bind]
      have hR' := hR.ins hf (t := ⟨p.1, p.2, rule, stateNone⟩) (hl.le p (by simp)) (hl.off p (by simp))
      rcases appendRanges_rules (cur := cur) hr ps (c := { c with
          clock := c.clock + 1
          states := c.states.set cur { st with trans := ins st.trans ⟨p.1, p.2, rule, stateNone⟩ } })
          (st := { st with trans := ins st.trans ⟨p.1, p.2, rule, stateNone⟩ })
          (by simp [hlt]) hR' (hl.tail _ _) with ⟨he, hf'⟩ | ⟨n, hR2, he⟩
      · left
        refine ⟨he, ?_⟩
        simp only [ins_length] at hf'
        simp only [List.length_cons]
        omega
      · right
        refine ⟨n, hR2, he.trans ?_⟩
        simp only [List.set_set]
        rfl

end TreeModel
