import Verif.Lemmas.FeedStep

/-!
# Adding ranges that are apart to a state
-/

namespace TreeModel
open Go Helpers ScannerModel

/-- Transitions for ranges that do not overlap, in order. -/
structure Ranged (l : List Transition) : Prop where
  le : ∀ t ∈ l, t.first ≤ t.last
  sorted : l.Pairwise fun a b => a.last < b.first
  len : l.length ≤ 254

theorem Ranged.nil : Ranged [] := ⟨by simp, by simp, by simp⟩

theorem Ranged.lt {l : List Transition} (h : Ranged l) {i j : Nat} {a b : Transition} (hi : l[i]? = some a)
    (hj : l[j]? = some b) (hij : i < j) : a.last < b.first := by
  obtain ⟨h1, rfl⟩ := List.getElem?_eq_some_iff.1 hi
  obtain ⟨h2, rfl⟩ := List.getElem?_eq_some_iff.1 hj
  exact List.pairwise_iff_getElem.1 h.sorted i j h1 h2 hij

theorem Ranged.eq {l : List Transition} (h : Ranged l) {a b : Transition} (ha : a ∈ l) (hb : b ∈ l) {g : Nat}
    (h1 : a.first ≤ g ∧ g ≤ a.last) (h2 : b.first ≤ g ∧ g ≤ b.last) : a = b := by
  obtain ⟨i, hi⟩ := List.getElem?_of_mem ha
  obtain ⟨j, hj⟩ := List.getElem?_of_mem hb
  rcases Nat.lt_trichotomy i j with hij | hij | hij
  · have := h.lt hi hj hij; omega
  · subst hij; rw [hi] at hj; exact Option.some.inj hj
  · have := h.lt hj hi hij; omega

theorem Ranged.trig_some {l : List Transition} (h : Ranged l) {g : Nat} {t : Transition} :
    trig l g = some t ↔ t ∈ l ∧ t.first ≤ g ∧ g ≤ t.last := by
  constructor
  · intro ht
    have h1 := List.mem_of_find?_eq_some ht
    have h2 := List.find?_some ht
    simp only [decide_eq_true_eq] at h2
    exact ⟨h1, h2⟩
  · rintro ⟨h1, h2⟩
    cases ht : trig l g with
    | none =>
      have := List.find?_eq_none.1 ht t h1
      simp only [decide_eq_true_eq] at this
      omega
    | some t' =>
      have h1' := List.mem_of_find?_eq_some ht
      have h2' := List.find?_some ht
      simp only [decide_eq_true_eq] at h2'
      rw [h.eq h1' h1 h2' h2]

theorem Ranged.trig_none {l : List Transition} {g : Nat} :
    trig l g = none ↔ ∀ t ∈ l, ¬ (t.first ≤ g ∧ g ≤ t.last) := by
  unfold trig
  rw [List.find?_eq_none]
  simp only [decide_eq_true_eq]

/-- What the binary search tells. -/
structure FoundIn (l : List Transition) (g i : Nat) (b : Bool) : Prop where
  hit : b = true → ∃ t, l[i]? = some t ∧ t.first ≤ g ∧ g ≤ t.last
  miss : b = false → ∀ t ∈ l, ¬ (t.first ≤ g ∧ g ≤ t.last)
  after : b = false → ∀ j t, i < j → l[j]? = some t → g < t.first
  le : i ≤ l.length

theorem findLoop_ranged {l : List Transition} (h : Ranged l) (g : Nat) : ∀ fuel lo hi, hi - lo < fuel → lo ≤ hi →
    (hi < l.length ∨ (l.length = 0 ∧ hi = 0)) → (∀ j t, j < lo → l[j]? = some t → t.last < g) →
    (∀ j t, hi < j → l[j]? = some t → g < t.first) →
    ∃ i b, findLoop l g fuel lo hi = .ok (i, b) ∧ FoundIn l g i b := by
  intro fuel
  induction fuel with
  | zero => intro lo hi hf; omega
  | succ fuel ih =>
    intro lo hi hf hle hhi hlo hgt
    have hlen := h.len
    unfold findLoop
    by_cases hlt : lo < hi
    · rw [if_pos hlt]
      have hmid : (lo + hi) >>> 1 = (lo + hi) / 2 := by simp [Nat.shiftRight_eq_div_pow]
      simp only [hmid]
      have hm : (lo + hi) / 2 < l.length := by omega
      rw [idx_lt hm, Res.ok_bind]
      have hget : l[(lo + hi) / 2]? = some l[(lo + hi) / 2] := List.getElem?_eq_getElem hm
      have h1 := h.le _ (List.getElem_mem hm)
      by_cases hg : g < l[(lo + hi) / 2].first
      · rw [if_pos hg]
        refine ih lo _ (by omega) (by omega) (Or.inl hm) hlo ?_
        intro j t hj ht
        have := h.lt hget ht hj
        omega
      · rw [if_neg hg]
        by_cases hg' : g > l[(lo + hi) / 2].last
        · rw [if_pos hg']
          refine ih _ hi (by omega) (by omega) hhi ?_ hgt
          intro j t hj ht
          rcases Nat.lt_or_ge j ((lo + hi) / 2) with hj' | hj'
          · have := h.lt ht hget hj'
            omega
          · have hje : j = (lo + hi) / 2 := by omega
            subst hje
            rw [hget] at ht; cases ht
            omega
        · rw [if_neg hg']
          refine ⟨_, _, rfl, ?_⟩
          rw [show u8 ((lo + hi) / 2) = (lo + hi) / 2 by unfold u8; omega]
          exact ⟨fun _ => ⟨_, hget, by omega, by omega⟩, by simp, by simp, by omega⟩
    · rw [if_neg hlt]
      have hlh : lo = hi := by omega
      subst hlh
      by_cases hl : lo < l.length
      · rw [if_pos hl, idx_lt hl, Res.ok_bind]
        have hget : l[lo]? = some l[lo] := List.getElem?_eq_getElem hl
        rw [if_neg (by simp only [Bool.and_eq_true, decide_eq_true_eq]; omega)]
        refine ⟨_, _, rfl, ?_⟩
        rw [show u8 lo = lo by unfold u8; omega]
        refine ⟨fun hb => ⟨_, hget, by simpa using hb⟩, ?_, fun _ => hgt, by omega⟩
        intro hb t ht hf
        simp only [decide_eq_false_iff_not] at hb
        obtain ⟨j, hj⟩ := List.getElem?_of_mem ht
        rcases Nat.lt_trichotomy j lo with hjl | hjl | hjl
        · have := hlo j t hjl hj; omega
        · subst hjl
          rw [hget] at hj; cases hj
          exact hb hf
        · have := hgt j t hjl hj; omega
      · rw [if_neg hl]
        have h0 : l.length = 0 := by omega
        refine ⟨_, _, rfl, ?_⟩
        have hnil : l = [] := List.length_eq_zero_iff.1 h0
        subst hnil
        rw [show u8 lo = lo by unfold u8; omega]
        exact ⟨by simp, by simp, by simp, by omega⟩

theorem findTrans_ranged {l : List Transition} (h : Ranged l) (g : Nat) :
    ∃ i b, findTrans l g = .ok (i, b) ∧ FoundIn l g i b := by
  refine findLoop_ranged h g _ _ _ (by omega) (by omega) (by omega) (by intros; omega) ?_
  intro j t hj ht
  obtain ⟨h1, _⟩ := List.getElem?_eq_some_iff.1 ht
  omega

theorem trigger_ranged {s : State} (h : Ranged s.trans) (g : Nat) : s.trigger g =
    .ok (match trig s.trans g with | some t => (t.next, t.rule) | none => (stateNone, ruleNone)) := by
  obtain ⟨i, b, he, hf⟩ := findTrans_ranged h g
  unfold State.trigger
  rw [he, Res.ok_bind]
  cases b with
  | true =>
    obtain ⟨t, ht, htg⟩ := hf.hit rfl
    simp only [if_true]
    rw [idx_eq_ok.2 ht, Res.ok_bind, h.trig_some.2 ⟨List.mem_of_getElem? ht, htg⟩]
    rfl
  | false =>
    simp only [Bool.false_eq_true, if_false]
    rw [Ranged.trig_none.2 (hf.miss rfl)]
    rfl

/-- Inserting a transition at its place. -/
def ins (l : List Transition) (t : Transition) : List Transition :=
  l.take (orderedPos l t.first l.length) ++ t :: l.drop (orderedPos l t.first l.length)

/-- The range overlaps with no transition. -/
def Off (l : List Transition) (a b : Nat) : Prop := ∀ t ∈ l, b < t.first ∨ t.last < a

theorem ins_length (l : List Transition) (t : Transition) : (ins l t).length = l.length + 1 := by
  unfold ins
  have := orderedPos_le l t.first l.length
  simp only [List.length_append, List.length_cons, List.length_take, List.length_drop]
  omega

theorem mem_ins {l : List Transition} {t x : Transition} : x ∈ ins l t ↔ x = t ∨ x ∈ l := by
  unfold ins
  generalize orderedPos l t.first l.length = i
  conv => rhs; rw [← List.take_append_drop i l]
  simp only [List.mem_append, List.mem_cons]
  constructor
  · rintro (h | h | h)
    · exact Or.inr (Or.inl h)
    · exact Or.inl h
    · exact Or.inr (Or.inr h)
  · rintro (h | h | h)
    · exact Or.inr (Or.inl h)
    · exact Or.inl h
    · exact Or.inr (Or.inr h)

theorem Ranged.ins {l : List Transition} (h : Ranged l) (hl : l.length < 254) {t : Transition}
    (ht : t.first ≤ t.last) (ho : Off l t.first t.last) : Ranged (ins l t) := by
  obtain ⟨h1, h2, h3⟩ := orderedPos_spec l t.first l.length (Nat.le_refl _) (by
    intro j x hj hx
    obtain ⟨h1, _⟩ := List.getElem?_eq_some_iff.1 hx
    omega) (by
      intro x hx he
      have := h.le x hx
      rcases ho x hx with h | h <;> omega)
  refine ⟨fun x hx => ?_, ?_, by rw [ins_length]; omega⟩
  · rcases mem_ins.1 hx with rfl | hx
    · exact ht
    · exact h.le x hx
  · unfold TreeModel.ins
    generalize orderedPos l t.first l.length = i at h1 h2 h3
    have hlow : ∀ x ∈ l.take i, x.last < t.first := by
      intro x hx
      obtain ⟨j, hj⟩ := List.getElem?_of_mem hx
      have hji : j < i := by
        obtain ⟨hh, _⟩ := List.getElem?_eq_some_iff.1 hj
        simp only [List.length_take] at hh
        omega
      rw [List.getElem?_take_of_lt hji] at hj
      have hxl := h.le x (List.mem_of_getElem? hj)
      have hf : x.first < t.first := by
        rcases h3 with h3 | ⟨y, hy, hyg⟩
        · omega
        · rcases Nat.lt_or_ge j (i - 1) with hjj | hjj
          · have := h.lt hj hy hjj; omega
          · have : j = i - 1 := by omega
            subst this
            rw [hy] at hj; cases hj
            exact hyg
      rcases ho x (List.mem_of_getElem? hj) with h | h <;> omega
    have hhigh : ∀ x ∈ l.drop i, t.last < x.first := by
      intro x hx
      obtain ⟨j, hj⟩ := List.getElem?_of_mem hx
      rw [List.getElem?_drop] at hj
      have := h2 _ _ (by omega) hj
      have hxl := h.le x (List.mem_of_getElem? hj)
      rcases ho x (List.mem_of_getElem? hj) with h | h <;> omega
    rw [List.pairwise_append, List.pairwise_cons]
    refine ⟨h.sorted.sublist (List.take_sublist _ _), ⟨fun x hx => hhigh x hx,
      h.sorted.sublist (List.drop_sublist _ _)⟩, ?_⟩
    intro a ha b hb
    rcases List.mem_cons.1 hb with rfl | hb
    · exact hlow a ha
    · have := hlow a ha
      have := hhigh b hb
      omega

/-- Adding a range that overlaps with nothing inserts it. -/
theorem appendRange_off {k : Kind} {mv : Nat → Bool} {c : Compiler} {state a b rule : Nat} {st : State}
    (hst : c.states[state]? = some st) (h : Ranged st.trans) (hab : a ≤ b) (hw : b + 1 < 2 ^ (8 * k.width))
    (ho : Off st.trans a b) :
    appendRange k mv c state a b rule = insertNew mv c ⟨st.trans, .same⟩ a b rule >>= store state := by
  obtain ⟨i, f, he, hf⟩ := findTrans_ranged h a
  cases f with
  | true =>
    obtain ⟨t', ht', htg⟩ := hf.hit rfl
    rcases ho t' (List.mem_of_getElem? ht') with h | h <;> omega
  | false =>
    have hlen := h.len
    have hpre : ∀ (fuel : Nat) (j : Nat) (t : Transition), st.trans[j]? = some t → b < t.first →
        appendLoop k mv rule b (fuel + 2) c ⟨st.trans, .same⟩ a j = insertNew mv c ⟨st.trans, .same⟩ a b rule := by
      intro fuel j t hj hlt
      rw [appendLoop.eq_2]
      obtain ⟨hil, _⟩ := List.getElem?_eq_some_iff.1 hj
      rw [if_pos ⟨hab, hil⟩, idx_eq_ok.2 hj, Res.ok_bind]
      have hc : confront k t a b = (.pre, a, b) := by
        unfold confront
        rw [if_pos (by omega), if_pos hlt]
      rw [hc]
      simp only
      cases insertNew mv c ⟨st.trans, .same⟩ a b rule with
      | ok x =>
        rw [Res.ok_bind]
        exact appendLoop_done _ _ _ _ _ _ _ (by unfold wrap; rw [Nat.mod_eq_of_lt hw]; omega)
      | err e => rfl
      | panic e => rfl
    have hend : ∀ (fuel : Nat) (j : Nat), st.trans.length ≤ j →
        appendLoop k mv rule b (fuel + 1) c ⟨st.trans, .same⟩ a j = insertNew mv c ⟨st.trans, .same⟩ a b rule := by
      intro fuel j hj
      rw [appendLoop.eq_2, if_neg (by simp only; omega), if_neg (by omega)]
    have hloop : appendLoop k mv rule b 1024 c ⟨st.trans, .same⟩ a i =
        insertNew mv c ⟨st.trans, .same⟩ a b rule := by
      cases hti : st.trans[i]? with
      | none => exact hend 1023 i (List.getElem?_eq_none_iff.1 hti)
      | some t =>
        have hle := h.le t (List.mem_of_getElem? hti)
        rcases ho t (List.mem_of_getElem? hti) with hg | hg
        · exact hpre 1022 i t hti hg
        · obtain ⟨hil, _⟩ := List.getElem?_eq_some_iff.1 hti
          rw [appendLoop.eq_2, if_pos ⟨hab, hil⟩, idx_eq_ok.2 hti, Res.ok_bind]
          have hc : confront k t a b = (.post, a, b) := by
            unfold confront
            rw [if_neg (by omega), if_neg (by omega), if_neg (by omega)]
          rw [hc]
          simp only
          rw [show u8 (i + 1) = i + 1 by unfold u8; omega]
          cases htn : st.trans[i + 1]? with
          | none => exact hend 1022 _ (List.getElem?_eq_none_iff.1 htn)
          | some t2 =>
            refine hpre 1021 _ t2 htn ?_
            have := hf.after rfl _ _ (by omega) htn
            rcases ho t2 (List.mem_of_getElem? htn) with h2 | h2
            · exact h2
            · have := h.le t2 (List.mem_of_getElem? htn); omega
    unfold appendRange
    rw [idx_eq_ok.2 hst, Res.ok_bind, he, Res.ok_bind]
    simp only [hloop]
    rfl

theorem grown_sames (l : List Transition) (b : Bool) : (View.grown ⟨l, .same⟩ b) = ⟨l, .same⟩ := by cases b <;> rfl

/-- Adding such a range with a rule. -/
theorem appendRange_off_rule {k : Kind} {mv : Nat → Bool} {c : Compiler} {state a b rule : Nat} {st : State}
    (hst : c.states[state]? = some st) (h : Ranged st.trans) (hab : a ≤ b) (hw : b + 1 < 2 ^ (8 * k.width))
    (ho : Off st.trans a b) (hr : rule ≠ ruleNone) :
    (appendRange k mv c state a b rule = .err hitLimits ∧ 254 ≤ st.trans.length) ∨
    st.trans.length < 254 ∧ appendRange k mv c state a b rule = .ok { c with
      clock := c.clock + 1
      states := c.states.set state { st with trans := ins st.trans ⟨a, b, rule, stateNone⟩ } } := by
  rw [appendRange_off hst h hab hw ho]
  unfold insertNew insertTrans
  by_cases hfull : st.trans.length ≥ 254
  · left
    simp only
    rw [if_pos hfull]
    exact ⟨rfl, hfull⟩
  · right
    refine ⟨by omega, ?_⟩
    simp only
    rw [if_neg hfull, Res.ok_bind]
    simp only [grown_sames]
    rw [if_neg hr, setAt_mid (orderedPos_le _ _ _), Res.ok_bind]
    simp only [Res.pure_eq, Res.ok_bind, store]
    rw [idx_eq_ok.2 hst, Res.ok_bind]
    rfl

/-- Adding such a range with a link. -/
theorem appendRange_off_link {k : Kind} {mv : Nat → Bool} {c : Compiler} {state a b : Nat} {st : State}
    (hst : c.states[state]? = some st) (h : Ranged st.trans) (hab : a ≤ b) (hw : b + 1 < 2 ^ (8 * k.width))
    (ho : Off st.trans a b) :
    (appendRange k mv c state a b ruleNone = .err hitLimits ∧ 254 ≤ st.trans.length) ∨
    st.trans.length < 254 ∧
      (∀ e, ({ c with clock := c.clock + 1 } : Compiler).stateLinker mv stateNone 0 = .err e →
        appendRange k mv c state a b ruleNone = .err e) ∧
      ∀ c1 s m, ({ c with clock := c.clock + 1 } : Compiler).stateLinker mv stateNone 0 = .ok (c1, s, m) →
        c1.states[state]? = some st →
        appendRange k mv c state a b ruleNone = .ok { c1 with
          states := c1.states.set state { st with trans := ins st.trans ⟨a, b, ruleNone, s⟩ } } := by
  rw [appendRange_off hst h hab hw ho]
  unfold insertNew insertTrans
  by_cases hfull : st.trans.length ≥ 254
  · left
    simp only
    rw [if_pos hfull]
    exact ⟨rfl, hfull⟩
  · right
    refine ⟨by omega, ?_, ?_⟩
    · intro e hh
      simp only
      rw [if_neg hfull, Res.ok_bind]
      simp only
      rw [if_pos trivial, hh]
      rfl
    · intro c1 s m hh hc1
      simp only
      rw [if_neg hfull, Res.ok_bind]
      simp only [grown_sames]
      rw [if_pos trivial, hh, Res.ok_bind]
      simp only
      rw [moved_trans, setAt_mid (orderedPos_le _ _ _), Res.ok_bind]
      simp only [Res.pure_eq, Res.ok_bind, store]
      rw [idx_eq_ok.2 hc1, Res.ok_bind, moved_result m (by simp)]
      rfl

end TreeModel
