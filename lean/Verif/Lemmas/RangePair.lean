import Verif.Lemmas.TreeRun
import Verif.Lemmas.Scanner

/-!
# Two ranges in every relative position
-/

namespace TreeModel
open Go Helpers ScannerModel Spec

theorem grown_same (l : List Transition) (b : Bool) : (View.grown ⟨l, .same⟩ b) = ⟨l, .same⟩ := by cases b <;> rfl

theorem insertNew_rule {mv : Nat → Bool} {c : Compiler} {l : List Transition} {x y r : Nat} (hr : r ≠ ruleNone)
    (hl : l.length < 254) : insertNew mv c ⟨l, .same⟩ x y r = .ok ({ c with clock := c.clock + 1 },
      ⟨l.take (orderedPos l x l.length) ++ ⟨x, y, r, stateNone⟩ :: l.drop (orderedPos l x l.length), .same⟩) := by
  unfold insertNew insertTrans
  simp only
  rw [if_neg (by omega), Res.ok_bind]
  simp only [grown_same]
  rw [if_neg hr, setAt_mid (orderedPos_le _ _ _), Res.ok_bind]
  rfl

theorem pred_wrap {k : Kind} {b : Nat} (h0 : 0 < b) (hb : b < 2 ^ (8 * k.width)) :
    wrap k (b + 2 ^ (8 * k.width) - 1) = b - 1 := by
  unfold wrap
  rw [show b + 2 ^ (8 * k.width) - 1 = (b - 1) + 2 ^ (8 * k.width) by omega, Nat.add_mod_right,
    Nat.mod_eq_of_lt (by omega)]

theorem succ_wrap {k : Kind} {b : Nat} (hb : b + 1 < 2 ^ (8 * k.width)) : wrap k (b + 1) = b + 1 :=
  Nat.mod_eq_of_lt hb

theorem linkAt_kept {mv : Nat → Bool} {c : Compiler} {l : List Transition} {i r : Nat} {n : Int} {t : Transition}
    (hr : r ≠ ruleNone) (ht : l[i]? = some t) (h : t.rule ≠ ruleNone) :
    linkAt mv c ⟨l, .same⟩ i r n = .ok (c, ⟨l, .same⟩) := by
  unfold linkAt
  rw [idx_eq_ok.2 ht, Res.ok_bind, if_pos hr, if_neg h]
  rfl

/-- The position of a split range is never accepted. -/
theorem splitAt_panics {k : Kind} {mv : Nat → Bool} {c : Compiler} {l : List Transition} {t : Transition} {i m : Nat}
    (ht : l[i]? = some t) (h1 : t.first ≤ m) (h2 : m < t.last) (hw : m + 1 < 2 ^ (8 * k.width)) (hl : l.length < 254)
    (hafter : ∀ j x, i < j → l[j]? = some x → m + 1 ≤ x.first) :
    splitAt k mv c ⟨l, .same⟩ i m = .panic brokenCode := by
  obtain ⟨hi, _⟩ := List.getElem?_eq_some_iff.1 ht
  unfold splitAt
  rw [idx_eq_ok.2 ht, Res.ok_bind, if_neg (by omega), if_neg (by omega)]
  unfold insertTrans
  simp only [List.length_set]
  rw [if_neg (by omega), Res.ok_bind]
  simp only [grown_same, List.length_set]
  have hpos : ∀ n, i < n → n ≤ l.length → orderedPos (l.set i { t with last := m }) (wrap k (m + 1)) n = i + 1 := by
    intro n
    induction n with
    | zero => intro h; omega
    | succ n ih =>
      intro h3 h4
      unfold orderedPos
      rw [List.getElem?_set]
      by_cases hin : i = n
      · subst hin
        rw [if_pos rfl, if_pos hi]
        simp only
        rw [succ_wrap hw, if_pos (by omega)]
      · rw [if_neg hin, List.getElem?_eq_getElem h4]
        simp only
        have := hafter n _ (by omega) (List.getElem?_eq_getElem h4)
        rw [succ_wrap hw, if_neg (by omega), ← succ_wrap hw]
        exact ih (by omega) (by omega)
  rw [hpos l.length hi (Nat.le_refl _)]
  rw [if_pos]
  unfold u8
  rw [Nat.mod_eq_of_lt (by omega)]
  omega

theorem pair_cases {a b : Nat} (h : a ≤ b) (x y : Nat) : Fits a b x y ∨ Split a b x y ∨ Taken a b x y := by
  unfold Fits Split Taken
  omega

section
variable {k : Kind} {mv : Nat → Bool} {c : Compiler} {a b x y q r : Nat}

theorem loop_split (h : Split a b x y) (ha : a ≤ b) (hx : x ≤ y) (hb : b + 1 < 2 ^ (8 * k.width))
    (hr : r ≠ ruleNone) :
    appendLoop k mv r y 1024 c ⟨[⟨a, b, q, stateNone⟩], .same⟩ x 0 = .panic brokenCode := by
  rw [appendLoop.eq_2, if_pos ⟨hx, by simp⟩, idx_eq_ok.2 rfl, Res.ok_bind]
  rcases h with ⟨h1, h2⟩ | ⟨h1, h2⟩ | ⟨h1, h2, h3⟩
  · have hc : confront k ⟨a, b, q, stateNone⟩ x y = (.firstMid, x, y) := by
      unfold confront
      simp only
      rw [if_neg (by omega), if_pos h1, if_neg (by omega)]
    rw [hc]
    simp only
    rw [splitAt_panics (l := [⟨a, b, q, stateNone⟩]) rfl (by simp only; omega) (by simp only; omega) (by omega)
      (by simp)]
    · rfl
    · intro j z h4 h5
      rw [List.getElem?_eq_none (by simp; omega)] at h5
      cases h5
  · have hs : ∀ z, splitBy k mv c ⟨[⟨a, b, q, stateNone⟩], .same⟩ 0 x z = .panic brokenCode := by
      intro z
      unfold splitBy
      rw [pred_wrap (by omega) (by omega), splitAt_panics (l := [⟨a, b, q, stateNone⟩]) rfl (by simp only; omega)
        (by simp only; omega) (by omega) (by simp)]
      · rfl
      · intro j z h4 h5
        rw [List.getElem?_eq_none (by simp; omega)] at h5
        cases h5
    by_cases h3 : y < b
    · have hc : confront k ⟨a, b, q, stateNone⟩ x y = (.midMid, x, y) := by
        unfold confront
        simp only
        rw [if_neg (by omega), if_neg (by omega), if_pos h2, if_pos h3]
      rw [hc]
      simp only
      rw [hs]
      rfl
    · have hc : confront k ⟨a, b, q, stateNone⟩ x y = (.midLast, x, b) := by
        unfold confront
        simp only
        rw [if_neg (by omega), if_neg (by omega), if_pos h2, if_neg h3]
      rw [hc]
      simp only
      rw [hs]
      rfl
  · have hc : confront k ⟨a, b, q, stateNone⟩ x y = (.pre, x, b - 1) := by
      unfold confront
      simp only
      rw [if_pos h1, if_neg (by omega), pred_wrap (by omega) (by omega)]
    rw [hc]
    simp only
    rw [insertNew_rule hr (by simp), Res.ok_bind]
    simp only
    have hpos : orderedPos [⟨a, b, q, stateNone⟩] x 1 = 0 := by
      simp only [orderedPos, List.getElem?_cons_zero]
      rw [if_neg (by omega)]
    simp only [List.length_singleton]
    rw [hpos]
    simp only [List.take_zero, List.drop_zero, List.nil_append]
    rw [succ_wrap (by omega), show b - 1 + 1 = b by omega]
    rw [appendLoop.eq_2, if_pos ⟨h3, by simp [u8]⟩]
    have hi : idx [(⟨x, b - 1, r, stateNone⟩ : Transition), ⟨a, b, q, stateNone⟩] (u8 (0 + 1)) =
        .ok ⟨a, b, q, stateNone⟩ := idx_eq_ok.2 rfl
    rw [hi, Res.ok_bind]
    have hc : confront k ⟨a, b, q, stateNone⟩ b y = (.midLast, b, b) := by
      unfold confront
      simp only
      rw [if_neg (by omega), if_neg (by omega), if_pos (Nat.le_refl _), if_neg (by omega)]
    rw [hc]
    simp only
    unfold splitBy
    rw [pred_wrap (by omega) (by omega), splitAt_panics (t := ⟨a, b, q, stateNone⟩) rfl (by simp only; omega)
        (by simp only; omega) (by omega) (by simp)]
    · rfl
    · intro j z h4 h5
      rw [List.getElem?_eq_none (by simp [u8] at h4 ⊢; omega)] at h5
      cases h5

/-- The transitions after adding the second range. -/
def pairTrans (a b x y q r : Nat) : List Transition :=
  if y < a then [⟨x, y, r, stateNone⟩, ⟨a, b, q, stateNone⟩]
  else if b < x then [⟨a, b, q, stateNone⟩, ⟨x, y, r, stateNone⟩]
  else if x = a then
    if y = b then [⟨a, b, q, stateNone⟩] else [⟨a, b, q, stateNone⟩, ⟨b + 1, y, r, stateNone⟩]
  else if a = b then
    if y = b then [⟨x, b - 1, r, stateNone⟩, ⟨a, b, q, stateNone⟩]
    else [⟨x, b - 1, r, stateNone⟩, ⟨a, b, q, stateNone⟩, ⟨b + 1, y, r, stateNone⟩]
  else [⟨x, b - 1, r, stateNone⟩, ⟨a, b, q, stateNone⟩]

theorem loop_ok (h : ¬ Split a b x y) (ha : a ≤ b) (hx : x ≤ y) (hb : b + 1 < 2 ^ (8 * k.width))
    (hy : y + 1 < 2 ^ (8 * k.width)) (hq : q ≠ ruleNone) (hr : r ≠ ruleNone) :
    ∃ n, appendLoop k mv r y 1024 c ⟨[⟨a, b, q, stateNone⟩], .same⟩ x 0 =
      .ok ({ c with clock := n }, ⟨pairTrans a b x y q r, .same⟩) := by
  have hpos0 : x < a → orderedPos [⟨a, b, q, stateNone⟩] x 1 = 0 := by
    intro h
    simp only [orderedPos, List.getElem?_cons_zero]
    rw [if_neg (by omega)]
  have hpos1 : ∀ z, a < z → orderedPos [⟨a, b, q, stateNone⟩] z 1 = 1 := by
    intro z h
    simp only [orderedPos, List.getElem?_cons_zero]
    rw [if_pos (by omega)]
  rw [appendLoop.eq_2, if_pos ⟨hx, by simp⟩, idx_eq_ok.2 rfl, Res.ok_bind]
  by_cases h1 : y < a
  · have hc : confront k ⟨a, b, q, stateNone⟩ x y = (.pre, x, y) := by
      unfold confront
      simp only
      rw [if_pos (by omega), if_pos (by omega)]
    rw [hc]
    simp only
    rw [insertNew_rule hr (by simp), Res.ok_bind]
    simp only [List.length_singleton]
    rw [hpos0 (by omega)]
    refine ⟨c.clock + 1, ?_⟩
    rw [succ_wrap hy, appendLoop.eq_2, if_neg (by omega), if_pos (by omega), pairTrans, if_pos h1]
    rfl
  by_cases h2 : b < x
  · have hc : confront k ⟨a, b, q, stateNone⟩ x y = (.post, x, y) := by
      unfold confront
      simp only
      rw [if_neg (by omega), if_neg (by omega), if_neg (by omega)]
    rw [hc]
    simp only
    rw [appendLoop.eq_2, if_neg (by simp [u8]), if_neg (by omega), insertNew_rule hr (by simp)]
    simp only [List.length_singleton]
    rw [hpos1 x (by omega)]
    refine ⟨c.clock + 1, ?_⟩
    rw [pairTrans, if_neg h1, if_pos h2]
    rfl
  by_cases h3 : x = a
  · have h4 : b ≤ y := by unfold Split at h; omega
    have hc : confront k ⟨a, b, q, stateNone⟩ x y = (.firstLast, x, b) := by
      unfold confront
      simp only
      rw [if_neg (by omega), if_pos h3, if_pos h4]
    rw [hc]
    simp only
    rw [linkAt_kept hr (l := [⟨a, b, q, stateNone⟩]) rfl hq, Res.ok_bind]
    simp only
    rw [succ_wrap hb, pairTrans, if_neg h1, if_neg h2, if_pos h3]
    by_cases h5 : y = b
    · refine ⟨c.clock, ?_⟩
      rw [appendLoop.eq_2, if_neg (by omega), if_pos (by omega), if_pos h5]
    · refine ⟨c.clock + 1, ?_⟩
      rw [appendLoop.eq_2, if_neg (by simp [u8]), if_neg (by omega), if_neg h5, insertNew_rule hr (by simp)]
      simp only [List.length_singleton]
      rw [hpos1 _ (by omega)]
      rfl
  have h4 : x < a := by unfold Split at h; omega
  have hc : confront k ⟨a, b, q, stateNone⟩ x y = (.pre, x, b - 1) := by
    unfold confront
    simp only
    rw [if_pos h4, if_neg h1, pred_wrap (by omega) (by omega)]
  rw [hc]
  simp only
  rw [insertNew_rule hr (by simp), Res.ok_bind]
  simp only [List.length_singleton]
  rw [hpos0 h4]
  simp only [List.take_zero, List.drop_zero, List.nil_append]
  rw [succ_wrap (by omega), show b - 1 + 1 = b by omega, pairTrans, if_neg h1, if_neg h2, if_neg h3]
  by_cases h5 : a = b
  · rw [if_pos h5]
    rw [appendLoop.eq_2, if_pos ⟨by omega, by simp [u8]⟩]
    have hi : idx [(⟨x, b - 1, r, stateNone⟩ : Transition), ⟨a, b, q, stateNone⟩] (u8 (0 + 1)) =
        .ok ⟨a, b, q, stateNone⟩ := idx_eq_ok.2 rfl
    rw [hi, Res.ok_bind]
    have hc : confront k ⟨a, b, q, stateNone⟩ b y = (.firstLast, b, b) := by
      unfold confront
      simp only
      rw [if_neg (by omega), if_pos h5.symm, if_pos (by omega)]
    rw [hc]
    simp only
    rw [linkAt_kept (t := ⟨a, b, q, stateNone⟩) hr rfl hq, Res.ok_bind]
    simp only
    rw [succ_wrap hb]
    by_cases h6 : y = b
    · refine ⟨c.clock + 1, ?_⟩
      rw [appendLoop.eq_2, if_neg (by omega), if_pos (by omega), if_pos h6]
    · refine ⟨c.clock + 1 + 1, ?_⟩
      rw [appendLoop.eq_2, if_neg (by simp [u8]), if_neg (by omega), if_neg h6, insertNew_rule hr (by simp)]
      have hp : orderedPos [(⟨x, b - 1, r, stateNone⟩ : Transition), ⟨a, b, q, stateNone⟩] (b + 1) 2 = 2 := by
        simp only [orderedPos, List.getElem?_cons_succ, List.getElem?_cons_zero]
        rw [if_pos (by omega)]
      simp only [List.length_cons, List.length_nil]
      rw [hp]
      rfl
  · have h6 : y < b := by unfold Split at h; omega
    rw [if_neg h5]
    refine ⟨c.clock + 1, ?_⟩
    rw [appendLoop.eq_2, if_neg (by omega), if_pos (by omega)]

theorem findTrans_one (g : Nat) : findTrans [(⟨a, b, q, stateNone⟩ : Transition)] g = .ok (0, decide (a ≤ g ∧ g ≤ b)) := by
  unfold findTrans
  rw [findLoop.eq_2, if_neg (by simp), if_pos (by simp), idx_eq_ok.2 rfl, Res.ok_bind]
  simp only
  rw [if_neg (by simp)]
  rfl

theorem append_first (hr : r ≠ ruleNone) (hx : x ≤ y) {m M : Nat} (hs : c.states = [⟨[], m, M⟩]) :
    ∃ n, appendRange k mv c 0 x y r = .ok { c with clock := n, states := [⟨[⟨x, y, r, stateNone⟩], m, M⟩] } := by
  unfold appendRange
  have h0 : idx c.states 0 = .ok ⟨[], m, M⟩ := idx_eq_ok.2 (by rw [hs]; rfl)
  rw [h0, Res.ok_bind]
  have hf : findTrans ([] : List Transition) x = .ok (0, false) := rfl
  simp only [hf, Res.ok_bind]
  rw [appendLoop.eq_2, if_neg (by simp), if_neg (by omega), insertNew_rule hr (by simp), Res.ok_bind]
  refine ⟨c.clock + 1, ?_⟩
  simp only
  rw [h0, Res.ok_bind, hs]
  rfl

theorem append_second_ok (h : ¬ Split a b x y) (ha : a ≤ b) (hx : x ≤ y) (hb : b + 1 < 2 ^ (8 * k.width))
    (hy : y + 1 < 2 ^ (8 * k.width)) (hq : q ≠ ruleNone) (hr : r ≠ ruleNone) {m M : Nat}
    (hs : c.states = [⟨[⟨a, b, q, stateNone⟩], m, M⟩]) :
    ∃ n, appendRange k mv c 0 x y r = .ok { c with clock := n, states := [⟨pairTrans a b x y q r, m, M⟩] } := by
  unfold appendRange
  have h0 : idx c.states 0 = .ok ⟨[⟨a, b, q, stateNone⟩], m, M⟩ := idx_eq_ok.2 (by rw [hs]; rfl)
  rw [h0, Res.ok_bind]
  simp only [findTrans_one, Res.ok_bind]
  obtain ⟨n, hn⟩ := loop_ok (k := k) (mv := mv) (c := c) h ha hx hb hy hq hr
  rw [hn, Res.ok_bind]
  refine ⟨n, ?_⟩
  simp only
  rw [h0, Res.ok_bind, hs]
  rfl

theorem append_second_panics (h : Split a b x y) (ha : a ≤ b) (hx : x ≤ y) (hb : b + 1 < 2 ^ (8 * k.width))
    (hr : r ≠ ruleNone) {m M : Nat} (hs : c.states = [⟨[⟨a, b, q, stateNone⟩], m, M⟩]) :
    appendRange k mv c 0 x y r = .panic brokenCode := by
  unfold appendRange
  have h0 : idx c.states 0 = .ok ⟨[⟨a, b, q, stateNone⟩], m, M⟩ := idx_eq_ok.2 (by rw [hs]; rfl)
  rw [h0, Res.ok_bind]
  simp only [findTrans_one, Res.ok_bind]
  rw [loop_split h ha hx hb hr]
  rfl

/-- Feeding a rule that is one set with one range. -/
theorem feed_set {sets : Sets} (hc : c.compiling = true) {rule : Bytes} {index blk i : Nat}
    (hs : scanRule k rule = .ok [(blk, k.none, i)]) (hi : i ≠ setNone) (hh : rdb rule 1 = .ok 0)
    (hset : sets i = .ok ([(x, y)], [])) {l : List Transition} {m M : Nat}
    (hst : (enter c index).states = [⟨l, m, M⟩]) :
    feed k mv sets c rule index = (do
      let c' ← appendRange k mv { enter c index with states := [(⟨l, m, M⟩ : State).updateHead 0] } 0 x y index
      let c' ← freeUnused c'
      if u8 (c'.depth + 1) = 0 then .panic brokenCode else
      return { c' with depth := u8 (c'.depth + 1), toStates := [] }) := by
  unfold scanRule at hs
  rw [Res.bind_eq_ok] at hs
  obtain ⟨s, hs1, hs2⟩ := hs
  unfold feed
  rw [if_neg (by simp [hc]), hs1, Res.ok_bind, hh, Res.ok_bind, feedLoop_list hs2]
  show feedList k mv sets 0 [(k.none, i)] [0] (enter c index) = _
  unfold feedList feedElem feedStates feedStates feedState
  have h0 : idx (enter c index).states 0 = .ok ⟨l, m, M⟩ := idx_eq_ok.2 (by rw [hst]; rfl)
  rw [h0, Res.ok_bind, setAt_lt (by rw [hst]; simp), Res.ok_bind]
  simp only
  rw [if_neg (by simp), if_neg hi, hset, Res.ok_bind, hst]
  simp only [List.map_nil, List.append_nil, appendRanges, if_true, List.set_cons_zero]
  show _ = (do
      let c' ← appendRange k mv { enter c index with states := [(⟨l, m, M⟩ : State).updateHead 0] } 0 x y (enter c index).ruleIndex
      let c' ← freeUnused c'
      if u8 (c'.depth + 1) = 0 then .panic brokenCode else
      return { c' with depth := u8 (c'.depth + 1), toStates := [] })
  cases appendRange k mv { enter c index with states := [(⟨l, m, M⟩ : State).updateHead 0] } 0 x y (enter c index).ruleIndex with
  | err e => rfl
  | panic e => rfl
  | ok c' =>
    simp only [Res.ok_bind]
    cases freeUnused c' with
    | err e => rfl
    | panic e => rfl
    | ok c'' =>
      simp only [Res.ok_bind]
      split
      · rfl
      · rfl

/-- Compiling two rules that are one set with one range each. -/
theorem compile_pair {sets : Sets} (hc : c.compiling = false) {rule₁ rule₂ : Bytes} {q r blk₁ blk₂ i₁ i₂ : Nat}
    (hs₁ : scanRule k rule₁ = .ok [(blk₁, k.none, i₁)]) (hi₁ : i₁ ≠ setNone) (hh₁ : rdb rule₁ 1 = .ok 0)
    (hs₂ : scanRule k rule₂ = .ok [(blk₂, k.none, i₂)]) (hi₂ : i₂ ≠ setNone) (hh₂ : rdb rule₂ 1 = .ok 0)
    (hset₁ : sets i₁ = .ok ([(a, b)], [])) (hset₂ : sets i₂ = .ok ([(x, y)], []))
    (hq : q ≠ ruleNone) (hr : r ≠ ruleNone) (ha : a ≤ b) (hx : x ≤ y) (hb : b + 1 < 2 ^ (8 * k.width))
    (hy : y + 1 < 2 ^ (8 * k.width)) :
    (Split a b x y → compile k mv sets [(rule₁, q), (rule₂, r)] c = .panic brokenCode) ∧
    (¬ Split a b x y → ∃ c', compile k mv sets [(rule₁, q), (rule₂, r)] c =
      .ok ([⟨pairTrans a b x y q r, 0, 0⟩], c')) := by
  unfold compile begin
  rw [if_neg (by simp [hc]), Res.ok_bind]
  generalize hc0 : ({ c with compiling := true, states := [], rules := [], uses := [], freed := [], byDepth := [] } : Compiler) = c0
  have hs0 : c0.states = [] := by rw [← hc0]
  have hcc : c0.compiling = true := by rw [← hc0]
  have hen : (enter c0 q).states = [⟨[], 255, 0⟩] := by simp [enter, hs0, State.reset]
  have hu8 : ¬ u8 (0 + 1) = 0 := by decide
  unfold feedAll
  simp only
  rw [feed_set hcc hs₁ hi₁ hh₁ hset₁ hen]
  obtain ⟨n, hn⟩ := append_first (k := k) (mv := mv) (c := { enter c0 q with states := [(⟨[], 255, 0⟩ : State).updateHead 0] })
    hq ha (m := 0) (M := 0) rfl
  rw [hn, Res.ok_bind]
  unfold freeUnused
  rw [if_pos (by rfl), Res.ok_bind, if_neg (by exact hu8)]
  simp only [Res.pure_eq, Res.ok_bind]
  unfold feedAll
  simp only
  generalize hc1 : ({ enter c0 q with clock := n, states := [⟨[⟨a, b, q, stateNone⟩], 0, 0⟩], depth := u8 ((enter c0 q).depth + 1), toStates := [] } : Compiler) = c1
  have hcc1 : c1.compiling = true := by rw [← hc1]; exact hcc
  have hst1 : (enter c1 r).states = [⟨[⟨a, b, q, stateNone⟩], 0, 0⟩] := by rw [← hc1]; rfl
  rw [feed_set hcc1 hs₂ hi₂ hh₂ hset₂ hst1]
  constructor
  · intro h
    rw [append_second_panics (q := q) h ha hx hb hr (m := 0) (M := 0) rfl]
    rfl
  · intro h
    obtain ⟨n', hn'⟩ := append_second_ok (k := k) (mv := mv)
      (c := { enter c1 r with states := [(⟨[⟨a, b, q, stateNone⟩], 0, 0⟩ : State).updateHead 0] })
      h ha hx hb hy hq hr (m := 0) (M := 0) rfl
    rw [hn', Res.ok_bind]
    unfold freeUnused
    rw [if_pos (by rfl), Res.ok_bind, if_neg (by exact hu8)]
    simp only [Res.pure_eq, Res.ok_bind, feedAll]
    unfold finish
    rw [if_neg (by simp [enter, hcc1])]
    exact ⟨_, rfl⟩

theorem oneSet_ok {ok : Nat → Prop} {i : Nat} (hi : i < 255) (o : Nat) (c : UInt8) : (RuleCode.oneSet i [o] c).Ok ok := by
  refine ⟨?_, ?_, ?_, by simp [RuleCode.oneSet, blockSize, Fragment.size], by simp [RuleCode.oneSet],
    by simp [RuleCode.oneSet, blockSize, Fragment.size]⟩
  · intro f hf; exact absurd hf List.not_mem_nil
  · intro f hf
    rw [List.mem_singleton.1 hf]
    refine ⟨by simp, by simp, by simp [Fragment.size], ?_, by simp⟩
    intro g hg
    rw [List.mem_singleton.1 hg]
    omega
  · intro f hf; exact absurd hf List.not_mem_nil

theorem oneSet_scan_glyph {i : Nat} (hi : i < 255) (o : Nat) (c : UInt8) :
    scanRule glyphKind ((RuleCode.oneSet i [o] c).bytes word16) = .ok [(1, glyphKind.none, i)] :=
  scanRule_ok glyph_coded (by decide) (by decide) _ (oneSet_ok hi o c)

theorem oneSet_scan_utf8 {i : Nat} (hi : i < 255) (o : Nat) (c : UInt8) :
    scanRule utf8Kind ((RuleCode.oneSet i [o] c).bytes word32) = .ok [(1, utf8Kind.none, i)] :=
  scanRule_ok utf8_coded (by decide) (by decide) _ (oneSet_ok hi o c)

theorem ne_none {n : Nat} (h : n < 255) : n ≠ 255 := Nat.ne_of_lt h

theorem glyph_width {n : Nat} (h : n < 65535) : n + 1 < 2 ^ (8 * glyphKind.width) := Nat.succ_lt_succ h

theorem utf8_width {n : Nat} (h : n < 2147483647) : n + 1 < 2 ^ (8 * utf8Kind.width) :=
  Nat.succ_lt_succ (Nat.lt_trans h (by decide))

theorem idx_cons_zero {α : Type} (x : α) (l : List α) : idx (x :: l) 0 = .ok x := rfl
theorem idx_cons_one {α : Type} (x y : α) (l : List α) : idx (x :: y :: l) 1 = .ok y := rfl
theorem idx_cons_two {α : Type} (x y z : α) (l : List α) : idx (x :: y :: z :: l) 2 = .ok z := rfl

/-- Running a tree of one state without successors. -/
theorem run_one {l : List Transition} {g : Nat} {r : Nat} {m M : Nat}
    (h : (⟨l, m, M⟩ : State).trigger g = .ok (stateNone, r)) (w : List Nat) :
    Tree.run ⟨[⟨l, m, M⟩], 0, 0, false⟩ (g :: w) = .ok r := by
  unfold Tree.run Tree.beginSeq
  rw [if_neg (by simp), Res.ok_bind]
  unfold Tree.matchLoop Tree.feed
  simp only [Bool.not_true]
  rw [if_neg (by simp), idx_cons_zero, Res.ok_bind, h, Res.ok_bind]
  simp only [Res.pure_eq, Res.ok_bind, if_true]
  rw [if_pos (by simp)]
  by_cases hr : r = ruleNone
  · simp [hr]
  · simp [hr]

theorem trigger_one (g m M : Nat) : (⟨[⟨a, b, q, stateNone⟩], m, M⟩ : State).trigger g =
    .ok (stateNone, if a ≤ g ∧ g ≤ b then q else ruleNone) := by
  unfold State.trigger
  simp only [findTrans_one, Res.ok_bind]
  by_cases h : a ≤ g ∧ g ≤ b
  · rw [if_pos (by simpa using h), if_pos h]; rfl
  · rw [if_neg (by simpa using h), if_neg h]; rfl

theorem trigger_two (g m M : Nat) : (⟨[⟨a, b, q, stateNone⟩, ⟨x, y, r, stateNone⟩], m, M⟩ : State).trigger g =
    .ok (stateNone, if g < a then ruleNone else if g ≤ b then q else if x ≤ g ∧ g ≤ y then r else ruleNone) := by
  unfold State.trigger findTrans
  simp only [List.length_cons, List.length_nil]
  rw [findLoop.eq_2, if_pos (by decide)]
  simp only
  rw [show (0 + (0 + 1 + 1 - 1)) >>> 1 = 0 from rfl, idx_cons_zero, Res.ok_bind]
  by_cases h1 : g < a
  · rw [if_pos h1, if_pos h1]
    rw [findLoop.eq_2, if_neg (by decide), if_pos (by simp), idx_cons_zero, Res.ok_bind]
    simp only
    rw [if_neg (by simp)]
    simp only [Res.pure_eq, Res.ok_bind]
    rw [if_neg (by simp; omega)]
  · rw [if_neg h1, if_neg h1]
    by_cases h2 : g ≤ b
    · rw [if_neg (by simp only; omega), if_pos h2]
      rfl
    · rw [if_pos (by simp only; omega), if_neg h2]
      rw [findLoop.eq_2, if_neg (by decide), if_pos (by simp)]
      rw [show (0 + 1 : Nat) = 1 from rfl, idx_cons_one, Res.ok_bind]
      simp only
      rw [if_neg (by simp)]
      simp only [Res.pure_eq, Res.ok_bind]
      by_cases h : x ≤ g ∧ g ≤ y
      · rw [if_pos (by simpa using h), if_pos h]; rfl
      · rw [if_neg (by simpa using h), if_neg h]

theorem trigger_three {e f s : Nat} (hs : b < x) (g m M : Nat) :
    (⟨[⟨a, b, q, stateNone⟩, ⟨x, y, r, stateNone⟩, ⟨e, f, s, stateNone⟩], m, M⟩ : State).trigger g =
    .ok (stateNone, if g < x then (if a ≤ g ∧ g ≤ b then q else ruleNone) else if g ≤ y then r
      else if e ≤ g ∧ g ≤ f then s else ruleNone) := by
  unfold State.trigger findTrans
  simp only [List.length_cons, List.length_nil]
  rw [findLoop.eq_2, if_pos (by decide)]
  simp only
  rw [show (0 + (0 + 1 + 1 + 1 - 1)) >>> 1 = 1 from rfl, idx_cons_one, Res.ok_bind]
  by_cases h1 : g < x
  · rw [if_pos h1, if_pos h1]
    rw [findLoop.eq_2, if_pos (by decide)]
    simp only
    rw [show (0 + 1) >>> 1 = 0 from rfl, idx_cons_zero, Res.ok_bind]
    by_cases h2 : g < a
    · rw [if_pos h2, if_neg (by omega)]
      rw [findLoop.eq_2, if_neg (by decide), if_pos (by simp), idx_cons_zero, Res.ok_bind]
      simp only
      rw [if_neg (by simp)]
      simp only [Res.pure_eq, Res.ok_bind]
      rw [if_neg (by simp; omega)]
    · by_cases h3 : g ≤ b
      · rw [if_neg h2, if_neg (by simp only; omega), if_pos ⟨by omega, h3⟩]; rfl
      · rw [if_neg h2, if_pos (by simp only; omega), if_neg (by omega)]
        rw [findLoop.eq_2, if_neg (by decide), if_pos (by simp)]
        rw [show (0 + 1 : Nat) = 1 from rfl, idx_cons_one, Res.ok_bind]
        simp only
        rw [if_neg (by simp)]
        simp only [Res.pure_eq, Res.ok_bind]
        rw [if_neg (by simp; omega)]
  · rw [if_neg h1, if_neg h1]
    by_cases h2 : g ≤ y
    · rw [if_neg (by simp only; omega), if_pos h2]
      rfl
    · rw [if_pos (by simp only; omega), if_neg h2]
      rw [findLoop.eq_2, if_neg (by decide), if_pos (by simp)]
      rw [show (1 + 1 : Nat) = 2 from rfl, idx_cons_two, Res.ok_bind]
      simp only
      rw [if_neg (by simp)]
      simp only [Res.pure_eq, Res.ok_bind]
      by_cases h : e ≤ g ∧ g ≤ f
      · rw [if_pos (by simpa using h), if_pos h]; rfl
      · rw [if_neg (by simpa using h), if_neg h]

theorem pair_run (ha : a ≤ b) (hx : x ≤ y) (h : Fits a b x y) (g : Nat) (w : List Nat) :
    Tree.run ⟨[⟨pairTrans a b x y q r, 0, 0⟩], 0, 0, false⟩ (g :: w) =
      .ok (if a ≤ g ∧ g ≤ b then q else if x ≤ g ∧ g ≤ y then r else ruleNone) := by
  unfold pairTrans
  unfold Fits at h
  split_ifs
  all_goals first
    | (rw [run_one (trigger_one g 0 0)]; split_ifs <;> first | rfl | omega)
    | (rw [run_one (trigger_two g 0 0)]; split_ifs <;> first | rfl | omega)
    | (rw [run_one (trigger_three (by omega) g 0 0)]; split_ifs <;> first | rfl | omega)
    | omega

theorem pair_taken (h : Taken a b x y) (w : List Nat) :
    Tree.run ⟨[⟨pairTrans a b x y q r, 0, 0⟩], 0, 0, false⟩ (a :: w) = .ok r := by
  unfold pairTrans
  unfold Taken at h
  rw [if_neg (by omega), if_neg (by omega), if_neg (by omega), if_neg (by omega), run_one (trigger_two a 0 0),
    if_neg (by omega), if_pos (by omega)]

end

end TreeModel
