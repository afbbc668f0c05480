import Verif.Lemmas.Conditions

/-!
# Exact evaluation of conditions

With one byte after the condition, a group that is decided early goes past the condition, and everything else is exact.
-/

namespace FontModel
open Go Helpers Spec
open Font BuilderModel

theorem seen_or {v : List Nat} : ∀ ts : List Cond, Cond.AllCalm v false ts → Cond.anySeen v ts = false
  | [], _ => rfl
  | t :: ts, h => by
    simp only [Cond.AllCalm] at h
    simp only [Cond.anySeen, h.2.1, seen_or ts h.2.2, Bool.or_self]

theorem seen_and {v : List Nat} : ∀ ts : List Cond, Cond.AllCalm v true ts → Cond.allSeen v ts = true
  | [], _ => rfl
  | t :: ts, h => by
    simp only [Cond.AllCalm] at h
    simp only [Cond.allSeen, h.2.1, seen_and ts h.2.2, Bool.and_self]

mutual

theorem quiet_calm {v : List Nat} : ∀ {c : Cond}, c.Quiet v → c.Calm v ∧ c.seen v = c.holds v
  | .or ts, h => by
    rw [Cond.Quiet] at h
    obtain ⟨h1, h2, -⟩ := allQuiet_calm ts h
    exact ⟨by rw [Cond.Calm]; exact h1, by rw [Cond.seen, Cond.holds]; exact h2⟩
  | .and ts, h => by
    rw [Cond.Quiet] at h
    obtain ⟨h1, -, h2⟩ := allQuiet_calm ts h
    exact ⟨by rw [Cond.Calm]; exact h1, by rw [Cond.seen, Cond.holds]; exact h2⟩
  | .settings _ _ _, h => by simp only [Cond.Quiet] at h
  | .const _ _ _, h => by simp only [Cond.Quiet] at h
  | .quick _ _ _, _ => ⟨by simp only [Cond.Calm], by rw [Cond.seen, Cond.holds]⟩

theorem allQuiet_calm {v : List Nat} {b : Bool} : ∀ ts : List Cond, Cond.AllQuiet v b ts →
    Cond.AllCalm v b ts ∧ Cond.anySeen v ts = Cond.anyHolds v ts ∧ Cond.allSeen v ts = Cond.allHold v ts
  | [], _ => ⟨by simp only [Cond.AllCalm], rfl, rfl⟩
  | t :: ts, h => by
    simp only [Cond.AllQuiet] at h
    obtain ⟨h1, h2⟩ := quiet_calm h.1
    obtain ⟨h3, h4, h5⟩ := allQuiet_calm ts h.2.2
    refine ⟨by simp only [Cond.AllCalm]; exact ⟨h1, by rw [h2]; exact h.2.1, h3⟩, ?_, ?_⟩
    · rw [Cond.anySeen, Cond.anyHolds, h2, h4]
    · rw [Cond.allSeen, Cond.allHold, h2, h5]

end

/-- Not a group. -/
def Leaf : Cond → Prop
  | .or _ => False
  | .and _ => False
  | _ => True

theorem evalSub_leaf {data : Bytes} {maxIndex : Nat} {v : List Nat} (fuel : Nat) {c : Cond} {i : Nat} (hc : Leaf c)
    (hok : Cond.Ok v.length c) (hat : At data i c.bytes) (hle : i + c.bytes.length ≤ maxIndex) :
    evalSub data maxIndex v (fuel + 1) i = .ok (i + c.bytes.length, c.seen v) := by
  cases c with
  | or ts => exact hc.elim
  | and ts => exact hc.elim
  | settings op a b =>
    simp only [Cond.Ok] at hok
    simp only [Cond.bytes, List.length_cons, List.length_nil] at hat hle ⊢
    obtain ⟨q1, q2, q3⟩ := ctrl_settings op.code (code_lt op)
    have h1 := (At.cons.1 hat).2
    have h2 := (At.cons.1 h1).2
    rw [evalSub, if_neg (by omega), hat.rd8, Res.ok_bind]
    simp only
    rw [if_neg (by omega), if_neg (by omega), if_pos q1, h1.rd8, Res.ok_bind, if_neg (by omega), h2.rd8,
      Res.ok_bind, if_neg (by omega), if_pos q2, idx_lt hok.2, Res.ok_bind, q3, compare_code, Res.ok_bind,
      Cond.seen, List.getD_eq_getElem?_getD, List.getElem?_eq_getElem hok.2]
    rfl
  | const op a b =>
    simp only [Cond.Ok] at hok
    simp only [Cond.bytes, List.length_cons, List.length_nil] at hat hle ⊢
    obtain ⟨q1, q2, q3⟩ := ctrl_const op.code (code_lt op)
    have h1 := (At.cons.1 hat).2
    have h2 := (At.cons.1 h1).2
    rw [evalSub, if_neg (by omega), hat.rd8, Res.ok_bind]
    simp only
    rw [if_neg (by omega), if_neg (by omega), if_pos q1, h1.rd8, Res.ok_bind, if_neg (by omega), h2.rd8,
      Res.ok_bind, if_neg (by omega), if_neg (by omega), Res.ok_bind, q3, compare_code, Res.ok_bind]
    rfl
  | quick op a k =>
    simp only [Cond.Ok] at hok
    simp only [Cond.bytes, List.length_cons, List.length_nil] at hat hle ⊢
    obtain ⟨q1, q2⟩ := ctrl_quick op.code hok.2.2 k hok.2.1
    have h1 := (At.cons.1 hat).2
    rw [evalSub, if_neg (by omega), hat.rd8, Res.ok_bind]
    simp only [Cond.seen]
    rw [if_neg (by omega), if_neg (by omega), if_neg (by omega)]
    have hr : ∀ n, op.code = n → quickCompare data v i n ((UInt8.ofNat (96 + 32 * op.code + k)).toNat &&& 31) =
        .ok (i + (0 + 1 + 1), op.holds (v.getD a.toNat 0) k) := by
      intro n hn
      rw [q2]
      exact quick_ok hn h1 hok.1
    cases op with
    | eq => rw [if_pos (by rw [q1]; decide)]; exact hr 0 rfl
    | ne => rw [if_neg (by rw [q1]; decide), if_pos (by rw [q1]; decide)]; exact hr 1 rfl
    | lt => rw [if_neg (by rw [q1]; decide), if_neg (by rw [q1]; decide), if_pos (by rw [q1]; decide)]; exact hr 2 rfl
    | gt =>
      rw [if_neg (by rw [q1]; decide), if_neg (by rw [q1]; decide), if_neg (by rw [q1]; decide), if_pos (by rw [q1]; decide)]
      exact hr 3 rfl
    | le => exact absurd hok.2.2 (by decide)
    | ge => exact absurd hok.2.2 (by decide)

/-! ## Without early decisions -/

theorem evalTerms_calm {data : Bytes} {maxIndex : Nat} {v : List Nat} {eval : Nat → Res (Nat × Bool)}
    {skip : Nat → Res Nat} {stop : Bool} (ts : List Cond)
    (he : ∀ t ∈ ts, ∀ i, Cond.Ok v.length t → Cond.Calm v t → At data i t.bytes →
      i + t.bytes.length ≤ maxIndex → eval i = .ok (i + t.bytes.length, t.seen v)) :
    ∀ i, Cond.AllOk v.length ts → Cond.AllCalm v (!stop) ts → At data i (Cond.allBytes ts) →
      i + (Cond.allBytes ts).length ≤ maxIndex →
      evalTerms eval skip maxIndex stop ts.length i = .ok (i + (Cond.allBytes ts).length, !stop) := by
  induction ts with
  | nil => intro i _ _ _ _; simp [evalTerms, Cond.allBytes]
  | cons t ts ih =>
    intro i hok hq hat hle
    simp only [Cond.AllOk] at hok
    simp only [Cond.AllCalm] at hq
    simp only [Cond.allBytes, List.length_append] at hat hle ⊢
    rw [List.length_cons, evalTerms, he t (by simp) i hok.1 hq.1 hat.left (by omega), Res.ok_bind]
    simp only
    rw [if_neg (by omega), hq.2.1, if_neg (by cases stop <;> decide),
      ih (fun t' h => he t' (by simp [h])) _ hok.2 hq.2.2 hat.right (by omega)]
    rw [Nat.add_assoc]

theorem evalSub_calm {data : Bytes} {maxIndex : Nat} {v : List Nat} : ∀ (fuel : Nat) (c : Cond) (i : Nat),
    c.bytes.length ≤ fuel → Cond.Ok v.length c → Cond.Calm v c → At data i c.bytes →
    i + c.bytes.length ≤ maxIndex →
    evalSub data maxIndex v fuel i = .ok (i + c.bytes.length, c.seen v) := by
  intro fuel
  induction fuel with
  | zero =>
    intro c i h
    have := bytes_pos c
    omega
  | succ fuel ih =>
    intro c i hf hok hq hat hle
    have group : ∀ (stop : Bool) (ts : List Cond), (Cond.allBytes ts).length ≤ fuel →
        Cond.AllOk v.length ts → Cond.AllCalm v (!stop) ts → At data (i + 1) (Cond.allBytes ts) →
        i + 1 + (Cond.allBytes ts).length ≤ maxIndex →
        evalTerms (evalSub data maxIndex v fuel) (skipSub data maxIndex (min v.length 255) fuel)
          maxIndex stop ts.length (i + 1) = .ok (i + 1 + (Cond.allBytes ts).length, !stop) := by
      intro stop ts h1 h2 h3 h4 h5
      refine evalTerms_calm ts ?_ _ h2 h3 h4 h5
      intro t ht j hj hjq hjat hjle
      refine ih t j ?_ hj hjq hjat hjle
      have : t.bytes.length ≤ (Cond.allBytes ts).length := by
        obtain ⟨a, b, rfl⟩ := List.append_of_mem ht
        rw [allBytes_append, Cond.allBytes, List.length_append, List.length_append]
        omega
      omega
    cases c with
    | or ts =>
      simp only [Cond.Ok] at hok
      simp only [Cond.Calm] at hq
      simp only [Cond.bytes, List.length_cons] at hf hat hle ⊢
      obtain ⟨q1, q2⟩ := ctrl_or ts.length (by omega)
      rw [evalSub, if_neg (by omega), hat.rd8, Res.ok_bind]
      simp only
      rw [if_pos q1, q2, group true ts (by omega) hok.2.2 hq (At.cons.1 hat).2 (by omega)]
      simp only [Cond.seen, seen_or ts hq, Bool.not_true]
      rw [Nat.add_assoc, Nat.add_comm 1]
    | and ts =>
      simp only [Cond.Ok] at hok
      simp only [Cond.Calm] at hq
      simp only [Cond.bytes, List.length_cons] at hf hat hle ⊢
      obtain ⟨q1, q2⟩ := ctrl_and ts.length (by omega)
      rw [evalSub, if_neg (by omega), hat.rd8, Res.ok_bind]
      simp only
      rw [if_neg (by omega), if_pos q1, q2, group false ts (by omega) hok.2.2 hq (At.cons.1 hat).2 (by omega)]
      simp only [Cond.seen, seen_and ts hq, Bool.not_false]
      rw [Nat.add_assoc, Nat.add_comm 1]
    | settings op a b => exact evalSub_leaf fuel trivial hok hat hle
    | const op a k => exact evalSub_leaf fuel trivial hok hat hle
    | quick op a k => exact evalSub_leaf fuel trivial hok hat hle

/-! ## With early decisions -/

/-- From `i` to the byte after the condition there is a list of well-formed expressions. -/
structure Wood (data : Bytes) (maxIndex n i : Nat) (l : List Cond) : Prop where
  ok : Cond.AllOk n l
  here : At data i (Cond.allBytes l)
  till : i + (Cond.allBytes l).length = maxIndex

theorem Wood.leaf {data : Bytes} {maxIndex n i : Nat} {c : Cond} {l : List Cond}
    (h : Wood data maxIndex n i (c :: l)) : Wood data maxIndex n (i + c.bytes.length) l := by
  have h1 := h.ok
  have h2 := h.here
  have h3 := h.till
  simp only [Cond.AllOk] at h1
  simp only [Cond.allBytes, List.length_append] at h2 h3
  exact ⟨h1.2, h2.right, by omega⟩

/-- What is left after a call that takes at least `n` expressions, unless it went past the condition. -/
def Left (data : Bytes) (maxIndex s n : Nat) (l : List Cond) (j : Nat) : Prop :=
  maxIndex < j ∨ ∃ l', Wood data maxIndex s j l' ∧ l'.length + n ≤ l.length

theorem skipSub_left {data : Bytes} {maxIndex s fuel i j : Nat} {l : List Cond} (hi : maxIndex + 2 ≤ i + fuel)
    (hf : 1 ≤ fuel) (h : Wood data maxIndex s i l) (hj : skipSub data maxIndex (min s 255) fuel i = .ok j) :
    i < j ∧ Left data maxIndex s 1 l j := by
  have h1 : i < j := (skipSub_fueled fuel hf i (by omega)).2 j hj
  refine ⟨h1, ?_⟩
  cases l with
  | nil =>
    have := h.till
    simp only [Cond.allBytes, List.length_nil] at this
    exact .inl (by omega)
  | cons c l =>
    have h2 := h.ok
    have h3 := h.here
    have h4 := h.till
    simp only [Cond.AllOk] at h2
    simp only [Cond.allBytes, List.length_append] at h3 h4
    have := skipSub_ok (data := data) (maxIndex := maxIndex) (n := s) fuel c i (by omega) h2.1 h3.left (by omega)
    rw [hj, Res.ok.injEq] at this
    subst this
    exact .inr ⟨l, h.leaf, by simp⟩

theorem skipRest_left {data : Bytes} {maxIndex s fuel : Nat} (hf : 1 ≤ fuel) : ∀ (n i j : Nat) (l : List Cond),
    maxIndex + 2 ≤ i + fuel → Wood data maxIndex s i l →
    skipRest (skipSub data maxIndex (min s 255) fuel) n i = .ok j → i ≤ j ∧ Left data maxIndex s n l j
  | 0, i, j, l, _, h, hj => by
    rw [skipRest, Res.ok.injEq] at hj
    subst hj
    exact ⟨Nat.le_refl _, .inr ⟨l, h, by simp⟩⟩
  | n + 1, i, j, l, hi, h, hj => by
    rw [skipRest] at hj
    cases hk : skipSub data maxIndex (min s 255) fuel i with
    | panic m => rw [hk] at hj; cases hj
    | err m => rw [hk] at hj; cases hj
    | ok k =>
      rw [hk, Res.ok_bind] at hj
      obtain ⟨h1, h2⟩ := skipSub_left hi hf h hk
      rcases h2 with h2 | ⟨l', h2, h3⟩
      · cases n with
        | zero =>
          rw [skipRest, Res.ok.injEq] at hj
          subst hj
          exact ⟨by omega, .inl h2⟩
        | succ n =>
          rw [skipRest] at hj
          obtain ⟨fuel, rfl⟩ : ∃ a, fuel = a + 1 := ⟨fuel - 1, by omega⟩
          rw [skipSub, if_pos h2] at hj
          cases hj
      · obtain ⟨h4, h5⟩ := skipRest_left hf n k j l' (by omega) h2 hj
        refine ⟨by omega, ?_⟩
        rcases h5 with h5 | ⟨l2, h5, h6⟩
        · exact .inl h5
        · exact .inr ⟨l2, h5, by omega⟩

/-- A call of the evaluation: it takes at least one expression, and if it is exactly one then it is calm. -/
def Steps (data : Bytes) (maxIndex : Nat) (v : List Nat) (i : Nat) (l : List Cond) (a : Nat × Bool) : Prop :=
  i < a.1 ∧ (maxIndex < a.1 ∨ ∃ l', Wood data maxIndex v.length a.1 l' ∧ l'.length + 1 ≤ l.length ∧
    ∀ c r, l = c :: r → l'.length = r.length → a = (i + c.bytes.length, c.seen v) ∧ Cond.Calm v c)

theorem evalTerms_left {data : Bytes} {maxIndex : Nat} {v : List Nat} {fuel : Nat} {stop : Bool} (hf : 1 ≤ fuel)
    {eval : Nat → Res (Nat × Bool)}
    (he : ∀ i l a, maxIndex + 2 ≤ i + fuel → Wood data maxIndex v.length i l → eval i = .ok a →
      Steps data maxIndex v i l a) :
    ∀ (n i : Nat) (l : List Cond) (a : Nat × Bool), maxIndex + 2 ≤ i + fuel → Wood data maxIndex v.length i l →
      evalTerms eval (skipSub data maxIndex (min v.length 255) fuel) maxIndex stop n i = .ok a →
      i ≤ a.1 ∧ Left data maxIndex v.length n l a.1
  | 0, i, l, a, _, h, ha => by
    rw [evalTerms, Res.ok.injEq] at ha
    subst ha
    exact ⟨Nat.le_refl _, .inr ⟨l, h, by simp⟩⟩
  | n + 1, i, l, a, hi, h, ha => by
    rw [evalTerms] at ha
    cases hk : eval i with
    | panic m => rw [hk] at ha; cases ha
    | err m => rw [hk] at ha; cases ha
    | ok k =>
      obtain ⟨k, b⟩ := k
      rw [hk, Res.ok_bind] at ha
      simp only at ha
      obtain ⟨h1, h2⟩ := he i l _ hi h hk
      simp only at h1 h2
      by_cases hgt : k > maxIndex
      · rw [if_pos hgt] at ha; cases ha
      rw [if_neg hgt] at ha
      rcases h2 with h2 | ⟨l', h2, h3, -⟩
      · omega
      by_cases hb : b = stop
      · rw [if_pos hb] at ha
        cases hj : skipRest (skipSub data maxIndex (min v.length 255) fuel) (n + 1) k with
        | panic m => rw [hj] at ha; cases ha
        | err m => rw [hj] at ha; cases ha
        | ok j =>
          rw [hj, Res.ok_bind] at ha
          injection ha with ha
          subst ha
          obtain ⟨h4, h5⟩ := skipRest_left hf (n + 1) k j l' (by omega) h2 hj
          refine ⟨by simp only; omega, ?_⟩
          rcases h5 with h5 | ⟨l2, h5, h6⟩
          · exact .inl h5
          · exact .inr ⟨l2, h5, by omega⟩
      · rw [if_neg hb] at ha
        obtain ⟨h4, h5⟩ := evalTerms_left hf he n k l' a (by omega) h2 ha
        refine ⟨by omega, ?_⟩
        rcases h5 with h5 | ⟨l2, h5, h6⟩
        · exact .inl h5
        · exact .inr ⟨l2, h5, by omega⟩

theorem evalTerms_steps {data : Bytes} {maxIndex : Nat} {v : List Nat} {fuel : Nat} {stop : Bool} (hf : 1 ≤ fuel)
    {eval : Nat → Res (Nat × Bool)}
    (he : ∀ i l a, maxIndex + 2 ≤ i + fuel → Wood data maxIndex v.length i l → eval i = .ok a →
      Steps data maxIndex v i l a) :
    ∀ (ts r : List Cond) (i : Nat) (a : Nat × Bool), maxIndex + 2 ≤ i + fuel →
      Wood data maxIndex v.length i (ts ++ r) →
      evalTerms eval (skipSub data maxIndex (min v.length 255) fuel) maxIndex stop ts.length i = .ok a →
      maxIndex < a.1 ∨ ∃ l', Wood data maxIndex v.length a.1 l' ∧ l'.length ≤ r.length ∧
        (l'.length = r.length → a = (i + (Cond.allBytes ts).length, !stop) ∧ Cond.AllCalm v (!stop) ts)
  | [], r, i, a, _, h, ha => by
    rw [List.length_nil, evalTerms, Res.ok.injEq] at ha
    subst ha
    exact .inr ⟨r, h, Nat.le_refl _, fun _ => ⟨by simp [Cond.allBytes], by simp [Cond.AllCalm]⟩⟩
  | t :: ts, r, i, a, hi, h, ha => by
    rw [List.length_cons, evalTerms] at ha
    cases hk : eval i with
    | panic m => rw [hk] at ha; cases ha
    | err m => rw [hk] at ha; cases ha
    | ok k =>
      obtain ⟨k, b⟩ := k
      rw [hk, Res.ok_bind] at ha
      simp only at ha
      obtain ⟨h1, h2⟩ := he i _ _ hi h hk
      simp only at h1 h2
      by_cases hgt : k > maxIndex
      · rw [if_pos hgt] at ha; cases ha
      rw [if_neg hgt] at ha
      rcases h2 with h2 | ⟨l', h2, h3, h4⟩
      · omega
      have h4 := h4 t (ts ++ r) rfl
      simp only [List.cons_append, List.length_cons, List.length_append] at h3 h4
      by_cases hb : b = stop
      · rw [if_pos hb] at ha
        cases hj : skipRest (skipSub data maxIndex (min v.length 255) fuel) (ts.length + 1) k with
        | panic m => rw [hj] at ha; cases ha
        | err m => rw [hj] at ha; cases ha
        | ok j =>
          rw [hj, Res.ok_bind] at ha
          injection ha with ha
          subst ha
          obtain ⟨-, h5⟩ := skipRest_left hf (ts.length + 1) k j l' (by omega) h2 hj
          rcases h5 with h5 | ⟨l2, h5, h6⟩
          · exact .inl h5
          · exact .inr ⟨l2, h5, by omega, fun e => by omega⟩
      · rw [if_neg hb] at ha
        by_cases he' : l'.length = ts.length + r.length
        · obtain ⟨h5, h6⟩ := h4 he'
          simp only [Prod.mk.injEq] at h5
          obtain ⟨rfl, rfl⟩ := h5
          have hw := h.leaf
          rcases evalTerms_steps hf he ts r _ a (by omega) hw ha with h7 | ⟨l2, h7, h8, h9⟩
          · exact .inl h7
          · refine .inr ⟨l2, h7, h8, fun e => ?_⟩
            obtain ⟨h10, h11⟩ := h9 e
            refine ⟨by rw [h10, Cond.allBytes, List.length_append, Nat.add_assoc], ?_⟩
            simp only [Cond.AllCalm]
            refine ⟨h6, ?_, h11⟩
            cases hs : t.seen v <;> cases stop <;> simp_all
        · obtain ⟨-, h5⟩ := evalTerms_left hf he ts.length k l' a (by omega) h2 ha
          rcases h5 with h5 | ⟨l2, h5, h6⟩
          · exact .inl h5
          · exact .inr ⟨l2, h5, by omega, fun e => by omega⟩

theorem evalSub_steps {data : Bytes} {maxIndex : Nat} {v : List Nat} : ∀ (fuel : Nat) (i : Nat) (l : List Cond)
    (a : Nat × Bool), maxIndex + 2 ≤ i + fuel → Wood data maxIndex v.length i l →
    evalSub data maxIndex v fuel i = .ok a → Steps data maxIndex v i l a := by
  intro fuel
  induction fuel with
  | zero => intro i l a _ _ ha; rw [evalSub] at ha; cases ha
  | succ fuel ih =>
    intro i l a hi h ha
    have h1 : i < a.1 := (evalSub_fueled (fuel + 1) (by omega) i (by omega)).2 a ha
    refine ⟨h1, ?_⟩
    have h4 := h.till
    cases l with
    | nil =>
      simp only [Cond.allBytes, List.length_nil] at h4
      exact .inl (by omega)
    | cons c l =>
      have h2 := h.ok
      have h3 := h.here
      simp only [Cond.AllOk] at h2
      simp only [Cond.allBytes, List.length_append] at h3 h4
      have hpos := bytes_pos c
      have leaf : Leaf c → maxIndex < a.1 ∨ ∃ l', Wood data maxIndex v.length a.1 l' ∧
          l'.length + 1 ≤ (c :: l).length ∧ ∀ c' r, c :: l = c' :: r → l'.length = r.length →
            a = (i + c'.bytes.length, c'.seen v) ∧ Cond.Calm v c' := by
        intro hc
        rw [evalSub_leaf fuel hc h2.1 h3.left (by omega), Res.ok.injEq] at ha
        subst ha
        refine .inr ⟨l, h.leaf, by simp, fun c' r e _ => ?_⟩
        injection e with e1 e2
        subst e1
        exact ⟨rfl, by cases c <;> first | exact hc.elim | simp [Cond.Calm]⟩
      have group : ∀ (ctrl : UInt8) (ts : List Cond) (stop : Bool), c.bytes = ctrl :: Cond.allBytes ts →
          Cond.AllOk v.length ts → (Cond.AllCalm v (!stop) ts → Cond.Calm v c ∧ c.seen v = !stop) →
          evalTerms (evalSub data maxIndex v fuel) (skipSub data maxIndex (min v.length 255) fuel) maxIndex stop
            ts.length (i + 1) = .ok a →
          maxIndex < a.1 ∨ ∃ l', Wood data maxIndex v.length a.1 l' ∧
          l'.length + 1 ≤ (c :: l).length ∧ ∀ c' r, c :: l = c' :: r → l'.length = r.length →
            a = (i + c'.bytes.length, c'.seen v) ∧ Cond.Calm v c' := by
        intro ctrl ts stop hb hts hcalm ha
        have hw : Wood data maxIndex v.length (i + 1) (ts ++ l) := by
          refine ⟨(allOk_append _ _ _).2 ⟨hts, h2.2⟩, ?_, ?_⟩
          · rw [allBytes_append]
            rw [hb] at h3
            exact (At.cons.1 (by simpa using h3)).2
          · rw [allBytes_append, List.length_append]
            rw [hb, List.length_cons] at h4
            omega
        have hf : 1 ≤ fuel := by omega
        rcases evalTerms_steps hf ih ts l (i + 1) a (by omega) hw ha with h7 | ⟨l2, h7, h8, h9⟩
        · exact .inl h7
        · refine .inr ⟨l2, h7, by simpa using h8, fun c' r e h10 => ?_⟩
          injection e with e1 e2
          subst e1 e2
          obtain ⟨h11, h12⟩ := h9 h10
          obtain ⟨h13, h14⟩ := hcalm h12
          refine ⟨?_, h13⟩
          rw [h11, h14, hb, List.length_cons, Nat.add_assoc, Nat.add_comm 1]
      cases c with
      | or ts =>
        have hts := h2.1
        simp only [Cond.Ok] at hts
        simp only [Cond.bytes, List.cons_append, List.length_cons] at h3 h4
        obtain ⟨q1, q2⟩ := ctrl_or ts.length (by omega)
        rw [evalSub, if_neg (by omega), h3.rd8, Res.ok_bind] at ha
        simp only at ha
        rw [if_pos q1, q2] at ha
        refine group _ ts true rfl hts.2.2 (fun hc => ?_) ha
        exact ⟨by rw [Cond.Calm]; exact hc, by rw [Cond.seen, seen_or ts hc]; rfl⟩
      | and ts =>
        have hts := h2.1
        simp only [Cond.Ok] at hts
        simp only [Cond.bytes, List.cons_append, List.length_cons] at h3 h4
        obtain ⟨q1, q2⟩ := ctrl_and ts.length (by omega)
        rw [evalSub, if_neg (by omega), h3.rd8, Res.ok_bind] at ha
        simp only at ha
        rw [if_neg (by omega), if_pos q1, q2] at ha
        refine group _ ts false rfl hts.2.2 (fun hc => ?_) ha
        exact ⟨by rw [Cond.Calm]; exact hc, by rw [Cond.seen, seen_and ts hc]; rfl⟩
      | settings op a b => exact leaf trivial
      | const op a b => exact leaf trivial
      | quick op a b => exact leaf trivial

/-- The whole condition, followed by one byte. -/
theorem evalSub_whole {data : Bytes} {maxIndex i fuel : Nat} {v : List Nat} {c : Cond} (hok : Cond.Ok v.length c)
    (hat : At data i c.bytes) (he : i + c.bytes.length = maxIndex) (hi : maxIndex + 2 ≤ i + fuel) (b : Bool) :
    evalSub data maxIndex v fuel i = .ok (maxIndex, b) ↔ Cond.Calm v c ∧ b = c.seen v := by
  constructor
  · intro h
    have hw : Wood data maxIndex v.length i [c] :=
      ⟨by simpa [Cond.AllOk] using hok, by simpa [Cond.allBytes] using hat, by simpa [Cond.allBytes] using he⟩
    rcases (evalSub_steps fuel i [c] _ hi hw h).2 with h1 | ⟨l', h1, h2, h3⟩
    · exact absurd h1 (Nat.lt_irrefl _)
    · obtain ⟨h4, h5⟩ := h3 c [] rfl (by simpa using h2)
      simp only [Prod.mk.injEq] at h4
      exact ⟨h5, h4.2⟩
  · rintro ⟨h, rfl⟩
    rw [evalSub_calm fuel c i (by omega) hok h hat (by omega), he]

/-! ## End offsets -/

theorem flatMap_pair (l : List Nat) : ∀ j, j < l.length →
    (l.flatMap fun e => [UInt8.ofNat e, (0 : UInt8)]) =
      ((l.take j).flatMap fun e => [UInt8.ofNat e, (0 : UInt8)]) ++ (UInt8.ofNat (l.getD j 0) :: 0 ::
        ((l.drop (j + 1)).flatMap fun e => [UInt8.ofNat e, (0 : UInt8)])) := by
  induction l with
  | nil => intro j h; simp at h
  | cons x l ih =>
    intro j h
    cases j with
    | zero => simp
    | succ j => simp [ih j (by simpa using h)]

theorem flatMap_pair_length (l : List Nat) : (l.flatMap fun e => [UInt8.ofNat e, (0 : UInt8)]).length = 2 * l.length := by
  induction l with
  | nil => rfl
  | cons x l ih => simp only [List.flatMap_cons, List.length_append, ih]; simp only [List.length_cons, List.length_nil]; omega

theorem shortConditions_bytes {f : Font} {ends : List Nat} (h : ShortConditions f ends) :
    rd8 f.data f.offConditions = .ok ends.length ∧
    f.offConditions + 1 + 2 * ends.length ≤ f.data.length ∧
    ∀ j, j < ends.length → byteAt f.data (f.offConditions + 1 + 2 * j) = ends.getD j 0 ∧
      byteAt f.data (f.offConditions + 1 + 2 * j + 1) = 0 := by
  obtain ⟨⟨pre, post, hd, ho⟩, hc, hs⟩ := h
  have hat : At f.data f.offConditions (UInt8.ofNat ends.length :: (ends.flatMap fun e => [UInt8.ofNat e, (0 : UInt8)])) := by
    rw [hd, ho]
    exact At.intro _ _ _
  have h1 := (At.cons.1 hat).2
  refine ⟨?_, ?_, fun j hj => ?_⟩
  · rw [hat.rd8, UInt8.toNat_ofNat_of_lt' (by simp [UInt8.size]; omega)]
  · have := h1.len
    rw [flatMap_pair_length] at this
    omega
  · rw [flatMap_pair ends j hj] at h1
    have h2 := h1.right
    rw [flatMap_pair_length, List.length_take, Nat.min_eq_left (by omega)] at h2
    refine ⟨?_, ?_⟩
    · rw [h2.byte]
      have := (hs (ends.getD j 0) (by rw [List.getD_eq_getElem?_getD, List.getElem?_eq_getElem hj]; exact List.getElem_mem hj)).2
      rw [UInt8.toNat_ofNat_of_lt' (by simp only [UInt8.size]; omega)]
    · have := (At.cons.1 h2).2.byte
      rw [this]; rfl

end FontModel
