import Verif.Model.Rewrites
import Verif.Spec.Conditions
import Verif.Lemmas.At
import Verif.Lemmas.BuildParts

/-! # Conditions -/

namespace FontModel
open Go Helpers Spec
open Font BuilderModel

/-! ## Control bytes -/

theorem ctrl_or : ∀ n < 32, (UInt8.ofNat n).toNat &&& 0b11100000 = 0 ∧
    (UInt8.ofNat n).toNat &&& 0b00011111 = n := by decide
theorem ctrl_and : ∀ n < 32, (UInt8.ofNat (32 + n)).toNat &&& 0b11100000 = 32 ∧
    (UInt8.ofNat (32 + n)).toNat &&& 0b00011111 = n := by decide
theorem ctrl_settings : ∀ n < 6, (UInt8.ofNat (64 + n)).toNat &&& 0b11100000 = 64 ∧
    (UInt8.ofNat (64 + n)).toNat &&& 0b00010000 = 0 ∧
    (UInt8.ofNat (64 + n)).toNat &&& 0b00001111 = n := by decide
theorem ctrl_const : ∀ n < 6, (UInt8.ofNat (64 + 16 + n)).toNat &&& 0b11100000 = 64 ∧
    (UInt8.ofNat (64 + 16 + n)).toNat &&& 0b00010000 = 16 ∧
    (UInt8.ofNat (64 + 16 + n)).toNat &&& 0b00001111 = n := by decide
theorem ctrl_quick : ∀ n < 4, ∀ c < 32, (UInt8.ofNat (96 + 32 * n + c)).toNat &&& 0b11100000 = 96 + 32 * n ∧
    (UInt8.ofNat (96 + 32 * n + c)).toNat &&& 0b00011111 = c := by decide

theorem code_lt (op : Comparison) : op.code < 6 := by cases op <;> decide

theorem compare_code (op : Comparison) (a b : Nat) : compare op.code a b = .ok (op.holds a b) := by
  cases op <;> rfl

/-! ## Lists of conditions -/

theorem allBytes_append (a b : List Cond) :
    Cond.allBytes (a ++ b) = Cond.allBytes a ++ Cond.allBytes b := by
  induction a with
  | nil => simp [Cond.allBytes]
  | cons x a ih => simp [Cond.allBytes, ih]

theorem allOk_append (n : Nat) (a b : List Cond) :
    Cond.AllOk n (a ++ b) ↔ Cond.AllOk n a ∧ Cond.AllOk n b := by
  induction a with
  | nil => simp [Cond.AllOk]
  | cons x a ih => simp [Cond.AllOk, ih, and_assoc]

theorem allOk_suffix {n : Nat} {a b : List Cond} (h : a <:+ b) (hb : Cond.AllOk n b) : Cond.AllOk n a := by
  obtain ⟨c, rfl⟩ := h
  exact ((allOk_append n c a).1 hb).2

theorem bytes_pos (c : Cond) : 0 < c.bytes.length := by
  cases c <;> simp [Cond.bytes]

theorem length_le_allBytes (l : List Cond) : l.length ≤ (Cond.allBytes l).length := by
  induction l with
  | nil => simp
  | cons x l ih =>
    have := bytes_pos x
    simp only [List.length_cons, Cond.allBytes, List.length_append]
    omega

/-! ## Skipping -/

theorem skipTerms_ok {data : Bytes} {maxIndex n : Nat} {skip : Nat → Res Nat} (ts : List Cond)
    (hs : ∀ t ∈ ts, ∀ i, Cond.Ok n t → At data i t.bytes → i + t.bytes.length ≤ maxIndex →
      skip i = .ok (i + t.bytes.length)) :
    ∀ i, Cond.AllOk n ts → At data i (Cond.allBytes ts) → i + (Cond.allBytes ts).length ≤ maxIndex →
      skipTerms skip maxIndex ts.length i = .ok (i + (Cond.allBytes ts).length) := by
  induction ts with
  | nil => intro i _ _ _; simp [skipTerms, Cond.allBytes]
  | cons t ts ih =>
    intro i hok hat hle
    simp only [Cond.AllOk] at hok
    simp only [Cond.allBytes, List.length_append] at hat hle ⊢
    rw [List.length_cons, skipTerms, hs t (by simp) i hok.1 hat.left (by omega), Res.ok_bind,
      if_neg (by omega), ih (fun t' h => hs t' (by simp [h])) _ hok.2 hat.right (by omega)]
    rw [Nat.add_assoc]

/-- A well-formed expression is skipped exactly. -/
theorem skipSub_ok {data : Bytes} {maxIndex n : Nat} : ∀ (fuel : Nat) (c : Cond) (i : Nat),
    c.bytes.length ≤ fuel → Cond.Ok n c → At data i c.bytes → i + c.bytes.length ≤ maxIndex →
    skipSub data maxIndex (min n 255) fuel i = .ok (i + c.bytes.length) := by
  intro fuel
  induction fuel with
  | zero =>
    intro c i h
    have := bytes_pos c
    omega
  | succ fuel ih =>
    intro c i hf hok hat hle
    have group : ∀ ts : List Cond, (Cond.allBytes ts).length ≤ fuel → Cond.AllOk n ts →
        At data (i + 1) (Cond.allBytes ts) → i + 1 + (Cond.allBytes ts).length ≤ maxIndex →
        skipTerms (skipSub data maxIndex (min n 255) fuel) maxIndex ts.length (i + 1) =
          .ok (i + 1 + (Cond.allBytes ts).length) := by
      intro ts h1 h2 h3 h4
      refine skipTerms_ok ts ?_ _ h2 h3 h4
      intro t ht j hj hjat hjle
      refine ih t j ?_ hj hjat hjle
      have : t.bytes.length ≤ (Cond.allBytes ts).length := by
        obtain ⟨a, b, rfl⟩ := List.append_of_mem ht
        rw [allBytes_append, Cond.allBytes, List.length_append, List.length_append]
        omega
      omega
    cases c with
    | or ts =>
      simp only [Cond.Ok] at hok
      simp only [Cond.bytes, List.length_cons] at hf hat hle ⊢
      obtain ⟨q1, q2⟩ := ctrl_or ts.length (by omega)
      rw [skipSub, if_neg (by omega), hat.rd8, Res.ok_bind]
      simp only
      rw [if_pos q1, q2, group ts (by omega) hok.2.2 (At.cons.1 hat).2 (by omega)]
      rw [Nat.add_assoc, Nat.add_comm 1]
    | and ts =>
      simp only [Cond.Ok] at hok
      simp only [Cond.bytes, List.length_cons] at hf hat hle ⊢
      obtain ⟨q1, q2⟩ := ctrl_and ts.length (by omega)
      rw [skipSub, if_neg (by omega), hat.rd8, Res.ok_bind]
      simp only
      rw [if_neg (by omega), if_pos q1, q2, group ts (by omega) hok.2.2 (At.cons.1 hat).2 (by omega)]
      rw [Nat.add_assoc, Nat.add_comm 1]
    | settings op a b =>
      simp only [Cond.Ok] at hok
      simp only [Cond.bytes] at hf hat hle ⊢
      simp only [List.length_cons, List.length_nil] at hf hle
      obtain ⟨q1, q2, q3⟩ := ctrl_settings op.code (code_lt op)
      have h1 := (At.cons.1 hat).2
      have h2 := (At.cons.1 h1).2
      have ha := a.toNat_lt
      have hb := b.toNat_lt
      have hc := code_lt op
      rw [skipSub, if_neg (by omega), hat.rd8, Res.ok_bind]
      simp only
      rw [if_neg (by omega), if_neg (by omega), if_pos q1, h1.rd8, Res.ok_bind, if_neg (by omega),
        if_pos q2, h2.rd8, Res.ok_bind, if_neg (by omega), if_pos (by omega)]
      rfl
    | const op a k =>
      simp only [Cond.Ok] at hok
      simp only [Cond.bytes] at hf hat hle ⊢
      simp only [List.length_cons, List.length_nil] at hf hle
      obtain ⟨q1, q2, q3⟩ := ctrl_const op.code (code_lt op)
      have h1 := (At.cons.1 hat).2
      have ha := a.toNat_lt
      have hc := code_lt op
      rw [skipSub, if_neg (by omega), hat.rd8, Res.ok_bind]
      simp only
      rw [if_neg (by omega), if_neg (by omega), if_pos q1, h1.rd8, Res.ok_bind, if_neg (by omega),
        if_neg (by omega), Res.ok_bind, if_neg (by omega), if_pos (by omega)]
      rfl
    | quick op a k =>
      simp only [Cond.Ok] at hok
      simp only [Cond.bytes] at hf hat hle ⊢
      simp only [List.length_cons, List.length_nil] at hf hle
      obtain ⟨q1, q2⟩ := ctrl_quick op.code hok.2.2 k hok.2.1
      have h1 := (At.cons.1 hat).2
      have ha := a.toNat_lt
      have hc := hok.2.2
      rw [skipSub, if_neg (by omega), hat.rd8, Res.ok_bind]
      simp only
      rw [if_neg (by omega), if_neg (by omega), if_neg (by omega), if_pos (by omega), h1.rd8, Res.ok_bind,
        if_neg (by omega)]
      rfl

/-! ## Evaluation without short circuits -/

theorem quick_ok {data : Bytes} {v : List Nat} {i op k : Nat} {a : UInt8} {c : Comparison}
    (hc : c.code = op) (h : At data (i + 1) [a]) (ha : a.toNat < v.length) :
    quickCompare data v i op k = .ok (i + 2, c.holds (v.getD a.toNat 0) k) := by
  rw [quickCompare, h.rd8, Res.ok_bind, if_neg (by omega), idx_lt ha, Res.ok_bind, ← hc, compare_code,
    Res.ok_bind, List.getD_eq_getElem?_getD, List.getElem?_eq_getElem ha]
  rfl

theorem evalTerms_quiet {data : Bytes} {maxIndex : Nat} {v : List Nat} {eval : Nat → Res (Nat × Bool)}
    {skip : Nat → Res Nat} {stop : Bool} (ts : List Cond)
    (he : ∀ t ∈ ts, ∀ i, Cond.Ok v.length t → Cond.Quiet v t → At data i t.bytes →
      i + t.bytes.length ≤ maxIndex → eval i = .ok (i + t.bytes.length, t.holds v)) :
    ∀ i, Cond.AllOk v.length ts → Cond.AllQuiet v (!stop) ts → At data i (Cond.allBytes ts) →
      i + (Cond.allBytes ts).length ≤ maxIndex →
      evalTerms eval skip maxIndex stop ts.length i = .ok (i + (Cond.allBytes ts).length, !stop) := by
  induction ts with
  | nil => intro i _ _ _ _; simp [evalTerms, Cond.allBytes]
  | cons t ts ih =>
    intro i hok hq hat hle
    simp only [Cond.AllOk] at hok
    simp only [Cond.AllQuiet] at hq
    simp only [Cond.allBytes, List.length_append] at hat hle ⊢
    rw [List.length_cons, evalTerms, he t (by simp) i hok.1 hq.1 hat.left (by omega), Res.ok_bind]
    simp only
    rw [if_neg (by omega), hq.2.1, if_neg (by cases stop <;> decide),
      ih (fun t' h => he t' (by simp [h])) _ hok.2 hq.2.2 hat.right (by omega)]
    rw [Nat.add_assoc]

theorem holds_or_quiet {v : List Nat} : ∀ ts : List Cond, Cond.AllQuiet v false ts →
    Cond.anyHolds v ts = false
  | [], _ => rfl
  | t :: ts, h => by
    simp only [Cond.AllQuiet] at h
    simp only [Cond.anyHolds, h.2.1, holds_or_quiet ts h.2.2, Bool.or_self]

theorem holds_and_quiet {v : List Nat} : ∀ ts : List Cond, Cond.AllQuiet v true ts →
    Cond.allHold v ts = true
  | [], _ => rfl
  | t :: ts, h => by
    simp only [Cond.AllQuiet] at h
    simp only [Cond.allHold, h.2.1, holds_and_quiet ts h.2.2, Bool.and_self]

theorem evalSub_quiet {data : Bytes} {maxIndex : Nat} {v : List Nat} : ∀ (fuel : Nat) (c : Cond) (i : Nat),
    c.bytes.length ≤ fuel → Cond.Ok v.length c → Cond.Quiet v c → At data i c.bytes →
    i + c.bytes.length ≤ maxIndex →
    evalSub data maxIndex v fuel i = .ok (i + c.bytes.length, c.holds v) := by
  intro fuel
  induction fuel with
  | zero =>
    intro c i h
    have := bytes_pos c
    omega
  | succ fuel ih =>
    intro c i hf hok hq hat hle
    have group : ∀ (stop : Bool) (ts : List Cond), (Cond.allBytes ts).length ≤ fuel →
        Cond.AllOk v.length ts → Cond.AllQuiet v (!stop) ts → At data (i + 1) (Cond.allBytes ts) →
        i + 1 + (Cond.allBytes ts).length ≤ maxIndex →
        evalTerms (evalSub data maxIndex v fuel) (skipSub data maxIndex (min v.length 255) fuel)
          maxIndex stop ts.length (i + 1) = .ok (i + 1 + (Cond.allBytes ts).length, !stop) := by
      intro stop ts h1 h2 h3 h4 h5
      refine evalTerms_quiet ts ?_ _ h2 h3 h4 h5
      intro t ht j hj hjq hjat hjle
      refine ih t j ?_ hj hjq hjat hjle
      have : t.bytes.length ≤ (Cond.allBytes ts).length := by
        obtain ⟨a, b, rfl⟩ := List.append_of_mem ht
        rw [allBytes_append, Cond.allBytes, List.length_append, List.length_append]
        omega
      omega
    cases c with
    | or ts =>
      simp only [Cond.Ok] at hok
      simp only [Cond.Quiet] at hq
      simp only [Cond.bytes, List.length_cons] at hf hat hle ⊢
      obtain ⟨q1, q2⟩ := ctrl_or ts.length (by omega)
      rw [evalSub, if_neg (by omega), hat.rd8, Res.ok_bind]
      simp only
      rw [if_pos q1, q2, group true ts (by omega) hok.2.2 hq (At.cons.1 hat).2 (by omega)]
      simp only [Cond.holds, holds_or_quiet ts hq, Bool.not_true]
      rw [Nat.add_assoc, Nat.add_comm 1]
    | and ts =>
      simp only [Cond.Ok] at hok
      simp only [Cond.Quiet] at hq
      simp only [Cond.bytes, List.length_cons] at hf hat hle ⊢
      obtain ⟨q1, q2⟩ := ctrl_and ts.length (by omega)
      rw [evalSub, if_neg (by omega), hat.rd8, Res.ok_bind]
      simp only
      rw [if_neg (by omega), if_pos q1, q2, group false ts (by omega) hok.2.2 hq (At.cons.1 hat).2 (by omega)]
      simp only [Cond.holds, holds_and_quiet ts hq, Bool.not_false]
      rw [Nat.add_assoc, Nat.add_comm 1]
    | settings op a b => simp only [Cond.Quiet] at hq
    | const op a k => simp only [Cond.Quiet] at hq
    | quick op a k =>
      simp only [Cond.Ok] at hok
      simp only [Cond.bytes] at hf hat hle ⊢
      simp only [List.length_cons, List.length_nil] at hf hle
      obtain ⟨q1, q2⟩ := ctrl_quick op.code hok.2.2 k hok.2.1
      have h1 := (At.cons.1 hat).2
      rw [evalSub, if_neg (by omega), hat.rd8, Res.ok_bind]
      simp only [Cond.holds]
      rw [if_neg (by omega), if_neg (by omega), if_neg (by omega)]
      have hr : ∀ n, op.code = n → quickCompare data v i n ((UInt8.ofNat (96 + 32 * op.code + k)).toNat &&& 31) =
          .ok (i + 2, op.holds (v.getD a.toNat 0) k) := by
        intro n hn
        rw [q2]
        exact quick_ok hn h1 hok.1
      have hl : i + ([UInt8.ofNat (96 + 32 * op.code + k), a] : Bytes).length = i + 2 := rfl
      rw [hl]
      cases op with
      | eq => rw [if_pos (by rw [q1]; decide)]; exact hr 0 rfl
      | ne => rw [if_neg (by rw [q1]; decide), if_pos (by rw [q1]; decide)]; exact hr 1 rfl
      | lt => rw [if_neg (by rw [q1]; decide), if_neg (by rw [q1]; decide), if_pos (by rw [q1]; decide)]; exact hr 2 rfl
      | gt =>
        rw [if_neg (by rw [q1]; decide), if_neg (by rw [q1]; decide), if_neg (by rw [q1]; decide), if_pos (by rw [q1]; decide)]
        exact hr 3 rfl
      | le => exact absurd hok.2.2 (by decide)
      | ge => exact absurd hok.2.2 (by decide)

/-! ## Any evaluation of well-formed data -/

/-- From `i` to the end of the condition there is a list of well-formed expressions. -/
structure Forest (data : Bytes) (maxIndex n i : Nat) (l : List Cond) : Prop where
  ok : Cond.AllOk n l
  here : At data i (Cond.allBytes l)
  till : i + (Cond.allBytes l).length = maxIndex + 1

theorem Forest.group {data : Bytes} {maxIndex n i : Nat} {ctrl : UInt8} {ts l : List Cond}
    (hok : Cond.AllOk n ts) (hl : Cond.AllOk n l)
    (hat : At data i ((ctrl :: Cond.allBytes ts) ++ Cond.allBytes l))
    (ht : i + ((ctrl :: Cond.allBytes ts) ++ Cond.allBytes l).length = maxIndex + 1) :
    Forest data maxIndex n (i + 1) (ts ++ l) := by
  refine ⟨(allOk_append _ _ _).2 ⟨hok, hl⟩, ?_, ?_⟩
  · rw [allBytes_append]
    exact (At.cons.1 (by simpa using hat)).2
  · rw [allBytes_append]
    simp only [List.cons_append, List.length_cons, List.length_append] at ht ⊢
    omega

/-- A function that reads expressions and goes past at least `n` of them, or panics. -/
def Past (F : Nat → List Cond → Prop) {α : Type} (pos : α → Nat) (n : Nat) (l : List Cond) (x : Res α) :
    Prop :=
  (∃ m, x = .panic m) ∨ ∃ a l', x = .ok a ∧ F (pos a) l' ∧ l' <:+ l.drop n

theorem skipTerms_past {F : Nat → List Cond → Prop} {skip : Nat → Res Nat} {maxIndex : Nat}
    (hs : ∀ i l, F i l → Past F id 1 l (skip i)) : ∀ n i l, F i l →
    Past F id n l (skipTerms skip maxIndex n i) := by
  intro n
  induction n with
  | zero => intro i l h; exact .inr ⟨i, l, rfl, h, by simp⟩
  | succ n ih =>
    intro i l h
    rw [skipTerms]
    rcases hs i l h with ⟨m, hm⟩ | ⟨j, l', hj, hF, hl⟩
    · rw [hm]; exact .inl ⟨m, rfl⟩
    · rw [hj, Res.ok_bind]
      split
      · exact .inl ⟨_, rfl⟩
      · rcases ih j l' hF with ⟨m, hm⟩ | ⟨k, l2, hk, hF2, hl2⟩
        · exact .inl ⟨m, hm⟩
        · refine .inr ⟨k, l2, hk, hF2, hl2.trans ?_⟩
          obtain ⟨p, hp⟩ := hl
          rw [show n + 1 = 1 + n by omega, ← List.drop_drop, ← hp]
          rw [List.drop_append]
          exact List.suffix_append_of_suffix (List.drop_suffix_drop_left _ (by omega))

theorem skipRest_past {F : Nat → List Cond → Prop} {skip : Nat → Res Nat}
    (hs : ∀ i l, F i l → Past F id 1 l (skip i)) : ∀ n i l, F i l →
    Past F id n l (skipRest skip n i) := by
  intro n
  induction n with
  | zero => intro i l h; exact .inr ⟨i, l, rfl, h, by simp⟩
  | succ n ih =>
    intro i l h
    rw [skipRest]
    rcases hs i l h with ⟨m, hm⟩ | ⟨j, l', hj, hF, hl⟩
    · rw [hm]; exact .inl ⟨m, rfl⟩
    · rw [hj, Res.ok_bind]
      rcases ih j l' hF with ⟨m, hm⟩ | ⟨k, l2, hk, hF2, hl2⟩
      · exact .inl ⟨m, hm⟩
      · refine .inr ⟨k, l2, hk, hF2, hl2.trans ?_⟩
        obtain ⟨p, hp⟩ := hl
        rw [show n + 1 = 1 + n by omega, ← List.drop_drop, ← hp]
        rw [List.drop_append]
        exact List.suffix_append_of_suffix (List.drop_suffix_drop_left _ (by omega))

theorem evalTerms_past {F : Nat → List Cond → Prop} {eval : Nat → Res (Nat × Bool)} {skip : Nat → Res Nat}
    {maxIndex : Nat} {stop : Bool} (he : ∀ i l, F i l → Past F Prod.fst 1 l (eval i))
    (hs : ∀ i l, F i l → Past F id 1 l (skip i)) : ∀ n i l, F i l →
    Past F Prod.fst n l (evalTerms eval skip maxIndex stop n i) := by
  intro n
  induction n with
  | zero => intro i l h; exact .inr ⟨(i, !stop), l, rfl, h, by simp⟩
  | succ n ih =>
    intro i l h
    rw [evalTerms]
    rcases he i l h with ⟨m, hm⟩ | ⟨⟨j, b⟩, l', hj, hF, hl⟩
    · rw [hm]; exact .inl ⟨m, rfl⟩
    · have suff : ∀ l2 : List Cond, l2 <:+ l'.drop n → l2 <:+ l.drop (n + 1) := by
        intro l2 hl2
        refine hl2.trans ?_
        obtain ⟨p, hp⟩ := hl
        rw [show n + 1 = 1 + n by omega, ← List.drop_drop, ← hp]
        rw [List.drop_append]
        exact List.suffix_append_of_suffix (List.drop_suffix_drop_left _ (by omega))
      rw [hj, Res.ok_bind]
      simp only at hF ⊢
      split
      · exact .inl ⟨_, rfl⟩
      · split
        · rcases skipRest_past hs (n + 1) j l' hF with ⟨m, hm⟩ | ⟨k, l2, hk, hF2, hl2⟩
          · rw [hm]; exact .inl ⟨m, rfl⟩
          · rw [hk]
            refine .inr ⟨(k, stop), l2, rfl, hF2, suff l2 (hl2.trans ?_)⟩
            exact List.drop_suffix_drop_left _ (by omega)
        · rcases ih j l' hF with ⟨m, hm⟩ | ⟨k, l2, hk, hF2, hl2⟩
          · exact .inl ⟨m, hm⟩
          · exact .inr ⟨k, l2, hk, hF2, suff l2 hl2⟩

theorem Forest.leaf {data : Bytes} {maxIndex n i : Nat} {c : Cond} {l : List Cond}
    (h : Forest data maxIndex n i (c :: l)) : Forest data maxIndex n (i + c.bytes.length) l := by
  have h1 := h.ok
  have h2 := h.here
  have h3 := h.till
  simp only [Cond.AllOk] at h1
  simp only [Cond.allBytes, List.length_append] at h2 h3
  exact ⟨h1.2, h2.right, by omega⟩

/-- The first byte decides which case of the code runs. -/
theorem skipSub_past {data : Bytes} {maxIndex n k : Nat} : ∀ (fuel i : Nat) (l : List Cond),
    Forest data maxIndex n i l → Past (Forest data maxIndex n) id 1 l (skipSub data maxIndex k fuel i) := by
  intro fuel
  induction fuel with
  | zero => intro i l _; exact .inl ⟨_, rfl⟩
  | succ fuel ih =>
    intro i l h
    rw [skipSub]
    cases l with
    | nil =>
      have := h.till
      simp only [Cond.allBytes, List.length_nil] at this
      rw [if_pos (by omega)]
      exact .inl ⟨_, rfl⟩
    | cons c l =>
      have hok := h.ok
      have hat := h.here
      have hti := h.till
      simp only [Cond.AllOk] at hok
      simp only [Cond.allBytes] at hat hti
      have hpos := bytes_pos c
      rw [if_neg (by rw [List.length_append] at hti; omega)]
      have leaf := h.leaf
      have done : ∀ j, j = i + c.bytes.length →
          Past (Forest data maxIndex n) id 1 (c :: l) (.ok j) := by
        rintro j rfl
        exact .inr ⟨_, l, rfl, leaf, by simp⟩
      have group : ∀ (ctrl : UInt8) (ts : List Cond), c.bytes = ctrl :: Cond.allBytes ts →
          Cond.AllOk n ts → Past (Forest data maxIndex n) id 1 (c :: l)
            (skipTerms (skipSub data maxIndex k fuel) maxIndex ts.length (i + 1)) := by
        intro ctrl ts hb hts
        rw [hb] at hat hti
        have := Forest.group hts hok.2 hat hti
        rcases skipTerms_past (maxIndex := maxIndex) ih ts.length (i + 1) _ this with
          hm | ⟨j, l', h1, h2, h3⟩
        · exact .inl hm
        · exact .inr ⟨j, l', h1, h2, by simpa using h3⟩
      cases c with
      | or ts =>
        have hts := hok.1
        simp only [Cond.Ok] at hts
        simp only [Cond.bytes, List.cons_append] at hat
        obtain ⟨q1, q2⟩ := ctrl_or ts.length (by omega)
        rw [hat.rd8, Res.ok_bind]
        simp only
        rw [if_pos q1, q2]
        exact group _ ts rfl hts.2.2
      | and ts =>
        have hts := hok.1
        simp only [Cond.Ok] at hts
        simp only [Cond.bytes, List.cons_append] at hat
        obtain ⟨q1, q2⟩ := ctrl_and ts.length (by omega)
        rw [hat.rd8, Res.ok_bind]
        simp only
        rw [if_neg (by omega), if_pos q1, q2]
        exact group _ ts rfl hts.2.2
      | settings op a b =>
        simp only [Cond.bytes, List.cons_append] at hat
        obtain ⟨q1, q2, q3⟩ := ctrl_settings op.code (code_lt op)
        have h1 := (At.cons.1 hat).2
        have h2 := (At.cons.1 h1).2
        have hc := code_lt op
        rw [hat.rd8, Res.ok_bind]
        simp only
        rw [if_neg (by omega), if_neg (by omega), if_pos q1, h1.rd8, Res.ok_bind]
        split
        · exact .inl ⟨_, rfl⟩
        · rw [h2.rd8, Res.ok_bind]
          split
          · exact .inl ⟨_, rfl⟩
          · rw [if_pos (by omega)]
            exact done _ rfl
      | const op a b =>
        simp only [Cond.bytes, List.cons_append] at hat
        obtain ⟨q1, q2, q3⟩ := ctrl_const op.code (code_lt op)
        have h1 := (At.cons.1 hat).2
        have hc := code_lt op
        rw [hat.rd8, Res.ok_bind]
        simp only
        rw [if_neg (by omega), if_neg (by omega), if_pos q1, h1.rd8, Res.ok_bind]
        split
        · exact .inl ⟨_, rfl⟩
        · rw [if_neg (by omega), Res.ok_bind, if_neg (by omega), if_pos (by omega)]
          exact done _ rfl
      | quick op a b =>
        have hq := hok.1
        simp only [Cond.Ok] at hq
        simp only [Cond.bytes, List.cons_append] at hat
        obtain ⟨q1, q2⟩ := ctrl_quick op.code hq.2.2 b hq.2.1
        have h1 := (At.cons.1 hat).2
        have hc := hq.2.2
        rw [hat.rd8, Res.ok_bind]
        simp only
        rw [if_neg (by omega), if_neg (by omega), if_neg (by omega), if_pos (by omega), h1.rd8, Res.ok_bind]
        split
        · exact .inl ⟨_, rfl⟩
        · exact done _ rfl

theorem quick_past {data : Bytes} {v : List Nat} {i op const : Nat} :
    (∃ m, quickCompare data v i op const = .panic m) ∨
    ∃ b, quickCompare data v i op const = .ok (i + 2, b) := by
  rw [quickCompare]
  have hrd : (∃ m, rd8 data (i + 1) = .panic m) ∨ ∃ k, rd8 data (i + 1) = .ok k := by
    by_cases h : i + 1 < data.length
    · exact .inr ⟨_, rd8_eq h⟩
    · refine .inl ⟨"index out of range", ?_⟩
      rw [rd8, idx_ge (by omega)]; rfl
  rcases hrd with ⟨m, hm⟩ | ⟨k, hk⟩
  · rw [hm]; exact .inl ⟨m, rfl⟩
  · rw [hk, Res.ok_bind]
    split
    · exact .inl ⟨_, rfl⟩
    · by_cases hkl : k < v.length
      · rw [idx_lt hkl, Res.ok_bind]
        have hcmp : (∃ m, Font.compare op v[k] const = .panic m) ∨ ∃ b, Font.compare op v[k] const = .ok b := by
          unfold Font.compare
          repeat' split
          all_goals first | exact .inr ⟨_, rfl⟩ | exact .inl ⟨_, rfl⟩
        rcases hcmp with ⟨m, hm⟩ | ⟨b, hb⟩
        · rw [hm]; exact .inl ⟨m, rfl⟩
        · rw [hb]; exact .inr ⟨b, rfl⟩
      · rw [idx_ge (by omega)]; exact .inl ⟨_, rfl⟩

theorem evalSub_past {data : Bytes} {maxIndex : Nat} {v : List Nat} : ∀ (fuel i : Nat) (l : List Cond),
    Forest data maxIndex v.length i l →
    Past (Forest data maxIndex v.length) Prod.fst 1 l (evalSub data maxIndex v fuel i) := by
  intro fuel
  induction fuel with
  | zero => intro i l _; exact .inl ⟨_, rfl⟩
  | succ fuel ih =>
    intro i l h
    rw [evalSub]
    cases l with
    | nil =>
      have := h.till
      simp only [Cond.allBytes, List.length_nil] at this
      rw [if_pos (by omega)]
      exact .inl ⟨_, rfl⟩
    | cons c l =>
      have hok := h.ok
      have hat := h.here
      have hti := h.till
      simp only [Cond.AllOk] at hok
      simp only [Cond.allBytes] at hat hti
      have hpos := bytes_pos c
      rw [if_neg (by rw [List.length_append] at hti; omega)]
      have leaf := h.leaf
      have done : ∀ (j : Nat) (b : Bool), j = i + c.bytes.length →
          Past (Forest data maxIndex v.length) Prod.fst 1 (c :: l) (.ok (j, b)) := by
        rintro j b rfl
        exact .inr ⟨_, l, rfl, leaf, by simp⟩
      have group : ∀ (stop : Bool) (ctrl : UInt8) (ts : List Cond), c.bytes = ctrl :: Cond.allBytes ts →
          Cond.AllOk v.length ts → Past (Forest data maxIndex v.length) Prod.fst 1 (c :: l)
            (evalTerms (evalSub data maxIndex v fuel) (skipSub data maxIndex (min v.length 255) fuel)
              maxIndex stop ts.length (i + 1)) := by
        intro stop ctrl ts hb hts
        rw [hb] at hat hti
        have := Forest.group hts hok.2 hat hti
        rcases evalTerms_past (maxIndex := maxIndex) (stop := stop) ih
          (fun i l => skipSub_past (k := min v.length 255) fuel i l) ts.length (i + 1) _ this with
          hm | ⟨j, l', h1, h2, h3⟩
        · exact .inl hm
        · exact .inr ⟨j, l', h1, h2, by simpa using h3⟩
      cases c with
      | or ts =>
        have hts := hok.1
        simp only [Cond.Ok] at hts
        simp only [Cond.bytes, List.cons_append] at hat
        obtain ⟨q1, q2⟩ := ctrl_or ts.length (by omega)
        rw [hat.rd8, Res.ok_bind]
        simp only
        rw [if_pos q1, q2]
        exact group _ _ ts rfl hts.2.2
      | and ts =>
        have hts := hok.1
        simp only [Cond.Ok] at hts
        simp only [Cond.bytes, List.cons_append] at hat
        obtain ⟨q1, q2⟩ := ctrl_and ts.length (by omega)
        rw [hat.rd8, Res.ok_bind]
        simp only
        rw [if_neg (by omega), if_pos q1, q2]
        exact group _ _ ts rfl hts.2.2
      | settings op a b =>
        have hs := hok.1
        simp only [Cond.Ok] at hs
        simp only [Cond.bytes, List.cons_append] at hat
        obtain ⟨q1, q2, q3⟩ := ctrl_settings op.code (code_lt op)
        have h1 := (At.cons.1 hat).2
        have h2 := (At.cons.1 h1).2
        rw [hat.rd8, Res.ok_bind]
        simp only
        rw [if_neg (by omega), if_neg (by omega), if_pos q1, h1.rd8, Res.ok_bind, if_neg (by omega), h2.rd8,
          Res.ok_bind, if_neg (by omega), if_pos q2, idx_lt hs.2, Res.ok_bind, q3, compare_code, Res.ok_bind]
        exact done _ _ rfl
      | const op a b =>
        have hs := hok.1
        simp only [Cond.Ok] at hs
        simp only [Cond.bytes, List.cons_append] at hat
        obtain ⟨q1, q2, q3⟩ := ctrl_const op.code (code_lt op)
        have h1 := (At.cons.1 hat).2
        have h2 := (At.cons.1 h1).2
        rw [hat.rd8, Res.ok_bind]
        simp only
        rw [if_neg (by omega), if_neg (by omega), if_pos q1, h1.rd8, Res.ok_bind, if_neg (by omega), h2.rd8,
          Res.ok_bind, if_neg (by omega), if_neg (by omega), Res.ok_bind, q3, compare_code, Res.ok_bind]
        exact done _ _ rfl
      | quick op a b =>
        have hq := hok.1
        simp only [Cond.Ok] at hq
        simp only [Cond.bytes, List.cons_append] at hat
        obtain ⟨q1, q2⟩ := ctrl_quick op.code hq.2.2 b hq.2.1
        have hc := hq.2.2
        rw [hat.rd8, Res.ok_bind]
        simp only
        rw [if_neg (by omega), if_neg (by omega), if_neg (by omega)]
        have fin : ∀ o, Past (Forest data maxIndex v.length) Prod.fst 1 (Cond.quick op a b :: l)
            (quickCompare data v i o ((UInt8.ofNat (96 + 32 * op.code + b)).toNat &&& 31)) := by
          intro o
          rcases quick_past (data := data) (v := v) (i := i) (op := o)
            (const := (UInt8.ofNat (96 + 32 * op.code + b)).toNat &&& 31) with hm | ⟨r, hr⟩
          · exact .inl hm
          · rw [hr]; exact done _ _ rfl
        repeat' split
        all_goals first | exact fin _ | exact .inl ⟨_, rfl⟩

/-! ## Fuel -/

/-- Not the panic of the model. -/
def Fueled {α : Type} (x : Res α) : Prop := x ≠ .panic "out of fuel"

theorem Fueled.bind {α β : Type} {x : Res α} {g : α → Res β} (h : Fueled x)
    (hg : ∀ a, x = .ok a → Fueled (g a)) : Fueled (x >>= g) := by
  cases x with
  | ok a => exact hg a rfl
  | err m => intro h'; simp at h'
  | panic m =>
    intro h'
    exact h (by simpa using h')

theorem Fueled.ite {α : Type} {p : Prop} [Decidable p] {x y : Res α} (h1 : Fueled x) (h2 : Fueled y) :
    Fueled (if p then x else y) := by
  split
  · exact h1
  · exact h2

theorem Fueled.ok {α : Type} (a : α) : Fueled (.ok a : Res α) := by intro h; simp at h
theorem Fueled.invalid {α : Type} : Fueled (.panic "invalid font data" : Res α) := by
  intro h; simp at h
theorem Fueled.idx {α : Type} (l : List α) (i : Nat) : Fueled (idx l i) := by
  by_cases h : i < l.length
  · rw [idx_lt h]; exact Fueled.ok _
  · rw [idx_ge (by omega)]; intro h; simp at h
theorem Fueled.rd8 (l : Bytes) (i : Nat) : Fueled (rd8 l i) :=
  Fueled.bind (Fueled.idx _ _) fun _ _ => Fueled.ok _
theorem Fueled.compare (op a b : Nat) : Fueled (Font.compare op a b) := by
  unfold Font.compare
  repeat' split
  all_goals first | exact Fueled.ok _ | exact Fueled.invalid
theorem Fueled.quick (data : Bytes) (v : List Nat) (i op c : Nat) : Fueled (quickCompare data v i op c) := by
  rw [quickCompare]
  refine Fueled.bind (Fueled.rd8 _ _) fun k _ => Fueled.ite Fueled.invalid ?_
  refine Fueled.bind (Fueled.idx _ _) fun x _ => Fueled.bind (Fueled.compare _ _ _) fun r _ => Fueled.ok _

/-- From `i0` on, the function moves forward and does not run out of fuel. -/
def Forward {α : Type} (pos : α → Nat) (i0 : Nat) (g : Nat → Res α) : Prop :=
  ∀ i, i0 ≤ i → Fueled (g i) ∧ ∀ a, g i = .ok a → i < pos a

theorem skipTerms_fueled {skip : Nat → Res Nat} {maxIndex i0 : Nat} (h : Forward id i0 skip) :
    ∀ n i, i0 ≤ i → Fueled (skipTerms skip maxIndex n i) ∧ ∀ j, skipTerms skip maxIndex n i = .ok j → i ≤ j := by
  intro n
  induction n with
  | zero => intro i _; exact ⟨Fueled.ok _, fun j hj => by simp only [skipTerms, Res.ok.injEq] at hj; omega⟩
  | succ n ih =>
    intro i hi
    obtain ⟨h1, h2⟩ := h i hi
    rw [skipTerms]
    constructor
    · refine Fueled.bind h1 fun j hj => Fueled.ite Fueled.invalid ?_
      have := h2 j hj
      exact (ih j (by simp only [_root_.id] at this; omega)).1
    · intro j hj
      simp only [Res.bind_eq_ok, ite_panic] at hj
      obtain ⟨k, hk, _, hj⟩ := hj
      have h3 := h2 k hk
      simp only [_root_.id] at h3
      have := (ih k (by omega)).2 j hj
      omega

theorem skipRest_fueled {skip : Nat → Res Nat} {i0 : Nat} (h : Forward id i0 skip) :
    ∀ n i, i0 ≤ i → Fueled (skipRest skip n i) ∧ ∀ j, skipRest skip n i = .ok j → i ≤ j := by
  intro n
  induction n with
  | zero => intro i _; exact ⟨Fueled.ok _, fun j hj => by simp only [skipRest, Res.ok.injEq] at hj; omega⟩
  | succ n ih =>
    intro i hi
    obtain ⟨h1, h2⟩ := h i hi
    rw [skipRest]
    constructor
    · refine Fueled.bind h1 fun j hj => ?_
      have := h2 j hj
      exact (ih j (by simp only [_root_.id] at this; omega)).1
    · intro j hj
      simp only [Res.bind_eq_ok] at hj
      obtain ⟨k, hk, hj⟩ := hj
      have h3 := h2 k hk
      simp only [_root_.id] at h3
      have := (ih k (by omega)).2 j hj
      omega

theorem evalTerms_fueled {eval : Nat → Res (Nat × Bool)} {skip : Nat → Res Nat} {maxIndex i0 : Nat}
    {stop : Bool} (he : Forward Prod.fst i0 eval) (hs : Forward id i0 skip) :
    ∀ n i, i0 ≤ i → Fueled (evalTerms eval skip maxIndex stop n i) ∧
      ∀ a, evalTerms eval skip maxIndex stop n i = .ok a → i ≤ a.1 := by
  intro n
  induction n with
  | zero =>
    intro i _
    exact ⟨Fueled.ok _, fun a ha => by simp only [evalTerms, Res.ok.injEq] at ha; rw [← ha]; exact Nat.le_refl _⟩
  | succ n ih =>
    intro i hi
    obtain ⟨h1, h2⟩ := he i hi
    rw [evalTerms]
    constructor
    · refine Fueled.bind h1 fun ⟨j, b⟩ hj => ?_
      have h3 := h2 _ hj
      simp only at h3
      refine Fueled.ite Fueled.invalid (Fueled.ite ?_ (ih j (by omega)).1)
      exact Fueled.bind (skipRest_fueled hs (n + 1) j (by omega)).1 fun _ _ => Fueled.ok _
    · intro a ha
      simp only [Res.bind_eq_ok] at ha
      obtain ⟨⟨j, b⟩, hj, ha⟩ := ha
      have h3 := h2 _ hj
      simp only [ite_panic] at h3 ha
      obtain ⟨_, ha⟩ := ha
      split at ha
      · simp only [Res.bind_eq_ok, Res.pure_eq, Res.ok.injEq] at ha
        obtain ⟨k, hk, rfl⟩ := ha
        have := (skipRest_fueled hs (n + 1) j (by omega)).2 k hk
        simp only; omega
      · have := (ih j (by omega)).2 a ha
        omega

theorem skipSub_fueled {data : Bytes} {maxIndex k : Nat} : ∀ fuel, 1 ≤ fuel →
    Forward id (maxIndex + 2 - fuel) (skipSub data maxIndex k fuel) := by
  intro fuel
  induction fuel with
  | zero => intro h; omega
  | succ fuel ih =>
    intro _ i hi
    rw [skipSub]
    by_cases hgt : i > maxIndex
    · rw [if_pos hgt]
      exact ⟨Fueled.invalid, fun a ha => by simp at ha⟩
    · rw [if_neg hgt]
      have hf := ih (by omega)
      have hg : ∀ n, Fueled (skipTerms (skipSub data maxIndex k fuel) maxIndex n (i + 1)) ∧
          ∀ j, skipTerms (skipSub data maxIndex k fuel) maxIndex n (i + 1) = .ok j → i + 1 ≤ j :=
        fun n => skipTerms_fueled hf n (i + 1) (by omega)
      constructor
      · refine Fueled.bind (Fueled.rd8 _ _) fun ctrl _ => ?_
        refine Fueled.ite (hg _).1 (Fueled.ite (hg _).1 (Fueled.ite ?_ (Fueled.ite ?_ Fueled.invalid)))
        · refine Fueled.bind (Fueled.rd8 _ _) fun a _ => Fueled.ite Fueled.invalid ?_
          refine Fueled.bind (Fueled.ite (Fueled.rd8 _ _) (Fueled.ok _)) fun b _ =>
            Fueled.ite Fueled.invalid (Fueled.ite (Fueled.ok _) Fueled.invalid)
        · exact Fueled.bind (Fueled.rd8 _ _) fun a _ => Fueled.ite Fueled.invalid (Fueled.ok _)
      · intro a ha
        simp only [Res.bind_eq_ok] at ha
        obtain ⟨ctrl, _, ha⟩ := ha
        simp only [_root_.id]
        split at ha
        · have := (hg _).2 a ha; omega
        · split at ha
          · have := (hg _).2 a ha; omega
          · split at ha
            · simp only [Res.bind_eq_ok, ite_panic] at ha
              obtain ⟨_, _, _, _, _, _, ha⟩ := ha
              split at ha
              · simp only [Res.pure_eq, Res.ok.injEq] at ha; omega
              · simp at ha
            · split at ha
              · simp only [Res.bind_eq_ok, ite_panic, Res.pure_eq, Res.ok.injEq] at ha
                obtain ⟨_, _, _, ha⟩ := ha
                omega
              · simp at ha

theorem quick_fst {data : Bytes} {v : List Nat} {i op c : Nat} {a : Nat × Bool}
    (h : quickCompare data v i op c = .ok a) : a.1 = i + 2 := by
  rcases quick_past (data := data) (v := v) (i := i) (op := op) (const := c) with ⟨m, hm⟩ | ⟨b, hb⟩
  · rw [hm] at h; simp at h
  · rw [hb, Res.ok.injEq] at h; rw [← h]

theorem evalSub_fueled {data : Bytes} {maxIndex : Nat} {v : List Nat} : ∀ fuel, 1 ≤ fuel →
    Forward Prod.fst (maxIndex + 2 - fuel) (evalSub data maxIndex v fuel) := by
  intro fuel
  induction fuel with
  | zero => intro h; omega
  | succ fuel ih =>
    intro _ i hi
    rw [evalSub]
    by_cases hgt : i > maxIndex
    · rw [if_pos hgt]
      exact ⟨Fueled.invalid, fun a ha => by simp at ha⟩
    · rw [if_neg hgt]
      have hf := ih (by omega)
      have hs := skipSub_fueled (data := data) (maxIndex := maxIndex) (k := min v.length 255) fuel (by omega)
      have hg : ∀ stop n, Fueled (evalTerms (evalSub data maxIndex v fuel)
            (skipSub data maxIndex (min v.length 255) fuel) maxIndex stop n (i + 1)) ∧
          ∀ a, evalTerms (evalSub data maxIndex v fuel)
            (skipSub data maxIndex (min v.length 255) fuel) maxIndex stop n (i + 1) = .ok a → i + 1 ≤ a.1 :=
        fun stop n => evalTerms_fueled hf hs n (i + 1) (by omega)
      constructor
      · refine Fueled.bind (Fueled.rd8 _ _) fun ctrl _ => ?_
        refine Fueled.ite (hg _ _).1 (Fueled.ite (hg _ _).1 (Fueled.ite ?_ ?_))
        · refine Fueled.bind (Fueled.rd8 _ _) fun a _ => Fueled.ite Fueled.invalid ?_
          refine Fueled.bind (Fueled.rd8 _ _) fun b _ => Fueled.ite Fueled.invalid ?_
          refine Fueled.bind (Fueled.ite (Fueled.idx _ _) (Fueled.ok _)) fun b _ => ?_
          exact Fueled.bind (Fueled.compare _ _ _) fun _ _ => Fueled.ok _
        · refine Fueled.ite (Fueled.quick _ _ _ _ _) (Fueled.ite (Fueled.quick _ _ _ _ _)
            (Fueled.ite (Fueled.quick _ _ _ _ _) (Fueled.ite (Fueled.quick _ _ _ _ _) Fueled.invalid)))
      · intro a ha
        simp only [Res.bind_eq_ok] at ha
        obtain ⟨ctrl, _, ha⟩ := ha
        split at ha
        · have := (hg _ _).2 a ha; omega
        · split at ha
          · have := (hg _ _).2 a ha; omega
          · split at ha
            · simp only [Res.bind_eq_ok, ite_panic, Res.pure_eq, Res.ok.injEq] at ha
              obtain ⟨_, _, _, _, _, _, _, _, _, _, ha⟩ := ha
              rw [← ha]
              simp only; omega
            · split at ha
              · have := quick_fst ha; omega
              · split at ha
                · have := quick_fst ha; omega
                · split at ha
                  · have := quick_fst ha; omega
                  · split at ha
                    · have := quick_fst ha; omega
                    · simp at ha

end FontModel
