import Verif.Lemmas.ConditionPrint
import Verif.Spec.SampleConditionText
import Verif.Spec.SampleConditions

/-!
# C49: rewrite conditions are printed and compiled faithfully

Printing is right for all conditions. Compiling accepts exactly single comparisons: groups are refused,
parentheses overflow the stack, long numbers panic. Only the short forms are compiled completely, the others
lack their last byte.
-/

namespace C49
open Go Spec ConditionModel

/-- Every condition is printed as the text of its expression. -/
theorem printed (n : Nat) (c : Cond) (h : c.Ok n) : text c.bytes = .ok c.text := text_ok n c h

/-- The text determines the meaning. -/
theorem printed_meaning (n : Nat) (c c' : Cond) (h : c.Ok n) (h' : c'.Ok n)
    (e : text c.bytes = text c'.bytes) (v : List Nat) : c.holds v = c'.holds v := by
  rw [text_ok n c h, text_ok n c' h'] at e
  rw [← plain_holds n v c h, ← plain_holds n v c' h', text_inj n c c' h h' (Res.ok.inj e)]

example : (Cond.quick .eq 3 5).Ok 4 ∧ (Cond.const .eq 3 5).Ok 4 ∧ (Cond.quick .eq 3 5).bytes ≠ (Cond.const .eq 3 5).bytes ∧
    text (Cond.quick .eq 3 5).bytes = text (Cond.const .eq 3 5).bytes := by
  refine ⟨⟨by decide, by decide, by decide⟩, by simp [Cond.Ok], by decide, by decide⟩

/-- A definition compiles exactly when it is one comparison in range, with spaces around it. The data are
the first two bytes of the condition. -/
theorem compiled_iff (fuel : Nat) (d data : Bytes) : compile (fuel + 2) d = .ok data ↔
    d.length ≤ 1024 ∧ ∃ (w : Written) (i j : Nat), w.Ok ∧ w.InRange ∧ d = spaces i ++ (w.text ++ spaces j) ∧
      data = w.cond.bytes.take 2 := by
  constructor
  · intro h
    by_cases hlen : 1024 < d.length
    · obtain ⟨e, he⟩ := compile_long (fuel + 2) hlen
      rw [he] at h; cases h
    refine ⟨by omega, ?_⟩
    rcases split_spaces d with ⟨i, rfl⟩ | ⟨i, m, j, rfl, hm⟩
    · obtain ⟨e, he⟩ := compile_spaces (fuel + 2) i
      rw [he] at h; cases h
    by_cases h40 : ∃ r, m = 40 :: r
    · obtain ⟨r, hr⟩ := h40
      rw [compile_start hm (by omega), expr_paren hm (by omega) _ _ hr] at h
      cases h
    cases hr : termRegexp m with
    | none => rw [compile_other hm (by omega) fuel h40 hr] at h; cases h
    | some mt =>
      obtain ⟨w, hw, ht, hn, -⟩ := match_inv hr
      rw [compile_outcome hm (by omega) (fuel + 1) w hw hn ht] at h
      split at h
      · cases h
      split at h
      · cases h
      split at h
      · cases h
      split at h
      · cases h
      rename_i hin
      split at h
      · cases h
      rename_i hrest
      have hrest := Classical.not_not.1 hrest
      refine ⟨w, i, j, hw, Classical.not_not.1 hin, ?_, (Res.ok.inj h).symm⟩
      rw [ht, hrest, List.append_nil]
  · rintro ⟨hlen, w, i, j, hw, hin, rfl, rfl⟩
    have h1 := hin.1
    have h2 : number w.right ≤ 255 := by have := hin.2; split at this <;> omega
    rw [compile_outcome (text_trim w hw) hlen (fuel + 1) w hw noDigit_nil (by simp), if_neg (by omega),
      if_neg (by omega), if_neg (by omega), if_neg (Classical.not_not.2 hin), if_neg (by simp)]

example : Sample.writtenQuick.Ok ∧ Sample.writtenQuick.InRange ∧
    compile 2 (chars "  #003  !=7 ") = .ok [135, 3] ∧ chars "  #003  !=7 " = spaces 2 ++ (Sample.writtenQuick.text ++ spaces 1) := by
  refine ⟨⟨?_, ?_⟩, ?_, ?_, ?_⟩ <;> decide

/-- The short forms are compiled completely, so the condition means what was written. -/
theorem compiled_partial (fuel : Nat) (w : Written) (i j : Nat) (hw : w.Ok) (hin : w.InRange) (hq : w.Quick)
    (hlen : (spaces i ++ (w.text ++ spaces j)).length ≤ 1024) :
    compile (fuel + 2) (spaces i ++ (w.text ++ spaces j)) = .ok w.cond.bytes ∧
      w.cond = .quick w.op (UInt8.ofNat (number w.left)) (number w.right) := by
  have hc : w.cond = .quick w.op (UInt8.ofNat (number w.left)) (number w.right) := by
    rw [Written.cond, if_neg (by simp [hq.1]), if_pos hq.2]
  refine ⟨(compiled_iff fuel _ _).2 ⟨hlen, w, i, j, hw, hin, rfl, ?_⟩, hc⟩
  rw [hc]; rfl

example : Sample.writtenQuick.Quick := by decide

/-- The other forms lack their last byte: they are no condition, and cannot be printed. -/
theorem compiled_violated (fuel : Nat) (w : Written) (i j : Nat) (hw : w.Ok) (hin : w.InRange) (hq : ¬ w.Quick)
    (hlen : (spaces i ++ (w.text ++ spaces j)).length ≤ 1024) :
    ∃ data last, compile (fuel + 2) (spaces i ++ (w.text ++ spaces j)) = .ok data ∧
      w.cond.bytes = data ++ [last] ∧ (∀ n c, Cond.Ok n c → c.bytes ≠ data) ∧ (text data).isPanic := by
  have hc6 := code_six w.op
  have hno : ∀ x y : UInt8, x >>> 5 = 2 → (∀ n c, Cond.Ok n c → c.bytes ≠ [x, y]) := by
    intro x y hx n c hok hb
    cases c with
    | or ts =>
      simp only [Cond.bytes, List.cons.injEq] at hb
      rw [← hb.1, (bits_or _ (by have := hok.2.1; omega)).1] at hx
      exact absurd hx (by decide)
    | and ts =>
      simp only [Cond.bytes, List.cons.injEq] at hb
      rw [← hb.1, (bits_and _ (by have := hok.2.1; omega)).1] at hx
      exact absurd hx (by decide)
    | settings op a b => simp [Cond.bytes] at hb
    | const op a b => simp [Cond.bytes] at hb
    | quick op a b =>
      simp only [Cond.bytes, List.cons.injEq] at hb
      have h3 : ∀ n < 4, UInt8.ofNat (3 + n) ≠ 2 := by decide
      rw [← hb.1, (bits_quick _ hok.2.2 _ hok.2.1).1] at hx
      exact h3 _ hok.2.2 hx
  have hpanic : ∀ (x y : UInt8) (op : Comparison), x >>> 5 = 2 → (x &&& 15).toNat = op.code → (text [x, y]).isPanic := by
    intro x y op hx ho
    rw [text]
    simp only
    rw [show idx [x, y] 0 = .ok x from rfl, Res.ok_bind, if_neg (by rw [hx]; decide), if_neg (by rw [hx]; decide),
      appendSubTerm, if_neg (by simp), show idx [x, y] 0 = .ok x from rfl, Res.ok_bind, if_neg (by rw [hx]; decide),
      if_neg (by rw [hx]; decide), if_pos hx, show idx [x, y] (0 + 1) = .ok y from rfl, Res.ok_bind]
    simp only
    rw [ho, operatorText_code, Res.ok_bind, show idx [x, y] (0 + 2) = .panic "index out of range" from rfl]
    rfl
  cases hh : w.hash
  · have hc : w.cond = .const w.op (UInt8.ofNat (number w.left)) (UInt8.ofNat (number w.right)) := by
      rw [Written.cond, if_neg (by simp [hh]), if_neg (fun h => hq ⟨hh, h⟩)]
    obtain ⟨b1, b2, _⟩ := bits_const w.op.code hc6
    refine ⟨_, UInt8.ofNat (number w.right), (compiled_iff fuel _ _).2 ⟨hlen, w, i, j, hw, hin, rfl, rfl⟩, ?_, ?_, ?_⟩
    · rw [hc]; rfl
    · rw [hc]; exact hno _ _ b1
    · rw [hc]; exact hpanic _ _ w.op b1 b2
  · have hc : w.cond = .settings w.op (UInt8.ofNat (number w.left)) (UInt8.ofNat (number w.right)) := by
      rw [Written.cond, if_pos hh]
    obtain ⟨b1, b2, _⟩ := bits_settings w.op.code hc6
    refine ⟨_, UInt8.ofNat (number w.right), (compiled_iff fuel _ _).2 ⟨hlen, w, i, j, hw, hin, rfl, rfl⟩, ?_, ?_, ?_⟩
    · rw [hc]; rfl
    · rw [hc]; exact hno _ _ b1
    · rw [hc]; exact hpanic _ _ w.op b1 b2

example : Sample.writtenLong.Ok ∧ Sample.writtenLong.InRange ∧ ¬ Sample.writtenLong.Quick ∧
    compile 2 (chars "#0 <= #12") = .ok [68, 0] ∧ Sample.writtenLong.cond.bytes = [68, 0, 12] ∧
    text [68, 0, 12] = .ok (chars "#0 <= #12") := by
  refine ⟨⟨?_, ?_⟩, ?_, ?_, ?_, ?_, ?_⟩ <;> decide

/-- All the operators as they are printed. -/
example : [64, 65, 66, 67, 68, 69].map (fun c : UInt8 => text [c, 0, 12]) =
    [.ok (chars "#0 == #12"), .ok (chars "#0 != #12"), .ok (chars "#0 < #12"), .ok (chars "#0 > #12"),
      .ok (chars "#0 <= #12"), .ok (chars "#0 >= #12")] := by decide

/-- A short condition is printed and compiled back to itself. -/
theorem quick_round_trip (fuel n : Nat) (op : Comparison) (a : UInt8) (c : Nat) (h : (Cond.quick op a c).Ok n)
    (ha : a.toNat ≤ 254) : ∃ t, text (Cond.quick op a c).bytes = .ok t ∧ compile (fuel + 2) t = .ok (Cond.quick op a c).bytes := by
  refine ⟨_, text_ok n _ h, ?_⟩
  have hc := h.2.1
  have ho := h.2.2
  have hw := writtenLeaf_ok op a false (b := c) (by omega)
  have hna : number (decimal a.toNat) = a.toNat := number_decimal (UInt8.toNat_lt a)
  have hnc : number (decimal c) = c := number_decimal (by omega)
  have ht : (Cond.quick op a c).text = spaces 0 ++ ((writtenLeaf op a false c).text ++ spaces 0) := by
    rw [writtenLeaf_text]
    simp [Cond.text, Cond.sub, leafText, spaces]
  have hq : (writtenLeaf op a false c).Quick := ⟨rfl, by simpa [writtenLeaf, hnc] using hc, ho⟩
  have hin : (writtenLeaf op a false c).InRange := by
    refine ⟨by simpa [writtenLeaf, hna] using ha, ?_⟩
    simp only [writtenLeaf, hnc]
    simp; omega
  have hl : ∀ n < 256, (decimal n).length ≤ 3 := by decide +kernel
  have h1 := hl _ (UInt8.toNat_lt a)
  have h2 := hl c (by omega)
  have h3 : op.symbol.length ≤ 2 := by cases op <;> decide
  rw [ht]
  have := (compiled_partial fuel (writtenLeaf op a false c) 0 0 hw hin hq (by
    simp [spaces, Written.text, writtenLeaf]; omega)).1
  rw [this]
  have hcond : (writtenLeaf op a false c).cond = .quick op a c := by
    rw [Written.cond, if_neg (by simp [writtenLeaf]), if_pos ⟨by simpa [writtenLeaf, hnc] using hc, ho⟩]
    simp [writtenLeaf, hna, hnc]
  rw [hcond]

example : (Cond.quick .lt 254 31).Ok 255 ∧ text (Cond.quick .lt 254 31).bytes = .ok (chars "#254 < 31") := by
  refine ⟨⟨by decide, by decide, by decide⟩, ?_⟩; decide

/-- No group survives: what is printed for it does not compile. -/
theorem group_violated (fuel n : Nat) (c : Cond) (h : c.Ok n) (hg : ∃ ts, c = .or ts ∨ c = .and ts) :
    ∃ t, text c.bytes = .ok t ∧ ∀ data, compile fuel t ≠ .ok data := by
  refine ⟨_, text_ok n c h, fun data => ?_⟩
  obtain ⟨ts, rfl | rfl⟩ := hg
  · exact group_refused n (.inl rfl) h.1 h.2.2 fuel data
  · exact group_refused n (.inr rfl) h.1 h.2.2 fuel data

example : Sample.someCond.Ok 2 ∧ text Sample.someCond.bytes = .ok (chars "(#0 == 2 AND #1 < 3) OR #0 > 4") ∧
    Sample.anyCond.Ok 3 ∧ text Sample.anyCond.bytes = .ok (chars "#0 >= #1 AND #2 == 40") ∧
    compile 9 (chars "#0 >= #1 AND #2 == 40") = .err "definition expected to end" := by
  refine ⟨?_, by decide, ?_, by decide, by decide⟩
  · simp [Sample.someCond, Cond.Ok, Cond.AllOk, Comparison.code]
  · simp [Sample.anyCond, Cond.Ok, Cond.AllOk]

/-- Compiling does not end (and overflows the stack) exactly for definitions that begin with a parenthesis. -/
theorem unending_violated (d : Bytes) : (∀ fuel, compile fuel d = .panic "out of fuel") ↔
    d.length ≤ 1024 ∧ ∃ i r, d = spaces i ++ 40 :: r := by
  constructor
  · intro h
    by_cases hlen : 1024 < d.length
    · obtain ⟨e, he⟩ := compile_long 2 hlen
      rw [h] at he; cases he
    refine ⟨by omega, ?_⟩
    rcases split_spaces d with ⟨i, rfl⟩ | ⟨i, m, j, rfl, hm⟩
    · obtain ⟨e, he⟩ := compile_spaces 2 i
      rw [h] at he; cases he
    by_cases h40 : ∃ r, m = 40 :: r
    · obtain ⟨r, rfl⟩ := h40
      exact ⟨i, r ++ spaces j, by simp⟩
    exfalso
    cases hr : termRegexp m with
    | none => have := compile_other (i := i) (j := j) hm (by omega) 0 h40 hr; rw [h] at this; cases this
    | some mt =>
      obtain ⟨w, hw, ht, hn, -⟩ := match_inv hr
      have h2 := compile_outcome (i := i) (j := j) hm (by omega) 0 w hw hn ht
      rw [h] at h2
      split at h2
      · simp at h2
      split at h2
      · cases h2
      split at h2
      · simp at h2
      split at h2
      · cases h2
      split at h2 <;> cases h2
  · rintro ⟨hlen, i, r, rfl⟩ fuel
    obtain ⟨j, y, hy, hy'⟩ := split_left (40 :: r).reverse
    have hr : 40 :: r = y.reverse ++ spaces j := by
      have := congrArg List.reverse hy
      simpa [spaces] using this
    rcases hy' with rfl | ⟨c', r', hy', hc'⟩
    · exfalso
      cases j with
      | zero => simp [spaces] at hr
      | succ j => simp [spaces, List.replicate_succ] at hr
    · obtain ⟨z, hz⟩ : ∃ z, y.reverse = 40 :: z := by
        cases hyr : y.reverse with
        | nil => simp [hy'] at hyr
        | cons x z => rw [hyr] at hr; simp only [List.cons_append, List.cons.injEq] at hr; exact ⟨z, by rw [← hr.1]⟩
      have hm : Trim y.reverse := ⟨⟨40, z, hz, by decide⟩, r'.reverse, c', by simp [hy'], hc'⟩
      rw [hr] at hlen ⊢
      rw [compile_start hm hlen, expr_paren hm hlen _ _ hz]
      rfl

example : (∃ i r, chars "(#0 == 1)" = spaces i ++ 40 :: r) ∧ compile 9 (chars "(#0 == 1)") = .panic "out of fuel" :=
  ⟨⟨0, chars "#0 == 1)", by decide⟩, by decide⟩

/-- Compiling panics exactly when a number does not fit 64 bits. -/
theorem panic_violated (fuel : Nat) (d : Bytes) : compile (fuel + 2) d = .panic "broken code" ↔
    d.length ≤ 1024 ∧ ∃ (w : Written) (i : Nat) (rest : Bytes), w.Ok ∧ NoDigit rest ∧ d = spaces i ++ (w.text ++ rest) ∧
      (2 ^ 63 ≤ number w.left ∨ (number w.left ≤ 254 ∧ 2 ^ 63 ≤ number w.right)) := by
  constructor
  · intro h
    by_cases hlen : 1024 < d.length
    · obtain ⟨e, he⟩ := compile_long (fuel + 2) hlen
      rw [he] at h; cases h
    refine ⟨by omega, ?_⟩
    rcases split_spaces d with ⟨i, rfl⟩ | ⟨i, m, j, rfl, hm⟩
    · obtain ⟨e, he⟩ := compile_spaces (fuel + 2) i
      rw [he] at h; cases h
    by_cases h40 : ∃ r, m = 40 :: r
    · obtain ⟨r, hr⟩ := h40
      rw [compile_start hm (by omega), expr_paren hm (by omega) _ _ hr] at h
      simp at h
    cases hr : termRegexp m with
    | none => rw [compile_other hm (by omega) fuel h40 hr] at h; cases h
    | some mt =>
      obtain ⟨w, hw, ht, hn, -⟩ := match_inv hr
      rw [compile_outcome hm (by omega) (fuel + 1) w hw hn ht] at h
      refine ⟨w, i, mt.rest ++ spaces j, hw, ?_, by rw [ht]; simp, ?_⟩
      · intro c hc
        cases hrest : mt.rest with
        | nil =>
          rw [hrest] at hc
          cases j with
          | zero => simp [spaces] at hc
          | succ j => simp [spaces, List.replicate_succ] at hc; subst hc; rfl
        | cons x r =>
          rw [hrest] at hc
          exact hn c (by rw [hrest]; simpa using hc)
      · split at h
        · exact .inl ‹_›
        split at h
        · cases h
        split at h
        · exact .inr ⟨by omega, ‹_›⟩
        split at h
        · cases h
        split at h <;> cases h
  · rintro ⟨hlen, w, i, rest, hw, hn, rfl, hbig⟩
    -- the spaces at the end of the rest
    obtain ⟨j, y, hy, hy'⟩ := split_left rest.reverse
    have hrest : rest = y.reverse ++ spaces j := by
      have := congrArg List.reverse hy
      simpa [spaces] using this
    have hm : Trim (w.text ++ y.reverse) := by
      refine ⟨⟨35, (w.text ++ y.reverse).tail, rfl, by decide⟩, ?_⟩
      rcases hy' with rfl | ⟨c, r, rfl, hc⟩
      · simpa using (text_trim w hw).2
      · exact ⟨w.text ++ r.reverse, c, by simp, hc⟩
    have hn' : NoDigit y.reverse := by
      intro c hc
      apply hn c
      rw [hrest]
      cases hyr : y.reverse with
      | nil => rw [hyr] at hc; simp at hc
      | cons x z => rw [hyr] at hc; simpa using hc
    have he : spaces i ++ (w.text ++ rest) = spaces i ++ ((w.text ++ y.reverse) ++ spaces j) := by
      rw [hrest]; simp
    rw [he] at hlen ⊢
    rw [compile_outcome hm hlen (fuel + 1) w hw hn' rfl]
    rcases hbig with h | ⟨h1, h2⟩
    · rw [if_pos h]
    · rw [if_neg (by omega), if_neg (by omega), if_pos h2]

example : compile 2 (chars "#0 == 9223372036854775808") = .panic "broken code" ∧
    compile 2 (chars "#9223372036854775808 < 1") = .panic "broken code" ∧
    compile 2 (chars "#0 == 9223372036854775807") = .err "out of range" := by decide

/-- Apart from that, compiling ends with data or an error. -/
theorem otherwise (fuel : Nat) (d : Bytes) (h : ¬ ∃ i r, d = spaces i ++ 40 :: r) :
    (compile (fuel + 2) d).isOk ∨ (compile (fuel + 2) d).isErr ∨ compile (fuel + 2) d = .panic "broken code" := by
  by_cases hlen : 1024 < d.length
  · obtain ⟨e, he⟩ := compile_long (fuel + 2) hlen
    rw [he]; exact .inr (.inl rfl)
  rcases split_spaces d with ⟨i, rfl⟩ | ⟨i, m, j, rfl, hm⟩
  · obtain ⟨e, he⟩ := compile_spaces (fuel + 2) i
    rw [he]; exact .inr (.inl rfl)
  have h40 : ¬ ∃ r, m = 40 :: r := by
    rintro ⟨r, rfl⟩
    exact h ⟨i, r ++ spaces j, by simp⟩
  cases hr : termRegexp m with
  | none => rw [compile_other hm (by omega) fuel h40 hr]; exact .inr (.inl rfl)
  | some mt =>
    obtain ⟨w, hw, ht, hn, -⟩ := match_inv hr
    rw [compile_outcome hm (by omega) (fuel + 1) w hw hn ht]
    split
    · exact .inr (.inr rfl)
    split
    · exact .inr (.inl rfl)
    split
    · exact .inr (.inr rfl)
    split
    · exact .inr (.inl rfl)
    split
    · exact .inr (.inl rfl)
    · exact .inl rfl

example : ¬ ∃ i r, chars " #0 <> 1" = spaces i ++ 40 :: r := by
  rintro ⟨i, r, h⟩
  have h1 : (chars " #0 <> 1").all (· != 40) = true := by decide
  rw [h] at h1
  simp at h1

/-- The words between comparisons are looked for in the part of the definition that is left. (No definition gets as
far: comparisons end the compilation before.) -/
theorem looked_for (d : Bytes) {i e : Nat} (hi : i ≤ e) (he : e ≤ d.length) (word : Bytes) :
    startsWith d i e word = .ok (word.isPrefixOf ((d.take e).drop i)) := by
  have key : ∀ (w : Bytes) (i : Nat), w.length + i ≤ e →
      startsLoop d w i = .ok (w.isPrefixOf ((d.take e).drop i)) := by
    intro w
    induction w with
    | nil => intro i _; rw [startsLoop, List.isPrefixOf_nil_left]
    | cons x w ih =>
      intro i hi
      simp only [List.length_cons] at hi
      have h1 : i < d.length := by omega
      have h2 : i < (d.take e).length := by rw [List.length_take]; omega
      have hx : idx d i = .ok d[i] := by rw [idx, List.getElem?_eq_getElem h1]
      rw [startsLoop, hx, Res.ok_bind, List.drop_eq_getElem_cons h2, List.getElem_take, List.isPrefixOf_cons₂]
      by_cases hc : d[i] = x
      · rw [if_neg (by simpa using hc), ih (i + 1) (by omega)]
        simp [hc]
      · rw [if_pos hc]
        have : (x == d[i]) = false := by simpa using fun h => hc h.symm
        rw [this, Bool.false_and]; rfl
  rw [startsWith, if_neg (by omega)]
  split
  · rename_i h
    congr 1
    symm
    rw [Bool.eq_false_iff]
    intro hp
    have := (List.isPrefixOf_iff_prefix.1 hp).length_le
    simp only [List.length_drop, List.length_take] at this
    omega
  · exact key word i (by omega)

example : startsWith (chars "#0 < 1 OR #1") 7 12 (chars "OR ") = .ok true ∧
    startsWith (chars "#0 < 1 OR #1") 7 9 (chars "OR ") = .ok false := by decide

end C49
