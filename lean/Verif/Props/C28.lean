import Verif.Lemmas.CondExact
import Verif.Spec.SampleConditions

/-!
# C28: rewrite conditions evaluate to their boolean meaning

They do not: `EvaluateCondition` panics for every well-formed first condition of every font, because
it compares the position after the condition with that of its last byte. With one more byte after
the condition it gives the right value, as long as there are no general comparisons and no group is
decided before its end. Reading the end offsets of other conditions is also wrong, general comparisons
compare the index of the setting, and a group that is decided early skips one term too many.
-/

namespace C28
open Go Helpers Spec FontModel Font BuilderModel

/-- Every evaluation of a well-formed first condition panics, whatever the font and the settings. -/
theorem evaluate_violated (f : Font) (n : Nat) (c : Cond) (settings : List Nat)
    (hok : c.Ok settings.length) (h : FirstCondition f n c.bytes) :
    ∃ m, f.evaluateCondition 0 settings = .panic m ∧ m ≠ "out of fuel" := by
  obtain ⟨⟨pre, offsets, post, hd, ho, hoff⟩, ⟨hn1, hn2⟩, hsmall⟩ := h
  have hpos := bytes_pos c
  have hat : At f.data f.offConditions ([UInt8.ofNat n] ++
    ([UInt8.ofNat (c.bytes.length % 256), UInt8.ofNat (c.bytes.length / 256)] ++
      (offsets ++ (c.bytes ++ post)))) := by
    rw [hd, hoff]
    have := At.intro pre ([UInt8.ofNat n] ++
      ([UInt8.ofNat (c.bytes.length % 256), UInt8.ofNat (c.bytes.length / 256)] ++
      (offsets ++ (c.bytes ++ post)))) []
    simpa using this
  have h1 := hat.left.rd8
  have h2 : rd16 f.data (f.offConditions + 1) = .ok (c.bytes.length) := by
    have : At f.data (f.offConditions + 1) (appendUint16LE [] c.bytes.length) := by
      have := hat.right.left
      rw [append16]
      simp only [le16, byte]
      have e1 : UInt8.ofNat c.bytes.length = UInt8.ofNat (c.bytes.length % 256) := by
        apply UInt8.toNat_inj.1; simp
      have e2 : UInt8.ofNat (c.bytes.length >>> 8) = UInt8.ofNat (c.bytes.length / 256) := by
        rw [Nat.shiftRight_eq_div_pow]
      rw [e1, e2]
      exact this
    rw [this.rd16, Nat.mod_eq_of_lt hsmall]
  have h3 := hat.right.right.right.left
  have hN : (UInt8.ofNat n).toNat = n := by simp; omega
  rw [hN] at h1
  have hlen := h3.len
  simp only [List.length_cons, List.length_nil, ho] at h3 hlen
  rw [evaluateCondition, numConditions, h1, Res.ok_bind, if_neg (by omega), Nat.add_zero, h2, Res.ok_bind,
    if_neg (by omega), Res.ok_bind, if_neg (by omega)]
  have hb : f.offConditions + 1 + n <<< 1 = f.offConditions + (0 + 1) + (0 + 1 + 1) + 2 * (n - 1) := by
    rw [Nat.shiftLeft_eq]; omega
  simp only [hb]
  generalize f.offConditions + (0 + 1) + (0 + 1 + 1) + 2 * (n - 1) = base at h3 hlen
  rw [if_neg (by omega), Nat.add_zero]
  have hF : Forest f.data (base + (c.bytes.length - 1)) settings.length base [c] := by
    refine ⟨by simpa [Cond.AllOk] using hok, by simpa [Cond.allBytes] using h3, ?_⟩
    simp only [Cond.allBytes, List.append_nil]
    omega
  have hfu := (evalSub_fueled (data := f.data) (maxIndex := base + (c.bytes.length - 1)) (v := settings)
    (f.data.length + 1) (by omega) base (by omega)).1
  rcases evalSub_past (f.data.length + 1) base [c] hF with ⟨m, hm⟩ | ⟨⟨i, b⟩, l', hi, hF', hl'⟩
  · rw [hm] at hfu ⊢
    exact ⟨m, rfl, fun e => hfu (by rw [e])⟩
  · rw [hi, Res.ok_bind]
    have hl : l' = [] := by simpa using hl'
    subst hl
    have := hF'.till
    simp only [Cond.allBytes, List.length_nil] at this
    simp only
    rw [if_pos (by omega)]
    exact ⟨_, rfl, by decide⟩

/-- With one byte more after the condition, there is a value exactly when no group is decided before its end, and it is
the one in which general comparisons look at the index of the setting. -/
theorem evaluate_exact (f : Font) (n : Nat) (c : Cond) (x : UInt8) (settings : List Nat)
    (hok : c.Ok settings.length) (h : FirstCondition f n (c.bytes ++ [x])) (b : Bool) :
    f.evaluateCondition 0 settings = .ok b ↔ c.Calm settings ∧ b = c.seen settings := by
  obtain ⟨⟨pre, offsets, post, hd, ho, hoff⟩, ⟨hn1, hn2⟩, hsmall⟩ := h
  have hpos := bytes_pos c
  have hat : At f.data f.offConditions ([UInt8.ofNat n] ++
    ([UInt8.ofNat ((c.bytes ++ [x]).length % 256), UInt8.ofNat ((c.bytes ++ [x]).length / 256)] ++
      (offsets ++ ((c.bytes ++ [x]) ++ post)))) := by
    rw [hd, hoff]
    have := At.intro pre ([UInt8.ofNat n] ++
      ([UInt8.ofNat ((c.bytes ++ [x]).length % 256), UInt8.ofNat ((c.bytes ++ [x]).length / 256)] ++
      (offsets ++ ((c.bytes ++ [x]) ++ post)))) []
    simpa using this
  have h1 := hat.left.rd8
  have h2 : rd16 f.data (f.offConditions + 1) = .ok (c.bytes ++ [x]).length := by
    have : At f.data (f.offConditions + 1) (appendUint16LE [] (c.bytes ++ [x]).length) := by
      have := hat.right.left
      rw [append16]
      simp only [le16, byte]
      have e1 : UInt8.ofNat (c.bytes ++ [x]).length = UInt8.ofNat ((c.bytes ++ [x]).length % 256) := by
        apply UInt8.toNat_inj.1; simp
      have e2 : UInt8.ofNat ((c.bytes ++ [x]).length >>> 8) = UInt8.ofNat ((c.bytes ++ [x]).length / 256) := by
        rw [Nat.shiftRight_eq_div_pow]
      rw [e1, e2]
      exact this
    rw [this.rd16, Nat.mod_eq_of_lt hsmall]
  have h3 := hat.right.right.right.left
  have hN : (UInt8.ofNat n).toNat = n := by simp; omega
  rw [hN] at h1
  have hlen := h3.len
  simp only [List.length_cons, List.length_nil, ho] at h3 hlen
  have hl : (c.bytes ++ [x]).length = c.bytes.length + 1 := by simp
  rw [hl] at h2 hlen
  rw [evaluateCondition, numConditions, h1, Res.ok_bind, if_neg (by omega), Nat.add_zero, h2, Res.ok_bind,
    if_neg (by omega), Res.ok_bind, if_neg (by omega)]
  have hb : f.offConditions + 1 + n <<< 1 = f.offConditions + (0 + 1) + (0 + 1 + 1) + 2 * (n - 1) := by
    rw [Nat.shiftLeft_eq]; omega
  simp only [hb]
  generalize f.offConditions + (0 + 1) + (0 + 1 + 1) + 2 * (n - 1) = base at h3 hlen
  rw [if_neg (by omega), Nat.add_zero, ← evalSub_whole (maxIndex := base + (c.bytes.length + 1 - 1)) (fuel := f.data.length + 1)
    hok h3.left (by omega) (by omega) b]
  cases evalSub f.data (base + (c.bytes.length + 1 - 1)) settings (f.data.length + 1) base with
  | panic m => constructor <;> intro h <;> cases h
  | err m => constructor <;> intro h <;> cases h
  | ok a =>
    obtain ⟨i, r⟩ := a
    rw [Res.ok_bind]
    simp only
    by_cases hi : i = base + (c.bytes.length + 1 - 1)
    · rw [if_neg (by omega)]
      simp only [Res.pure_eq, Res.ok.injEq, Prod.mk.injEq, hi, true_and]
    · rw [if_pos hi]
      simp only [reduceCtorEq, Res.ok.injEq, Prod.mk.injEq, hi, false_and]

/-- This value is right for conditions with only quick comparisons. Missing: the byte, groups that are decided before
their end, and general comparisons. -/
theorem evaluate_partial (f : Font) (n : Nat) (c : Cond) (x : UInt8) (settings : List Nat)
    (hok : c.Ok settings.length) (hq : c.Quiet settings) (h : FirstCondition f n (c.bytes ++ [x])) :
    f.evaluateCondition 0 settings = .ok (c.holds settings) := by
  obtain ⟨h1, h2⟩ := quiet_calm hq
  rw [← h2]
  exact (evaluate_exact f n c x settings hok h _).2 ⟨h1, rfl⟩

/-- The model of the recursion never runs out of fuel. -/
theorem fuel_enough (f : Font) (key : Nat) (settings : List Nat) :
    f.evaluateCondition key settings ≠ .panic "out of fuel" := by
  have rd16f : ∀ i, Fueled (rd16 f.data i) := by
    intro i h
    have g : ∀ l : Bytes, Fueled (decodeUint16LE l) := by
      intro l h
      unfold decodeUint16LE at h
      split at h <;> simp at h
    simp only [rd16, sliceFrom] at h
    split at h
    · exact g _ h
    · simp at h
  have key2 : Fueled (f.evaluateCondition key settings) := by
    rw [evaluateCondition, numConditions]
    refine Fueled.bind (Fueled.rd8 _ _) fun n _ => Fueled.ite (by intro h; simp at h) ?_
    refine Fueled.bind (rd16f _) fun e _ => ?_
    refine Fueled.bind (Fueled.ite (rd16f _) (Fueled.ok _)) fun s _ => Fueled.ite Fueled.invalid ?_
    simp only
    by_cases hm : f.offConditions + 1 + n <<< 1 + (e - 1) ≥ f.data.length
    · rw [if_pos hm]; exact Fueled.invalid
    · rw [if_neg hm]
      refine Fueled.bind (evalSub_fueled (f.data.length + 1) (by omega) _ (by omega)).1 fun a _ => ?_
      obtain ⟨i, b⟩ := a
      exact Fueled.ite (by intro h; simp at h) (Fueled.ok _)
  exact key2

/-- Skipping is exact for all well-formed expressions inside the condition. -/
theorem skip_exact (data : Bytes) (maxIndex numSettings fuel i : Nat) (c : Cond) (pre post : Bytes)
    (hd : data = pre ++ (c.bytes ++ post)) (hi : i = pre.length) (hf : c.bytes.length ≤ fuel)
    (hok : c.Ok numSettings) (hle : i + c.bytes.length ≤ maxIndex) :
    skipSub data maxIndex (min numSettings 255) fuel i = .ok (i + c.bytes.length) := by
  subst hd hi
  exact skipSub_ok fuel c _ hf hok (At.intro _ _ _) hle

/-- Subexpressions with only quick comparisons and no early decision evaluate exactly. -/
theorem eval_quiet_partial (data : Bytes) (maxIndex fuel i : Nat) (c : Cond) (pre post : Bytes)
    (settings : List Nat) (hd : data = pre ++ (c.bytes ++ post)) (hi : i = pre.length)
    (hf : c.bytes.length ≤ fuel) (hok : c.Ok settings.length) (hq : c.Quiet settings)
    (hle : i + c.bytes.length ≤ maxIndex) :
    evalSub data maxIndex settings fuel i = .ok (i + c.bytes.length, c.holds settings) := by
  subst hd hi
  exact evalSub_quiet fuel c _ hf hok hq (At.intro _ _ _) hle

/-- General comparisons compare the index of the setting, not its value. -/
theorem comparison_violated (pre post : Bytes) (maxIndex fuel : Nat) (op : Comparison) (a c : UInt8)
    (settings : List Nat) (ha : a.toNat < settings.length) (hle : pre.length ≤ maxIndex) :
    evalSub (pre ++ ((Cond.const op a c).bytes ++ post)) maxIndex settings (fuel + 1) pre.length =
      .ok (pre.length + 3, op.holds a.toNat c.toNat) := by
  have hat := At.intro pre (Cond.const op a c).bytes post
  simp only [Cond.bytes] at hat ⊢
  obtain ⟨q1, q2, q3⟩ := ctrl_const op.code (code_lt op)
  have h1 := (At.cons.1 hat).2
  have h2 := (At.cons.1 h1).2
  rw [evalSub, if_neg (by omega), hat.rd8, Res.ok_bind]
  simp only
  rw [if_neg (by omega), if_neg (by omega), if_pos q1, h1.rd8, Res.ok_bind, if_neg (by omega), h2.rd8,
    Res.ok_bind, if_neg (by omega), if_neg (by omega), Res.ok_bind, q3, compare_code, Res.ok_bind]
  rfl

/-- The same when two settings are compared. -/
theorem settings_violated (pre post : Bytes) (maxIndex fuel : Nat) (op : Comparison) (a b : UInt8)
    (settings : List Nat) (ha : a.toNat < settings.length) (hb : b.toNat < settings.length)
    (hle : pre.length ≤ maxIndex) :
    evalSub (pre ++ ((Cond.settings op a b).bytes ++ post)) maxIndex settings (fuel + 1) pre.length =
      .ok (pre.length + 3, op.holds a.toNat (settings.getD b.toNat 0)) := by
  have hat := At.intro pre (Cond.settings op a b).bytes post
  simp only [Cond.bytes] at hat ⊢
  obtain ⟨q1, q2, q3⟩ := ctrl_settings op.code (code_lt op)
  have h1 := (At.cons.1 hat).2
  have h2 := (At.cons.1 h1).2
  rw [evalSub, if_neg (by omega), hat.rd8, Res.ok_bind]
  simp only
  rw [if_neg (by omega), if_neg (by omega), if_pos q1, h1.rd8, Res.ok_bind, if_neg (by omega), h2.rd8,
    Res.ok_bind, if_neg (by omega), if_pos q2, idx_lt hb, Res.ok_bind, q3, compare_code, Res.ok_bind,
    List.getD_eq_getElem?_getD, List.getElem?_eq_getElem hb]
  rfl

/-- The setting is 7, and the code says that it is not 7. -/
theorem comparison_witness : (Cond.const .eq 1 7).holds [0, 7] = true ∧
    evalSub (Cond.const .eq 1 7).bytes 10 [0, 7] 9 0 = .ok (3, false) := by decide +kernel

/-- A group that is decided by its first term goes past the term after the group. -/
theorem short_circuit_violated :
    let c := Cond.or [.quick .eq 0 2, .quick .eq 1 5]
    c.Ok 2 ∧ c.holds [2, 5] = true ∧
    evalSub (c.bytes ++ (Cond.quick .lt 0 9).bytes ++ [0]) 20 [2, 5] 9 0 = .ok (c.bytes.length + 2, true) := by
  refine ⟨by simp [Cond.Ok, Cond.AllOk, Comparison.code], by decide +kernel, by decide +kernel⟩

/-- The offsets of the other conditions are not read right. The third, fifth, ... condition always panics, as long as all
conditions take fewer than 256 bytes; the second, fourth, ... one unless 1024 bytes or more follow. -/
theorem later_violated {f : Font} {ends : List Nat} (h : ShortConditions f ends) (key : Nat) (settings : List Nat)
    (h0 : 0 < key) (hk : key < ends.length)
    (hd : key % 2 = 0 ∨ f.data.length < f.offConditions + 1 + 2 * ends.length + 256 * ends.getD ((key + 1) / 2) 0) :
    f.evaluateCondition key settings = .panic "invalid font data" := by
  obtain ⟨hn, hl, hb⟩ := shortConditions_bytes h
  have hkey : ¬ key ≥ ends.length := by omega
  have hs : ends.length <<< 1 = 2 * ends.length := by rw [Nat.shiftLeft_eq]; omega
  rw [evaluateCondition, numConditions, hn, Res.ok_bind, if_neg hkey, rd16_eq (by omega), Res.ok_bind, if_pos h0,
    rd16_eq (by omega), Res.ok_bind]
  simp only [hs]
  rcases Nat.mod_two_eq_zero_or_one key with he | he
  · obtain ⟨k, rfl⟩ : ∃ k, key = 2 * (k + 1) := ⟨key / 2 - 1, by omega⟩
    obtain ⟨-, h1⟩ := hb k (by omega)
    obtain ⟨h2, h3⟩ := hb (k + 1) (by omega)
    have e1 : f.offConditions + 2 * (k + 1) = f.offConditions + 1 + 2 * k + 1 := by omega
    have e2 : f.offConditions + 1 + 2 * k + 1 + 1 = f.offConditions + 1 + 2 * (k + 1) := by omega
    rw [if_pos]
    rw [u16At, u16At, h2, h3, e1, h1, e2, h2]
    omega
  · obtain ⟨k, rfl⟩ : ∃ k, key = 2 * k + 1 := ⟨key / 2, by omega⟩
    obtain ⟨h1, h2⟩ := hb k (by omega)
    obtain ⟨h3, -⟩ := hb (k + 1) (by omega)
    have e1 : f.offConditions + 1 + (2 * k + 1) = f.offConditions + 1 + 2 * k + 1 := by omega
    have e2 : f.offConditions + 1 + 2 * k + 1 + 1 = f.offConditions + 1 + 2 * (k + 1) := by omega
    have e3 : (2 * k + 1 + 1) / 2 = k + 1 := by omega
    have hu : u16At f.data (f.offConditions + 1 + (2 * k + 1)) = 256 * ends.getD (k + 1) 0 := by
      rw [u16At, e1, h2, e2, h3]; omega
    rw [e3] at hd
    rw [hu]
    split
    · rfl
    · rw [if_pos (by omega)]

/-- The second of two conditions is not found, even with the additional byte. -/
theorem offsets_violated :
    let f := Sample.conditionsFont [[0x61, 0, 9], [0x61, 0, 9]] [3, 0, 6, 0]
    f.evaluateCondition 0 [1] = .ok true ∧ (f.evaluateCondition 1 [1]).isPanic = true := by
  decide +kernel

/-- The hypotheses of `evaluate_violated` hold for expressions with nested groups. -/
example : Sample.someCond.Ok 2 ∧ Sample.someCond.bytes = [2, 34, 98, 0, 163, 1, 196, 0] ∧
    Sample.someCond.holds [2, 2] = true ∧ Sample.someCond.holds [5, 7] = true ∧
    Sample.someCond.holds [3, 0] = false ∧
    FirstCondition (Sample.conditionsFont [Sample.someCond.bytes] [8, 0]) 1 Sample.someCond.bytes := by
  refine ⟨by simp [Sample.someCond, Cond.Ok, Cond.AllOk, Comparison.code], by decide +kernel,
    by decide +kernel, by decide +kernel, by decide +kernel, ?_⟩
  exact ⟨⟨[], [], [], rfl, rfl, rfl⟩, by decide, by decide⟩

example : (Sample.conditionsFont [Sample.someCond.bytes] [8, 0]).evaluateCondition 0 [2, 2] =
    .panic "invalid font data" := by decide +kernel

/-- Those of `evaluate_exact`, with values and without. -/
example :
    let c := Cond.and [.const .lt 1 9, .quick .ne 0 2]
    c.Ok 2 ∧ c.Calm [3, 20] ∧ c.seen [3, 20] = true ∧ c.holds [3, 20] = false ∧ ¬ c.Calm [2, 20] := by
  refine ⟨by simp [Cond.Ok, Cond.AllOk, Comparison.code], ?_, by decide +kernel, by decide +kernel, ?_⟩
  · simp [Cond.Calm, Cond.AllCalm, Cond.seen, Comparison.holds]
  · simp [Cond.Calm, Cond.AllCalm, Cond.seen, Comparison.holds]

/-- And those of `later_violated`, for three conditions. -/
example : ShortConditions (Sample.conditionsFont [[0x61, 0], [0x62, 0], [0x63, 0]] [2, 0, 4, 0, 6, 0]) [2, 4, 6] :=
  ⟨⟨[], [0x61, 0, 0x62, 0, 0x63, 0], by decide +kernel, rfl⟩, by decide, by decide⟩

/-- And those of `evaluate_partial`. -/
example : let c := Cond.and [.quick .eq 0 2, .or [.quick .lt 1 3, .quick .gt 1 4], .quick .ne 1 5]
    ¬ c.Quiet [2, 2] ∧ (Cond.and [.quick .eq 0 2, .quick .ne 1 5]).Quiet [2, 2] ∧
    (Sample.conditionsFont [(Cond.and [.quick .eq 0 2, .quick .ne 1 5]).bytes ++ [0]] [6, 0]).evaluateCondition
      0 [2, 2] = .ok true := by
  refine ⟨?_, ?_, by decide +kernel⟩
  · simp [Cond.Quiet, Cond.AllQuiet, Cond.holds, Cond.anyHolds, Comparison.holds]
  · simp [Cond.Quiet, Cond.AllQuiet, Cond.holds, Comparison.holds]

end C28
