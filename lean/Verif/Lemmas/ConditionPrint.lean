import Verif.Lemmas.ConditionCompile
import Verif.Props.C43

/-! # Printing conditions -/

namespace ConditionModel
open Go Helpers Spec

theorem digits_eq (v : UInt8) (str : Bytes) : appendByteDigits v str = str ++ decimal v.toNat :=
  C43.appendByteDigits_decimal v str

theorem bits_or : ∀ n < 32, UInt8.ofNat n >>> 5 = 0 ∧ (UInt8.ofNat n &&& 31).toNat = n := by decide
theorem bits_and : ∀ n < 32, UInt8.ofNat (32 + n) >>> 5 = 1 ∧ (UInt8.ofNat (32 + n) &&& 31).toNat = n := by decide
theorem bits_settings : ∀ n < 6, UInt8.ofNat (64 + n) >>> 5 = 2 ∧ (UInt8.ofNat (64 + n) &&& 15).toNat = n ∧
    UInt8.ofNat (64 + n) &&& 16 = 0 := by decide
theorem bits_const : ∀ n < 6, UInt8.ofNat (64 + 16 + n) >>> 5 = 2 ∧ (UInt8.ofNat (64 + 16 + n) &&& 15).toNat = n ∧
    UInt8.ofNat (64 + 16 + n) &&& 16 ≠ 0 := by decide
theorem bits_quick : ∀ n < 4, ∀ c < 32, UInt8.ofNat (96 + 32 * n + c) >>> 5 = UInt8.ofNat (3 + n) ∧
    (UInt8.ofNat (96 + 32 * n + c) &&& 31).toNat = c := by decide

theorem operatorText_code (op : Comparison) : operatorText op.code = .ok op.symbol := by cases op <;> rfl

theorem code_six (op : Comparison) : op.code < 6 := by cases op <;> decide

theorem idx_append {p q : Bytes} {c : UInt8} {i : Nat} (h : i = p.length) : idx (p ++ (c :: q)) i = .ok c := by
  subst h; simp [idx]

theorem bytes_pos' (c : Cond) : 0 < c.bytes.length := by cases c <;> simp [Cond.bytes]

theorem quickText_ok {data : Bytes} {index : Nat} {ctrl a : UInt8} {str : Bytes} (op : Bytes)
    (h : idx data (index + 1) = .ok a) : quickText data ctrl op index str =
      .ok (index + 2, str ++ ([35] ++ decimal a.toNat ++ [32] ++ op ++ [32] ++ decimal (ctrl &&& 31).toNat)) := by
  rw [quickText, h, Res.ok_bind]
  simp [digits_eq, List.append_assoc]

mutual

theorem sub_ok (n fuel : Nat) (pre post str : Bytes) : (c : Cond) → c.Ok n → 2 * c.bytes.length ≤ fuel →
    appendSubTerm (pre ++ (c.bytes ++ post)) fuel pre.length str = .ok (pre.length + c.bytes.length, str ++ c.sub)
  | .or ts, hok, hf => by
    obtain ⟨h2, h31, hts⟩ := hok
    simp only [Cond.bytes, List.length_cons] at hf ⊢
    obtain ⟨fuel, rfl⟩ : ∃ m, fuel = m + 1 := ⟨fuel - 1, by omega⟩
    obtain ⟨q1, q2⟩ := bits_or ts.length (by omega)
    have ih := terms_ok n fuel (pre ++ [UInt8.ofNat ts.length]) post (str ++ [40]) [32, 79, 82, 32] ts hts (by omega)
    rw [List.append_assoc, List.singleton_append, List.length_append, ← List.cons_append] at ih
    rw [appendSubTerm, if_neg (by simp), List.cons_append, idx_append rfl, Res.ok_bind, if_pos q1]
    simp only
    rw [q2, if_neg (by omega)]
    rw [List.cons_append] at ih
    simp only [List.length_singleton] at ih
    rw [ih, Res.ok_bind]
    simp [Cond.sub, List.append_assoc]; omega
  | .and ts, hok, hf => by
    obtain ⟨h2, h31, hts⟩ := hok
    simp only [Cond.bytes, List.length_cons] at hf ⊢
    obtain ⟨fuel, rfl⟩ : ∃ m, fuel = m + 1 := ⟨fuel - 1, by omega⟩
    obtain ⟨q1, q2⟩ := bits_and ts.length (by omega)
    have ih := terms_ok n fuel (pre ++ [UInt8.ofNat (32 + ts.length)]) post (str ++ [40]) [32, 65, 78, 68, 32] ts hts (by omega)
    rw [List.append_assoc, List.singleton_append, List.length_append, ← List.cons_append] at ih
    rw [appendSubTerm, if_neg (by simp), List.cons_append, idx_append rfl, Res.ok_bind, if_neg (by rw [q1]; decide),
      if_pos q1]
    simp only
    rw [q2, if_neg (by omega)]
    rw [List.cons_append] at ih
    simp only [List.length_singleton] at ih
    rw [ih, Res.ok_bind]
    simp [Cond.sub, List.append_assoc]; omega
  | .settings op a b, hok, hf => by
    simp only [Cond.bytes, List.length_cons, List.length_nil] at hf ⊢
    obtain ⟨fuel, rfl⟩ : ∃ m, fuel = m + 1 := ⟨fuel - 1, by omega⟩
    obtain ⟨q1, q2, q3⟩ := bits_settings op.code (code_six op)
    have e1 : idx (pre ++ ([UInt8.ofNat (64 + op.code), a, b] ++ post)) pre.length = .ok (UInt8.ofNat (64 + op.code)) :=
      idx_append rfl
    have e2 : idx (pre ++ ([UInt8.ofNat (64 + op.code), a, b] ++ post)) (pre.length + 1) = .ok a := by simp [idx]
    have e3 : idx (pre ++ ([UInt8.ofNat (64 + op.code), a, b] ++ post)) (pre.length + 2) = .ok b := by simp [idx]
    rw [appendSubTerm, if_neg (by simp), e1, Res.ok_bind, if_neg (by rw [q1]; decide), if_neg (by rw [q1]; decide),
      if_pos q1, e2, Res.ok_bind]
    simp only
    rw [q2, operatorText_code, Res.ok_bind, e3, Res.ok_bind, if_pos q3]
    simp [Cond.sub, Cond.leftText, digits_eq, List.append_assoc]
  | .const op a b, hok, hf => by
    simp only [Cond.bytes, List.length_cons, List.length_nil] at hf ⊢
    obtain ⟨fuel, rfl⟩ : ∃ m, fuel = m + 1 := ⟨fuel - 1, by omega⟩
    obtain ⟨q1, q2, q3⟩ := bits_const op.code (code_six op)
    have e1 : idx (pre ++ ([UInt8.ofNat (64 + 16 + op.code), a, b] ++ post)) pre.length =
      .ok (UInt8.ofNat (64 + 16 + op.code)) := idx_append rfl
    have e2 : idx (pre ++ ([UInt8.ofNat (64 + 16 + op.code), a, b] ++ post)) (pre.length + 1) = .ok a := by simp [idx]
    have e3 : idx (pre ++ ([UInt8.ofNat (64 + 16 + op.code), a, b] ++ post)) (pre.length + 2) = .ok b := by simp [idx]
    rw [appendSubTerm, if_neg (by simp), e1, Res.ok_bind, if_neg (by rw [q1]; decide), if_neg (by rw [q1]; decide),
      if_pos q1, e2, Res.ok_bind]
    simp only
    rw [q2, operatorText_code, Res.ok_bind, e3, Res.ok_bind, if_neg q3]
    simp [Cond.sub, Cond.leftText, digits_eq, List.append_assoc]
  | .quick op a c, hok, hf => by
    obtain ⟨_, hc, ho⟩ := hok
    simp only [Cond.bytes, List.length_cons, List.length_nil] at hf ⊢
    obtain ⟨fuel, rfl⟩ : ∃ m, fuel = m + 1 := ⟨fuel - 1, by omega⟩
    obtain ⟨q1, q2⟩ := bits_quick op.code ho c hc
    generalize UInt8.ofNat (96 + 32 * op.code + c) = ctrl at *
    have e1 : idx (pre ++ ([ctrl, a] ++ post)) pre.length = .ok ctrl := idx_append rfl
    have e2 : idx (pre ++ ([ctrl, a] ++ post)) (pre.length + 1) = .ok a := by simp [idx]
    rw [appendSubTerm, if_neg (by simp), e1, Res.ok_bind, q1]
    cases op with
    | le => exact absurd ho (by decide)
    | ge => exact absurd ho (by decide)
    | eq =>
      rw [if_neg (by decide), if_neg (by decide), if_neg (by decide), if_pos (by decide), quickText_ok _ e2, q2]
      rfl
    | ne =>
      rw [if_neg (by decide), if_neg (by decide), if_neg (by decide), if_neg (by decide), if_pos (by decide),
        quickText_ok _ e2, q2]
      rfl
    | lt =>
      rw [if_neg (by decide), if_neg (by decide), if_neg (by decide), if_neg (by decide), if_neg (by decide),
        if_pos (by decide), quickText_ok _ e2, q2]
      rfl
    | gt =>
      rw [if_neg (by decide), if_neg (by decide), if_neg (by decide), if_neg (by decide), if_neg (by decide),
        if_neg (by decide), if_pos (by decide), quickText_ok _ e2, q2]
      rfl

theorem terms_ok (n fuel : Nat) (pre post str sep : Bytes) : (ts : List Cond) → Cond.AllOk n ts →
    2 * (Cond.allBytes ts).length + 1 ≤ fuel →
    appendTerms (pre ++ (Cond.allBytes ts ++ post)) fuel sep ts.length pre.length str =
      .ok (pre.length + (Cond.allBytes ts).length, str ++ Cond.joined sep ts)
  | [], _, hf => by
    obtain ⟨fuel, rfl⟩ : ∃ m, fuel = m + 1 := ⟨fuel - 1, by omega⟩
    rw [List.length_nil, appendTerms]
    · simp [Cond.allBytes, Cond.joined]
  | t :: ts, hok, hf => by
    have hp := bytes_pos' t
    simp only [Cond.allBytes, List.length_append] at hf ⊢
    obtain ⟨fuel, rfl⟩ : ∃ m, fuel = m + 1 := ⟨fuel - 1, by omega⟩
    have h1 := sub_ok n fuel pre (Cond.allBytes ts ++ post) str t hok.1 (by omega)
    have h2 := terms_ok n fuel (pre ++ t.bytes) post
      (if ts.length = 0 then str ++ t.sub else str ++ t.sub ++ sep) sep ts hok.2 (by omega)
    rw [List.append_assoc, List.length_append] at h2
    rw [List.length_cons, appendTerms, List.append_assoc, h1, Res.ok_bind]
    simp only
    rw [h2, Cond.joined]
    congr 1
    refine Prod.ext (by simp; omega) ?_
    cases ts with
    | nil => simp [Cond.joined]
    | cons x ts => simp [List.append_assoc]

end

theorem sub_ne (c : Cond) : ∃ x r, c.sub = x :: r := by
  cases c <;> exact ⟨_, _, rfl⟩

theorem text_ne (n : Nat) (c : Cond) (h : c.Ok n) : ∃ x r, c.text = x :: r := by
  cases c with
  | or ts =>
    cases ts with
    | nil => exact absurd h.1 (by simp)
    | cons t ts =>
      obtain ⟨x, r, hx⟩ := sub_ne t
      exact ⟨x, r ++ ((if ts = [] then [] else [32, 79, 82, 32]) ++ Cond.joined [32, 79, 82, 32] ts), by
        simp [Cond.text, Cond.joined, hx]⟩
  | and ts =>
    cases ts with
    | nil => exact absurd h.1 (by simp)
    | cons t ts =>
      obtain ⟨x, r, hx⟩ := sub_ne t
      exact ⟨x, r ++ ((if ts = [] then [] else [32, 65, 78, 68, 32]) ++ Cond.joined [32, 65, 78, 68, 32] ts), by
        simp [Cond.text, Cond.joined, hx]⟩
  | settings op a b => exact sub_ne _
  | const op a b => exact sub_ne _
  | quick op a b => exact sub_ne _

/-- `String` prints every condition. -/
theorem text_ok (n : Nat) (c : Cond) (h : c.Ok n) : text c.bytes = .ok c.text := by
  obtain ⟨x, r, hx⟩ := text_ne n c h
  have h0 : idx c.text 0 = .ok x := by rw [hx]; rfl
  have hs := sub_ok n (2 * c.bytes.length + 2) [] [] [] c h (by omega)
  simp only [List.nil_append, List.append_nil, List.length_nil, Nat.zero_add] at hs
  rw [text]
  simp only
  cases c with
  | or ts =>
    obtain ⟨q1, q2⟩ := bits_or ts.length (by have := h.2.1; omega)
    have ht := terms_ok n (2 * (Cond.or ts).bytes.length + 2) [UInt8.ofNat ts.length] [] [] [32, 79, 82, 32] ts h.2.2
      (by simp [Cond.bytes]; omega)
    simp only [List.append_nil, List.nil_append] at ht
    rw [show idx (Cond.or ts).bytes 0 = .ok (UInt8.ofNat ts.length) from rfl, Res.ok_bind, if_pos q1, q2,
      if_neg (by have := h.1; omega)]
    rw [show (Cond.or ts).bytes = [UInt8.ofNat ts.length] ++ Cond.allBytes ts from rfl] at ht ⊢
    rw [show (1 : Nat) = [UInt8.ofNat ts.length].length from rfl, ht, Res.ok_bind]
    simp only
    rw [if_neg (by simp; omega)]
    rw [Cond.text] at h0 ⊢
    rw [h0]
    rfl
  | and ts =>
    obtain ⟨q1, q2⟩ := bits_and ts.length (by have := h.2.1; omega)
    have ht := terms_ok n (2 * (Cond.and ts).bytes.length + 2) [UInt8.ofNat (32 + ts.length)] [] [] [32, 65, 78, 68, 32] ts
      h.2.2 (by simp [Cond.bytes]; omega)
    simp only [List.append_nil, List.nil_append] at ht
    rw [show idx (Cond.and ts).bytes 0 = .ok (UInt8.ofNat (32 + ts.length)) from rfl, Res.ok_bind,
      if_neg (by rw [q1]; decide), if_pos q1, q2, if_neg (by have := h.1; omega)]
    rw [show (Cond.and ts).bytes = [UInt8.ofNat (32 + ts.length)] ++ Cond.allBytes ts from rfl] at ht ⊢
    rw [show (1 : Nat) = [UInt8.ofNat (32 + ts.length)].length from rfl, ht, Res.ok_bind]
    simp only
    rw [if_neg (by simp; omega)]
    rw [Cond.text] at h0 ⊢
    rw [h0]
    rfl
  | settings op a b =>
    obtain ⟨q1, _⟩ := bits_settings op.code (code_six op)
    rw [show idx (Cond.settings op a b).bytes 0 = .ok (UInt8.ofNat (64 + op.code)) from rfl, Res.ok_bind,
      if_neg (by rw [q1]; decide), if_neg (by rw [q1]; decide), hs, Res.ok_bind]
    simp only
    rw [if_neg (by simp)]
    rw [Cond.text] at h0 ⊢
    · rw [h0]; rfl
    all_goals simp
  | const op a b =>
    obtain ⟨q1, _⟩ := bits_const op.code (code_six op)
    rw [show idx (Cond.const op a b).bytes 0 = .ok (UInt8.ofNat (64 + 16 + op.code)) from rfl, Res.ok_bind,
      if_neg (by rw [q1]; decide), if_neg (by rw [q1]; decide), hs, Res.ok_bind]
    simp only
    rw [if_neg (by simp)]
    rw [Cond.text] at h0 ⊢
    · rw [h0]; rfl
    all_goals simp
  | quick op a b =>
    obtain ⟨q1, _⟩ := bits_quick op.code h.2.2 b h.2.1
    have q3 : ∀ k < 4, UInt8.ofNat (3 + k) ≠ 0 ∧ UInt8.ofNat (3 + k) ≠ 1 := by decide
    rw [show idx (Cond.quick op a b).bytes 0 = .ok (UInt8.ofNat (96 + 32 * op.code + b)) from rfl, Res.ok_bind,
      if_neg (by rw [q1]; exact (q3 _ h.2.2).1), if_neg (by rw [q1]; exact (q3 _ h.2.2).2), hs, Res.ok_bind]
    simp only
    rw [if_neg (by simp)]
    rw [Cond.text] at h0 ⊢
    · rw [h0]; rfl
    all_goals simp

/-! ## Reading what is printed -/

theorem decimal_digits : ∀ n < 256, decimal n ≠ [] ∧ (∀ c ∈ decimal n, 48 ≤ c ∧ c ≤ 57) ∧ number (decimal n) = n := by
  decide +kernel

theorem Digits_decimal {n : Nat} (h : n < 256) : Written.Digits (decimal n) :=
  ⟨(decimal_digits n h).1, (decimal_digits n h).2.1⟩

theorem number_decimal {n : Nat} (h : n < 256) : number (decimal n) = n := (decimal_digits n h).2.2

theorem decimal_inj {n k : Nat} (hn : n < 256) (hk : k < 256) {x y : Bytes} (hx : NoDigit x) (hy : NoDigit y)
    (h : decimal n ++ x = decimal k ++ y) : n = k ∧ x = y := by
  have h1 := takeWhile_append (p := isDigit) (l := decimal n) (x := x)
    (fun c hc => (isDigit_iff c).2 ((decimal_digits n hn).2.1 c hc)) hx
  have h2 := takeWhile_append (p := isDigit) (l := decimal k) (x := y)
    (fun c hc => (isDigit_iff c).2 ((decimal_digits k hk).2.1 c hc)) hy
  rw [h, h2.1, h2.2] at h1
  refine ⟨?_, h1.2.symm⟩
  rw [← number_decimal hn, ← number_decimal hk, h1.1]

theorem noDigit_cons {c : UInt8} {l : Bytes} (h : isDigit c = false) : NoDigit (c :: l) := by
  intro x hx; simp at hx; subst hx; exact h

theorem noDigit_nil : NoDigit [] := by intro x hx; simp at hx

/-- The text of a comparison. -/
def leafText (op : Comparison) (a : UInt8) (hash : Bool) (b : Nat) : Bytes :=
  Cond.leftText op a ++ ((if hash then [35] else []) ++ decimal b)

theorem leaf_inj {op op' : Comparison} {a a' : UInt8} {hash hash' : Bool} {b b' : Nat} (hb : b < 256) (hb' : b' < 256)
    {x y : Bytes} (hx : NoDigit x) (hy : NoDigit y) (h : leafText op a hash b ++ x = leafText op' a' hash' b' ++ y) :
    op = op' ∧ a = a' ∧ hash = hash' ∧ b = b' ∧ x = y := by
  have ha := UInt8.toNat_lt a
  have ha' := UInt8.toNat_lt a'
  simp only [leafText, Cond.leftText, List.append_assoc, List.cons_append, List.nil_append, List.cons.injEq,
    true_and] at h
  obtain ⟨h1, h2⟩ := decimal_inj (by omega) (by omega) (noDigit_cons (by decide)) (noDigit_cons (by decide)) h
  have h1 := UInt8.toNat_inj.1 h1
  have hnd : ∀ n < 256, ∀ z : Bytes, ∃ c r, decimal n ++ z = c :: r ∧ c ≠ 35 := by
    intro n hn z
    obtain ⟨hne, hd⟩ := Digits_decimal hn
    cases hc : decimal n with
    | nil => exact absurd hc hne
    | cons c r =>
      refine ⟨c, r ++ z, rfl, ?_⟩
      rintro rfl
      have := hd 35 (by simp [hc])
      exact absurd this.1 (by decide)
  have key : ∀ u v : Bytes, op.symbol ++ 32 :: u = op'.symbol ++ 32 :: v → op = op' ∧ u = v := by
    intro u v huv
    cases op <;> cases op' <;> simp [Comparison.symbol] at huv <;> simp [huv]
  simp only [List.cons.injEq, true_and] at h2
  obtain ⟨h3, h4⟩ := key _ _ h2
  obtain ⟨c, r, hc, hc35⟩ := hnd b hb x
  obtain ⟨c', r', hc', hc35'⟩ := hnd b' hb' y
  cases hash <;> cases hash'
  · simp only [Bool.false_eq_true, if_false, List.nil_append] at h4
    obtain ⟨h5, h6⟩ := decimal_inj hb hb' hx hy h4
    exact ⟨h3, h1, rfl, h5, h6⟩
  · simp [hc] at h4; exact absurd h4.1 hc35
  · simp [hc'] at h4; exact absurd h4.1.symm hc35'
  · simp only [if_true, List.cons_append, List.nil_append, List.cons.injEq, true_and] at h4
    obtain ⟨h5, h6⟩ := decimal_inj hb hb' hx hy h4
    exact ⟨h3, h1, rfl, h5, h6⟩

mutual

/-- The condition without short forms. -/
def plain : Cond → Cond
  | .or ts => .or (plains ts)
  | .and ts => .and (plains ts)
  | .settings op a b => .settings op a b
  | .const op a c => .const op a c
  | .quick op a c => .const op a (UInt8.ofNat c)

def plains : List Cond → List Cond
  | [] => []
  | t :: ts => plain t :: plains ts

end

mutual

theorem plain_holds (n : Nat) (v : List Nat) : (c : Cond) → c.Ok n → (plain c).holds v = c.holds v
  | .or ts, h => by rw [plain, Cond.holds, Cond.holds]; exact (plains_holds n v ts h.2.2).1
  | .and ts, h => by rw [plain, Cond.holds, Cond.holds]; exact (plains_holds n v ts h.2.2).2
  | .settings op a b, _ => rfl
  | .const op a c, _ => rfl
  | .quick op a c, h => by
    rw [plain, Cond.holds, Cond.holds]
    congr 1
    have := h.2.1
    simp; omega

theorem plains_holds (n : Nat) (v : List Nat) : (ts : List Cond) → Cond.AllOk n ts →
    Cond.anyHolds v (plains ts) = Cond.anyHolds v ts ∧ Cond.allHold v (plains ts) = Cond.allHold v ts
  | [], _ => ⟨rfl, rfl⟩
  | t :: ts, h => by
    have h1 := plain_holds n v t h.1
    have h2 := plains_holds n v ts h.2
    simp [plains, Cond.anyHolds, Cond.allHold, h1, h2.1, h2.2]

end

/-- A comparison, or a group in parentheses. -/
theorem sub_cases (n : Nat) (c : Cond) (h : c.Ok n) :
    (∃ op a hash b, b < 256 ∧ c.sub = leafText op a hash b ∧
      plain c = if hash then .settings op a (UInt8.ofNat b) else .const op a (UInt8.ofNat b)) ∨
    ∃ sep ts, 2 ≤ ts.length ∧ Cond.AllOk n ts ∧ c.sub = [40] ++ Cond.joined sep ts ++ [41] ∧
      ((c = .or ts ∧ sep = [32, 79, 82, 32]) ∨ (c = .and ts ∧ sep = [32, 65, 78, 68, 32])) := by
  cases c with
  | or ts => exact .inr ⟨_, ts, h.1, h.2.2, rfl, .inl ⟨rfl, rfl⟩⟩
  | and ts => exact .inr ⟨_, ts, h.1, h.2.2, rfl, .inr ⟨rfl, rfl⟩⟩
  | settings op a b =>
    exact .inl ⟨op, a, true, b.toNat, UInt8.toNat_lt b, by simp [Cond.sub, leafText], by simp [plain]⟩
  | const op a b =>
    exact .inl ⟨op, a, false, b.toNat, UInt8.toNat_lt b, by simp [Cond.sub, leafText], by simp [plain]⟩
  | quick op a b =>
    exact .inl ⟨op, a, false, b, by have := h.2.1; omega, by simp [Cond.sub, leafText], by simp [plain]⟩

/-- What comes between terms. -/
def Sep (sep : Bytes) : Prop := sep = [32, 79, 82, 32] ∨ sep = [32, 65, 78, 68, 32]

/-- Text after the last term. -/
def Ends (l : Bytes) : Prop := l = [] ∨ ∃ r, l = 41 :: r

theorem Ends.noDigit {l : Bytes} (h : Ends l) : NoDigit l := by
  rcases h with rfl | ⟨r, rfl⟩
  · exact noDigit_nil
  · exact noDigit_cons (by decide)

mutual

theorem sub_inj (n : Nat) : (c c' : Cond) → c.Ok n → c'.Ok n → (x y : Bytes) → NoDigit x → NoDigit y →
    c.sub ++ x = c'.sub ++ y → plain c = plain c' ∧ x = y
  | .or ts, c', h, h', x, y, hx, hy, e => by
    rcases sub_cases n c' h' with ⟨op, a, hash, b, hb, hs, hp⟩ | ⟨sep, ts', h2, hok, hs, hc⟩
    · rw [hs] at e; simp [Cond.sub, leafText, Cond.leftText] at e
    · rw [hs, Cond.sub] at e
      simp only [List.append_assoc, List.cons_append, List.nil_append, List.cons.injEq, true_and] at e
      have hsep : Sep sep := hc.elim (fun h => .inl h.2) fun h => .inr h.2
      obtain ⟨q1, q2, q3⟩ := terms_inj n ts ts' h.2.2 hok (by have := h.1; omega) (by omega) _ sep (.inl rfl) hsep
        _ _ (.inr ⟨x, rfl⟩) (.inr ⟨y, rfl⟩) e
      have q3 := q3 h.1
      rcases hc with ⟨rfl, h5⟩ | ⟨rfl, h5⟩
      · simp at q2; exact ⟨by rw [plain, plain, q1], q2⟩
      · rw [h5] at q3; simp at q3
  | .and ts, c', h, h', x, y, hx, hy, e => by
    rcases sub_cases n c' h' with ⟨op, a, hash, b, hb, hs, hp⟩ | ⟨sep, ts', h2, hok, hs, hc⟩
    · rw [hs] at e; simp [Cond.sub, leafText, Cond.leftText] at e
    · rw [hs, Cond.sub] at e
      simp only [List.append_assoc, List.cons_append, List.nil_append, List.cons.injEq, true_and] at e
      have hsep : Sep sep := hc.elim (fun h => .inl h.2) fun h => .inr h.2
      obtain ⟨q1, q2, q3⟩ := terms_inj n ts ts' h.2.2 hok (by have := h.1; omega) (by omega) _ sep (.inr rfl) hsep
        _ _ (.inr ⟨x, rfl⟩) (.inr ⟨y, rfl⟩) e
      have q3 := q3 h.1
      rcases hc with ⟨rfl, h5⟩ | ⟨rfl, h5⟩
      · rw [h5] at q3; simp at q3
      · simp at q2; exact ⟨by rw [plain, plain, q1], q2⟩
  | .settings op a b, c', h, h', x, y, hx, hy, e => leaf_case n _ c' h h' x y hx hy e (by simp) (by simp)
  | .const op a b, c', h, h', x, y, hx, hy, e => leaf_case n _ c' h h' x y hx hy e (by simp) (by simp)
  | .quick op a b, c', h, h', x, y, hx, hy, e => leaf_case n _ c' h h' x y hx hy e (by simp) (by simp)

theorem leaf_case (n : Nat) (c c' : Cond) (h : c.Ok n) (h' : c'.Ok n) (x y : Bytes) (hx : NoDigit x) (hy : NoDigit y)
    (e : c.sub ++ x = c'.sub ++ y) (hor : ∀ ts, c ≠ .or ts) (hand : ∀ ts, c ≠ .and ts) : plain c = plain c' ∧ x = y := by
  rcases sub_cases n c h with ⟨op, a, hash, b, hb, hs, hp⟩ | ⟨sep, ts, h2, hok, hs, hc⟩
  · rcases sub_cases n c' h' with ⟨op', a', hash', b', hb', hs', hp'⟩ | ⟨sep', ts', h2', hok', hs', hc'⟩
    · rw [hs, hs'] at e
      obtain ⟨rfl, rfl, rfl, rfl, q⟩ := leaf_inj hb hb' hx hy e
      exact ⟨by rw [hp, hp'], q⟩
    · rw [hs, hs'] at e; simp [leafText, Cond.leftText] at e
  · rcases hc with ⟨hc, _⟩ | ⟨hc, _⟩
    · exact absurd hc (hor ts)
    · exact absurd hc (hand ts)

theorem terms_inj (n : Nat) : (ts ts' : List Cond) → Cond.AllOk n ts → Cond.AllOk n ts' → 1 ≤ ts.length → 1 ≤ ts'.length →
    (sep sep' : Bytes) → Sep sep → Sep sep' → (x y : Bytes) → Ends x → Ends y →
    Cond.joined sep ts ++ x = Cond.joined sep' ts' ++ y →
      plains ts = plains ts' ∧ x = y ∧ (2 ≤ ts.length → sep = sep')
  | [], _, _, _, h1, _, _, _, _, _, _, _, _, _, _ => by simp at h1
  | t :: ts, [], _, _, _, h1, _, _, _, _, _, _, _, _, _ => by simp at h1
  | t :: ts, t' :: ts', hok, hok', _, _, sep, sep', hs, hs', x, y, hx, hy, e => by
    rw [Cond.joined, Cond.joined, List.append_assoc, List.append_assoc, List.append_assoc, List.append_assoc] at e
    have hnd : ∀ (sep : Bytes), Sep sep → ∀ (us : List Cond) (z : Bytes), Ends z →
        NoDigit ((if us = [] then [] else sep) ++ (Cond.joined sep us ++ z)) := by
      intro sep hs us z hz
      cases us with
      | nil => simpa [Cond.joined] using hz.noDigit
      | cons u us =>
        rcases hs with rfl | rfl <;> exact noDigit_cons (by decide)
    obtain ⟨q1, q2⟩ := sub_inj n t t' hok.1 hok'.1 _ _ (hnd sep hs ts x hx) (hnd sep' hs' ts' y hy) e
    have hend : ∀ z, Ends z → ∀ w : Bytes, z ≠ 32 :: w := by
      rintro z (rfl | ⟨r, rfl⟩) w h <;> simp at h
    cases ts with
    | nil =>
      cases ts' with
      | nil => exact ⟨by simp [plains, q1], by simpa [Cond.joined] using q2, by simp⟩
      | cons u us =>
        exfalso
        simp only [Cond.joined, if_true, List.nil_append, List.cons_ne_nil, if_false] at q2
        rcases hs' with rfl | rfl <;> exact hend x hx _ q2
    | cons u us =>
      cases ts' with
      | nil =>
        exfalso
        simp only [Cond.joined, if_true, List.nil_append, List.cons_ne_nil, if_false] at q2
        rcases hs with rfl | rfl <;> exact hend y hy _ q2.symm
      | cons u' us' =>
        simp only [List.cons_ne_nil, if_false] at q2
        have hss : sep = sep' := by
          rcases hs with rfl | rfl <;> rcases hs' with rfl | rfl <;> simp at q2 <;> rfl
        subst hss
        obtain ⟨r1, r2, _⟩ := terms_inj n (u :: us) (u' :: us') hok.2 hok'.2 (by simp) (by simp) sep sep hs hs x y hx hy
          (List.append_cancel_left q2)
        exact ⟨by rw [plains, r1, q1, ← plains], r2, fun _ => rfl⟩

end

/-- The text determines the meaning. -/
theorem text_inj (n : Nat) (c c' : Cond) (h : c.Ok n) (h' : c'.Ok n) (e : c.text = c'.text) : plain c = plain c' := by
  have norm : ∀ c : Cond, c.Ok n → (∃ sep ts, Sep sep ∧ 2 ≤ ts.length ∧ Cond.AllOk n ts ∧ c.text = Cond.joined sep ts ∧
      ((c = .or ts ∧ sep = [32, 79, 82, 32]) ∨ (c = .and ts ∧ sep = [32, 65, 78, 68, 32]))) ∨
      (c.text = c.sub ∧ c.sub = Cond.joined [32, 79, 82, 32] [c] ∧ plain c = plain c) := by
    intro c h
    cases c with
    | or ts => exact .inl ⟨_, ts, .inl rfl, h.1, h.2.2, rfl, .inl ⟨rfl, rfl⟩⟩
    | and ts => exact .inl ⟨_, ts, .inr rfl, h.1, h.2.2, rfl, .inr ⟨rfl, rfl⟩⟩
    | settings => exact .inr ⟨rfl, by simp [Cond.joined], rfl⟩
    | const => exact .inr ⟨rfl, by simp [Cond.joined], rfl⟩
    | quick => exact .inr ⟨rfl, by simp [Cond.joined], rfl⟩
  rcases norm c h with ⟨sep, ts, hs, h2, hok, ht, hc⟩ | ⟨h1, h2, _⟩
  · rcases norm c' h' with ⟨sep', ts', hs', h2', hok', ht', hc'⟩ | ⟨h1', h2', _⟩
    · rw [ht, ht'] at e
      obtain ⟨q1, _, q3⟩ := terms_inj n ts ts' hok hok' (by omega) (by omega) sep sep' hs hs' [] [] (.inl rfl) (.inl rfl)
        (by simpa using e)
      have q3 := q3 h2
      rcases hc with ⟨rfl, a⟩ | ⟨rfl, a⟩ <;> rcases hc' with ⟨rfl, b⟩ | ⟨rfl, b⟩
      · rw [plain, plain, q1]
      · rw [a, b] at q3; simp at q3
      · rw [a, b] at q3; simp at q3
      · rw [plain, plain, q1]
    · rw [ht, h1', h2'] at e
      obtain ⟨q1, _, _⟩ := terms_inj n ts [c'] hok ⟨h', trivial⟩ (by omega) (by simp) sep _ hs (.inl rfl) [] [] (.inl rfl)
        (.inl rfl) (by simpa using e)
      cases ts with
      | nil => simp at h2
      | cons t ts => cases ts with
        | nil => simp at h2
        | cons u us => simp [plains] at q1
  · rcases norm c' h' with ⟨sep', ts', hs', h2', hok', ht', hc'⟩ | ⟨h1', h2', _⟩
    · rw [ht', h1, h2] at e
      obtain ⟨q1, _, _⟩ := terms_inj n [c] ts' ⟨h, trivial⟩ hok' (by simp) (by omega) _ sep' (.inl rfl) hs' [] [] (.inl rfl)
        (.inl rfl) (by simpa using e)
      cases ts' with
      | nil => simp at h2'
      | cons t ts => cases ts with
        | nil => simp at h2'
        | cons u us => simp [plains] at q1
    · rw [h1, h1'] at e
      exact (sub_inj n c c' h h' [] [] noDigit_nil noDigit_nil (by simpa using e)).1

end ConditionModel

namespace ConditionModel
open Go Helpers Spec

/-! ## Compiling what is printed -/

/-- The printed form of a comparison, as written text. -/
def writtenLeaf (op : Comparison) (a : UInt8) (hash : Bool) (b : Nat) : Written :=
  ⟨decimal a.toNat, 1, op, 1, hash, decimal b⟩

theorem writtenLeaf_text (op : Comparison) (a : UInt8) (hash : Bool) (b : Nat) :
    (writtenLeaf op a hash b).text = leafText op a hash b := by
  cases hash <;> simp [writtenLeaf, Written.text, leafText, Cond.leftText, spaces, List.append_assoc]

theorem writtenLeaf_ok (op : Comparison) (a : UInt8) (hash : Bool) {b : Nat} (hb : b < 256) :
    (writtenLeaf op a hash b).Ok := ⟨Digits_decimal (UInt8.toNat_lt a), Digits_decimal hb⟩

theorem leaf_last (op : Comparison) (a : UInt8) (hash : Bool) {b : Nat} (hb : b < 256) :
    ∃ y c, leafText op a hash b = y ++ [c] ∧ c ≠ 32 := by
  have := (text_trim _ (writtenLeaf_ok op a hash hb)).2
  rwa [writtenLeaf_text] at this

theorem sub_last (n : Nat) (c : Cond) (h : c.Ok n) : ∃ y z, c.sub = y ++ [z] ∧ z ≠ 32 := by
  rcases sub_cases n c h with ⟨op, a, hash, b, hb, hs, _⟩ | ⟨sep, ts, _, _, hs, _⟩
  · rw [hs]; exact leaf_last op a hash hb
  · exact ⟨_, 41, hs, by decide⟩

theorem joined_last (n : Nat) (sep : Bytes) : ∀ ts : List Cond, ts ≠ [] → Cond.AllOk n ts →
    ∃ y z, Cond.joined sep ts = y ++ [z] ∧ z ≠ 32
  | [], h, _ => absurd rfl h
  | [t], _, h => by
    obtain ⟨y, z, hy, hz⟩ := sub_last n t h.1
    exact ⟨y, z, by simp [Cond.joined, hy], hz⟩
  | t :: u :: us, _, h => by
    obtain ⟨y, z, hy, hz⟩ := joined_last n sep (u :: us) (by simp) h.2
    exact ⟨t.sub ++ sep ++ y, z, by rw [Cond.joined, hy]; simp, hz⟩

theorem sub_head (n : Nat) (c : Cond) (h : c.Ok n) : ∃ x r, c.sub = x :: r ∧ x ≠ 32 := by
  rcases sub_cases n c h with ⟨op, a, hash, b, hb, hs, _⟩ | ⟨sep, ts, _, _, hs, _⟩
  · exact ⟨35, _, hs, by decide⟩
  · exact ⟨40, _, hs, by decide⟩

/-- Groups do not compile. -/
theorem group_refused (n : Nat) {sep : Bytes} {ts : List Cond} (hs : Sep sep) (h2 : 2 ≤ ts.length) (hok : Cond.AllOk n ts)
    (fuel : Nat) (data : Bytes) : compile fuel (Cond.joined sep ts) ≠ .ok data := by
  by_cases hlen : 1024 < (Cond.joined sep ts).length
  · obtain ⟨e, he⟩ := compile_long fuel hlen
    rw [he]; simp
  obtain ⟨t, u, us, rfl⟩ : ∃ t u us, ts = t :: u :: us := by
    match ts, h2 with
    | t :: u :: us, _ => exact ⟨t, u, us, rfl⟩
  have hj : Cond.joined sep (t :: u :: us) = t.sub ++ (sep ++ Cond.joined sep (u :: us)) := by
    rw [Cond.joined, if_neg (by simp), List.append_assoc]
  have hm : Trim (Cond.joined sep (t :: u :: us)) := by
    refine ⟨?_, joined_last n sep _ (by simp) hok⟩
    obtain ⟨x, r, hx, h32⟩ := sub_head n t hok.1
    exact ⟨x, _, by rw [hj, hx]; rfl, h32⟩
  have he : Cond.joined sep (t :: u :: us) = spaces 0 ++ (Cond.joined sep (t :: u :: us) ++ spaces 0) := by simp [spaces]
  have hlen' : (spaces 0 ++ (Cond.joined sep (t :: u :: us) ++ spaces 0)).length ≤ 1024 := by rw [← he]; omega
  rw [he]
  rcases sub_cases n t hok.1 with ⟨op, a, hash, b, hb, hst, _⟩ | ⟨sep', ts', _, _, hst, _⟩
  · cases fuel with
    | zero =>
      rw [compile_start hm hlen', appendNextExpr]
      simp
    | succ fuel =>
      have hsep : ∃ r, sep = 32 :: r := by rcases hs with rfl | rfl <;> exact ⟨_, rfl⟩
      obtain ⟨r, hr⟩ := hsep
      rw [compile_outcome hm hlen' fuel (writtenLeaf op a hash b) (writtenLeaf_ok op a hash hb)
        (rest := sep ++ Cond.joined sep (u :: us)) (by rw [hr]; exact noDigit_cons (by decide))
        (by rw [hj, hst, writtenLeaf_text])]
      rw [if_pos (by rw [hr]; simp : sep ++ Cond.joined sep (u :: us) ≠ [])]
      split
      · simp
      split
      · simp
      split
      · simp
      split <;> simp
  · rw [compile_start hm hlen', expr_paren hm hlen' fuel false (r := (Cond.joined sep (t :: u :: us)).tail)
      (by rw [hj, hst]; rfl)]
    simp

end ConditionModel
