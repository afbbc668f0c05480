import Verif.Model.Condition
import Verif.Spec.ConditionText

/-! # Compiling conditions -/

namespace ConditionModel
open Go Helpers Spec

/-! ## Spaces -/

theorem skipLeft_spaces (d : Bytes) (i : Nat) : ∀ (n s : Nat) (x : Bytes), d.drop s = spaces i ++ x → i ≤ n →
    (i = n ∨ ∃ c r, x = c :: r ∧ c ≠ 32) → skipLeft d n s = .ok (s + i) := by
  induction i with
  | zero =>
    intro n s x hd hn h
    cases n with
    | zero => rfl
    | succ n =>
      rcases h with h | ⟨c, r, rfl, hc⟩
      · omega
      have : idx d s = .ok c := by
        rw [idx_eq_ok, ← List.head?_drop, hd]
        simp [spaces]
      rw [skipLeft, this, Res.ok_bind, if_neg hc]
      rfl
  | succ i ih =>
    intro n s x hd hn h
    obtain ⟨n, rfl⟩ : ∃ m, n = m + 1 := ⟨n - 1, by omega⟩
    have : idx d s = .ok 32 := by
      rw [idx_eq_ok, ← List.head?_drop, hd]
      simp [spaces, List.replicate_succ]
    rw [skipLeft, this, Res.ok_bind, if_pos rfl, ih n (s + 1) x _ (by omega) _]
    · congr 1; omega
    · rw [← List.drop_drop, hd]; simp [spaces, List.replicate_succ]
    · rcases h with h | h
      · exact .inl (by omega)
      · exact .inr h

theorem skipRight_spaces (d : Bytes) (j : Nat) : ∀ (e : Nat) (x : Bytes), e ≤ d.length →
    d.take e = x ++ spaces j → (x = [] ∨ ∃ y c, x = y ++ [c] ∧ c ≠ 32) → skipRight d e = .ok x.length := by
  induction j with
  | zero =>
    intro e x he hd h
    simp only [spaces, List.replicate_zero, List.append_nil] at hd
    have hl : e = x.length := by rw [← hd]; simp; omega
    rcases h with h | ⟨y, c, h, hc⟩
    · subst h; cases hl; rfl
    · subst h
      simp at hl
      subst hl
      have : idx d y.length = .ok c := by
        rw [idx_eq_ok]
        have := congrArg (·[y.length]?) hd
        simp only [List.getElem?_take] at this
        simpa using this
      rw [skipRight, this, Res.ok_bind, if_neg hc]
      simp
  | succ j ih =>
    intro e x he hd h
    have hl : e = x.length + (j + 1) := by
      have := congrArg List.length hd
      simp [spaces] at this
      omega
    obtain ⟨e, rfl⟩ : ∃ m, e = m + 1 := ⟨e - 1, by omega⟩
    have hd' : d.take (e + 1) = (x ++ spaces j) ++ [32] := by
      rw [hd, spaces, List.replicate_succ', spaces, List.append_assoc]
    have h32 : idx d e = .ok 32 := by
      rw [idx_eq_ok]
      have := congrArg (·[e]?) hd'
      simp only [List.getElem?_take] at this
      rw [if_pos (by omega)] at this
      rw [this, List.getElem?_append_right (by simp [spaces]; omega)]
      have : e - (x ++ spaces j).length = 0 := by simp [spaces]; omega
      rw [this]
      rfl
    rw [skipRight, h32, Res.ok_bind, if_pos rfl]
    refine ih e x (by omega) ?_ h
    have := congrArg (List.take e) hd'
    rw [List.take_take, Nat.min_eq_left (by omega)] at this
    rw [this, List.take_append_of_le_length (by simp [spaces]; omega), List.take_of_length_le]
    simp [spaces]; omega

/-- Begins and ends with something else than a space. -/
def Trim (m : Bytes) : Prop := (∃ c r, m = c :: r ∧ c ≠ 32) ∧ ∃ y c, m = y ++ [c] ∧ c ≠ 32

theorem Trim.pos {m : Bytes} (h : Trim m) : 0 < m.length := by
  obtain ⟨⟨c, r, rfl, _⟩, _⟩ := h; simp

/-- Nothing is left to trim. -/
theorem trim_again {d m p q : Bytes} (hd : d = p ++ (m ++ q)) (hm : Trim m) (fuel : Nat) :
    trimLoop d (fuel + 1) p.length (p.length + m.length) = .ok (p.length, p.length + m.length) := by
  have := hm.pos
  have h1 : skipLeft d (p.length + m.length - p.length) p.length = .ok p.length := by
    obtain ⟨⟨c, r, rfl, hc⟩, _⟩ := hm
    exact skipLeft_spaces d 0 _ _ (c :: r ++ q) (by rw [hd]; simp [spaces]) (by omega)
      (.inr ⟨c, r ++ q, rfl, hc⟩)
  have h2 : skipRight d (p.length + m.length) = .ok (p.length + m.length) := by
    obtain ⟨_, ⟨y, c, rfl, hc⟩⟩ := hm
    have := skipRight_spaces d 0 (p.length + (y ++ [c]).length) (p ++ (y ++ [c])) (by rw [hd]; simp)
      (by
        rw [hd, ← List.append_assoc, ← List.length_append, List.take_left]
        simp [spaces]) (.inr ⟨p ++ y, c, by simp, hc⟩)
    rw [this, List.length_append]
  rw [trimLoop, if_pos (by omega), h1, Res.ok_bind, h2, Res.ok_bind, if_neg (by simp)]
  rfl

/-- Trimming a definition. -/
theorem trim_first (i j : Nat) {m : Bytes} (hm : Trim m) :
    trimSpaces (spaces i ++ (m ++ spaces j)) 0 (spaces i ++ (m ++ spaces j)).length = .ok (i, i + m.length) := by
  have hp := hm.pos
  have hi : (spaces i).length = i := by simp [spaces]
  have h1 : skipLeft (spaces i ++ (m ++ spaces j)) ((spaces i ++ (m ++ spaces j)).length - 0) 0 = .ok i := by
    obtain ⟨⟨c, r, rfl, hc⟩, _⟩ := hm
    have := skipLeft_spaces (spaces i ++ (c :: r ++ spaces j)) i ((spaces i ++ (c :: r ++ spaces j)).length - 0) 0
      (c :: r ++ spaces j) rfl (by simp [spaces]) (.inr ⟨c, r ++ spaces j, rfl, hc⟩)
    rwa [Nat.zero_add] at this
  have h2 : skipRight (spaces i ++ (m ++ spaces j)) (spaces i ++ (m ++ spaces j)).length = .ok (i + m.length) := by
    obtain ⟨_, ⟨y, c, rfl, hc⟩⟩ := hm
    have := skipRight_spaces (spaces i ++ (y ++ [c] ++ spaces j)) j _ (spaces i ++ (y ++ [c])) (Nat.le_refl _)
      (by rw [List.take_length]; simp) (.inr ⟨spaces i ++ y, c, by simp, hc⟩)
    rw [this, List.length_append, hi]
  have h3 := trim_again (p := spaces i) (q := spaces j) rfl hm
  rw [hi] at h3
  rw [trimSpaces, trimLoop, if_pos (by simp; omega), h1, Res.ok_bind, h2, Res.ok_bind]
  split
  · exact h3 1
  · rfl

/-- Definitions that are only spaces. -/
theorem trim_empty (i : Nat) : ∃ s e, trimSpaces (spaces i) 0 (spaces i).length = .ok (s, e) ∧ e ≤ s := by
  cases i with
  | zero => exact ⟨0, 0, rfl, Nat.le_refl _⟩
  | succ i =>
    have h1 : skipLeft (spaces (i + 1)) ((spaces (i + 1)).length - 0) 0 = .ok (i + 1) := by
      have := skipLeft_spaces (spaces (i + 1)) (i + 1) ((spaces (i + 1)).length - 0) 0 [] (by simp)
        (by simp [spaces]) (.inl (by simp [spaces]))
      rwa [Nat.zero_add] at this
    have h2 : skipRight (spaces (i + 1)) (spaces (i + 1)).length = .ok 0 :=
      skipRight_spaces (spaces (i + 1)) (i + 1) _ [] (Nat.le_refl _) (by simp) (.inl rfl)
    refine ⟨i + 1, 0, ?_, by omega⟩
    rw [trimSpaces, trimLoop, if_pos (by simp [spaces]), h1, Res.ok_bind, h2, Res.ok_bind, if_pos (by simp), trimLoop,
      if_neg (by omega)]

theorem split_left (d : Bytes) : ∃ i x, d = spaces i ++ x ∧ (x = [] ∨ ∃ c r, x = c :: r ∧ c ≠ 32) := by
  induction d with
  | nil => exact ⟨0, [], rfl, .inl rfl⟩
  | cons c d ih =>
    by_cases hc : c = 32
    · obtain ⟨i, x, hd, hx⟩ := ih
      exact ⟨i + 1, x, by rw [hd, hc]; simp [spaces, List.replicate_succ], hx⟩
    · exact ⟨0, c :: d, by simp [spaces], .inr ⟨c, d, rfl, hc⟩⟩

/-- Every definition is empty but for spaces, or has spaces around something. -/
theorem split_spaces (d : Bytes) : (∃ i, d = spaces i) ∨ ∃ i m j, d = spaces i ++ (m ++ spaces j) ∧ Trim m := by
  obtain ⟨i, x, hd, hx⟩ := split_left d
  rcases hx with rfl | ⟨c, r, hx, hc⟩
  · exact .inl ⟨i, by simpa using hd⟩
  obtain ⟨j, y, hy, hy'⟩ := split_left x.reverse
  have hx2 : x = y.reverse ++ spaces j := by
    have := congrArg List.reverse hy
    simpa [spaces] using this
  rcases hy' with rfl | ⟨c', r', hy', hc'⟩
  · exfalso
    rw [hx] at hx2
    cases j with
    | zero => simp [spaces] at hx2
    | succ j => simp [spaces, List.replicate_succ] at hx2; exact hc hx2.1
  · refine .inr ⟨i, y.reverse, j, by rw [hd, hx2], ?_, r'.reverse, c', by simp [hy'], hc'⟩
    cases hz : y.reverse with
    | nil => simp [hy'] at hz
    | cons z zs =>
      rw [hx2, hz] at hx
      simp only [List.cons_append, List.cons.injEq] at hx
      exact ⟨z, zs, rfl, by rw [hx.1]; exact hc⟩

/-! ## The regular expression -/

theorem takeWhile_append {p : UInt8 → Bool} {l x : Bytes} (hl : ∀ c ∈ l, p c = true)
    (hx : ∀ c, x.head? = some c → p c = false) : (l ++ x).takeWhile p = l ∧ (l ++ x).dropWhile p = x := by
  induction l with
  | nil =>
    cases x with
    | nil => simp
    | cons c x => simp [hx c rfl]
  | cons c l ih =>
    have := ih fun c h => hl c (by simp [h])
    simp [hl c (by simp), this]

theorem isDigit_iff (c : UInt8) : isDigit c = true ↔ 48 ≤ c ∧ c ≤ 57 := by simp [isDigit]

theorem spaces_all (n : Nat) : ∀ c ∈ spaces n, (c == 32) = true := by
  intro c h; simp [spaces] at h; simp [h.2]

theorem takeWhile_all (p : UInt8 → Bool) (l : Bytes) : ∀ c ∈ l.takeWhile p, p c = true := by
  intro c h
  induction l with
  | nil => simp at h
  | cons x l ih =>
    rw [List.takeWhile_cons] at h
    split at h
    · rcases List.mem_cons.1 h with rfl | h
      · assumption
      · exact ih h
    · simp at h

theorem dropWhile_head (p : UInt8 → Bool) (l : Bytes) : ∀ c, (l.dropWhile p).head? = some c → p c = false := by
  intro c h
  induction l with
  | nil => simp at h
  | cons x l ih =>
    rw [List.dropWhile_cons] at h
    split at h
    · exact ih h
    · simp at h; subst h; simpa using ‹¬ p x = true›

theorem takeWhile_spaces (l : Bytes) : ∃ n, l = spaces n ++ l.dropWhile (· == 32) := by
  refine ⟨(l.takeWhile (· == 32)).length, ?_⟩
  have : l.takeWhile (· == 32) = spaces (l.takeWhile (· == 32)).length := by
    rw [spaces, List.eq_replicate_iff]
    exact ⟨rfl, fun c h => by simpa using takeWhile_all _ _ c h⟩
  rw [← this, List.takeWhile_append_dropWhile]

/-- Text that does not begin with a digit. -/
def NoDigit (l : Bytes) : Prop := ∀ c, l.head? = some c → isDigit c = false

theorem matchRight_some {hash : Bool} {right rest : Bytes} (gap : Nat) (hr : Written.Digits right) (hn : NoDigit rest) :
    matchRight (spaces gap ++ ((if hash then [35] else []) ++ (right ++ rest))) = some (hash, right, rest) := by
  obtain ⟨c, r, hcr⟩ : ∃ c r, right = c :: r := by
    cases right with
    | nil => exact absurd rfl hr.1
    | cons c r => exact ⟨c, r, rfl⟩
  have hc := hr.2 c (by simp [hcr])
  have hc32 : c ≠ 32 := by rintro rfl; exact absurd hc.1 (by decide)
  have hc35 : c ≠ 35 := by rintro rfl; exact absurd hc.1 (by decide)
  have h1 : (spaces gap ++ ((if hash then [35] else []) ++ (right ++ rest))).dropWhile (· == 32) =
      (if hash then [35] else []) ++ (right ++ rest) := by
    refine (takeWhile_append (spaces_all gap) ?_).2
    intro x hx
    cases hash
    · simp [hcr] at hx; subst hx; simpa using hc32
    · simp at hx; subst hx; rfl
  have h2 := takeWhile_append (p := isDigit) (l := right) (x := rest)
    (fun c h => (isDigit_iff c).2 (hr.2 c h)) hn
  have h3 : ((if hash then [35] else []) ++ (right ++ rest)).head? == some 35 ↔ hash = true := by
    cases hash
    · simp [hcr, hc35]
    · simp
  unfold matchRight
  simp only [h1]
  cases hash
  · have : (([] ++ (right ++ rest) : Bytes).head? == some 35) = false := by
      cases h : (([] ++ (right ++ rest) : Bytes).head? == some 35)
      · rfl
      · simp [hcr, hc35] at h
    simp only [Bool.false_eq_true, if_false, this]
    rw [List.nil_append, h2.1, h2.2, if_neg hr.1]
  · simp only [if_true]
    rw [show (([35] ++ (right ++ rest) : Bytes).head? == some 35) = true from by simp]
    simp only [if_true]
    rw [show ([35] ++ (right ++ rest) : Bytes).drop 1 = right ++ rest from rfl, h2.1, h2.2, if_neg hr.1]

theorem matchRight_none {c : UInt8} {l : Bytes} (h1 : c ≠ 32) (h2 : c ≠ 35) (h3 : isDigit c = false) :
    matchRight (c :: l) = none := by
  unfold matchRight
  simp [h1, h2, h3]

theorem matchRight_inv {t : Bytes} {hash : Bool} {right rest : Bytes} (h : matchRight t = some (hash, right, rest)) :
    ∃ gap, t = spaces gap ++ ((if hash then [35] else []) ++ (right ++ rest)) ∧ Written.Digits right ∧ NoDigit rest := by
  unfold matchRight at h
  simp only at h
  obtain ⟨gap, hg⟩ := takeWhile_spaces t
  generalize t.dropWhile (· == 32) = u at h hg
  subst hg
  by_cases hne : (if u.head? == some 35 then u.drop 1 else u).takeWhile isDigit = []
  · rw [if_pos hne] at h; cases h
  · rw [if_neg hne] at h
    simp only [Option.some.injEq, Prod.mk.injEq] at h
    obtain ⟨h1, h2, h3⟩ := h
    refine ⟨gap, ?_, ⟨by rw [← h2]; exact hne, fun c hc => (isDigit_iff c).1 (by
      rw [← h2] at hc; exact takeWhile_all _ _ c hc)⟩, by
      intro c hc; rw [← h3] at hc; exact dropWhile_head _ _ c hc⟩
    rw [← h2, ← h3, List.takeWhile_append_dropWhile, ← h1]
    cases hu : (u.head? == some 35)
    · simp
    · simp only [if_true]
      cases u with
      | nil => simp at hu
      | cons x u => simp at hu; subst hu; simp

theorem symbol_head (op : Comparison) : ∃ c r, op.symbol = c :: r ∧ c ≠ 32 ∧ isDigit c = false := by
  cases op <;> exact ⟨_, _, rfl, by decide, by decide⟩

/-- A comparison is matched, up to the end of its last digits. -/
theorem match_text (w : Written) (hw : w.Ok) {rest : Bytes} (hn : NoDigit rest) :
    termRegexp (w.text ++ rest) = some ⟨w.left, w.op.symbol, w.hash, w.right, rest⟩ := by
  obtain ⟨left, gap1, op, gap2, hash, right⟩ := w
  have hl := hw.left
  have hr := hw.right
  simp only at hl hr
  have ht : Written.text ⟨left, gap1, op, gap2, hash, right⟩ ++ rest =
      35 :: (left ++ (spaces gap1 ++ (op.symbol ++ (spaces gap2 ++ ((if hash then [35] else []) ++ (right ++ rest)))))) := by
    simp [Written.text, List.append_assoc]
  have hm := matchRight_some (hash := hash) gap2 hr hn
  generalize hX : spaces gap2 ++ ((if hash then [35] else []) ++ (right ++ rest)) = X at ht hm
  obtain ⟨c0, r0, hs, hs1, hs2⟩ := symbol_head op
  have hd := takeWhile_append (p := isDigit) (l := left) (x := spaces gap1 ++ (op.symbol ++ X))
    (fun c h => (isDigit_iff c).2 (hl.2 c h)) (by
      intro c hc
      cases gap1 with
      | zero => simp [spaces, hs] at hc; subst hc; exact hs2
      | succ n => simp [spaces, List.replicate_succ] at hc; subst hc; rfl)
  have hsp := (takeWhile_append (p := (· == 32)) (l := spaces gap1) (x := op.symbol ++ X)
    (spaces_all gap1) (by
      intro c hc
      simp [hs] at hc; subst hc; simpa using hs1)).2
  have hne : ∀ l : Bytes, matchRight (61 :: l) = none := fun l => matchRight_none (by decide) (by decide) (by decide)
  rw [ht]
  unfold termRegexp
  simp only [hd.1, hd.2, hsp, if_neg hl.1]
  cases op <;> simp [Comparison.symbol, List.findSome?, hm, hne]

/-- What is matched is a comparison. -/
theorem match_inv {t : Bytes} {m : Match} (h : termRegexp t = some m) :
    ∃ w : Written, w.Ok ∧ t = w.text ++ m.rest ∧ NoDigit m.rest ∧ m.left = w.left ∧ m.op = w.op.symbol ∧
      m.hash = w.hash ∧ m.right = w.right := by
  unfold termRegexp at h
  split at h
  · rename_i t
    simp only at h
    split at h
    · cases h
    rename_i hne
    obtain ⟨gap1, hg⟩ := takeWhile_spaces (t.dropWhile isDigit)
    have ht := List.takeWhile_append_dropWhile (p := isDigit) (l := t)
    rw [hg] at ht
    generalize (t.dropWhile isDigit).dropWhile (· == 32) = u at h ht
    rw [List.findSome?_eq_some_iff] at h
    obtain ⟨l1, op, l2, hl, hop, -⟩ := h
    split at hop
    · rename_i hpre
      obtain ⟨v, rfl⟩ := List.isPrefixOf_iff_prefix.1 hpre
      rw [List.drop_left] at hop
      split at hop
      · rename_i hash right rest hmr
        simp only [Option.some.injEq] at hop
        obtain ⟨gap2, hv, hr, hn⟩ := matchRight_inv hmr
        have hmem : op ∈ [[61, 61], [33, 61], [60], [62], [60, 61], [62, 61]] := by
          rw [hl]; simp
        obtain ⟨c, hc⟩ : ∃ c : Comparison, op = c.symbol := by
          simp only [List.mem_cons, List.not_mem_nil, or_false] at hmem
          rcases hmem with h | h | h | h | h | h
          · exact ⟨.eq, h⟩
          · exact ⟨.ne, h⟩
          · exact ⟨.lt, h⟩
          · exact ⟨.gt, h⟩
          · exact ⟨.le, h⟩
          · exact ⟨.ge, h⟩
        subst hop
        refine ⟨⟨t.takeWhile isDigit, gap1, c, gap2, hash, right⟩,
          ⟨⟨hne, fun c hc => (isDigit_iff c).1 (takeWhile_all _ _ c hc)⟩, hr⟩, ?_, hn, rfl, hc, rfl, rfl⟩
        simp only [Written.text]
        rw [← hc]
        rw [hv] at ht
        conv => lhs; rw [← ht]
        simp [List.append_assoc]
      · cases hop
    · cases hop
  · cases h

/-! ## Terms -/

theorem text_pos (w : Written) : 0 < w.text.length := by simp [Written.text]

theorem atoi_small {l : Bytes} (h : number l < 2 ^ 63) : atoi l = .ok (number l) := if_neg (by simpa [number] using h)
theorem atoi_large {l : Bytes} (h : 2 ^ 63 ≤ number l) : atoi l = .panic "broken code" :=
  if_pos (by simpa [number] using h)

theorem code_bits : (∀ n < 4, ∀ c < 32, (96 + 32 * n) ||| c = 96 + 32 * n + c) ∧
    (∀ n < 6, 64 ||| n = 64 + n) ∧ ∀ n < 6, 80 ||| n = 64 + 16 + n := by decide

theorem opCode_symbol (op : Comparison) : opCode op.symbol = .ok op.code := by cases op <;> rfl

theorem quickCode_symbol {op : Comparison} (h : op.code < 4) : quickCode op.symbol = .ok (96 + 32 * op.code) := by
  cases op <;> first | rfl | (exact absurd h (by decide))

theorem symbol_quick (op : Comparison) : (op.symbol ≠ [60, 61] ∧ op.symbol ≠ [62, 61]) ↔ op.code < 4 := by
  cases op <;> decide

/-- All the outcomes for a comparison. -/
theorem term_outcome {d data t rest : Bytes} {s e : Nat} (w : Written) (hw : w.Ok) (hn : NoDigit rest)
    (hs : slice d s e = .ok t) (ht : t = w.text ++ rest) :
    appendNextTerm d data s e =
      if 2 ^ 63 ≤ number w.left then .panic "broken code"
      else if 254 < number w.left then .err "setting out of range"
      else if 2 ^ 63 ≤ number w.right then .panic "broken code"
      else if ¬ w.InRange then .err "out of range"
      else .ok (s + w.text.length, e, data ++ w.cond.bytes.take 2) := by
  rw [appendNextTerm, hs, Res.ok_bind, ht, match_text w hw hn]
  simp only
  by_cases h1 : 2 ^ 63 ≤ number w.left
  · rw [atoi_large h1, if_pos h1]; rfl
  rw [if_neg h1, atoi_small (by omega), Res.ok_bind]
  by_cases h2 : 254 < number w.left
  · rw [if_pos h2, if_pos h2]
  rw [if_neg h2, if_neg h2]
  by_cases h3 : 2 ^ 63 ≤ number w.right
  · rw [atoi_large h3, if_pos h3]; rfl
  rw [if_neg h3, atoi_small (by omega), Res.ok_bind]
  by_cases h4 : w.InRange
  · have h4' := h4.2
    have h5 : ¬ (number w.right > 254 ∧ (w.hash = true ∨ number w.right > 255)) := by
      intro h
      cases hh : w.hash
      · rw [hh] at h h4'; simp at h h4'; omega
      · rw [hh] at h4'; simp at h4'; omega
    rw [if_neg h5, if_neg (Classical.not_not.2 h4)]
    have hl : (w.text ++ rest).length - rest.length = w.text.length := by simp
    rw [hl]
    by_cases hq : w.hash = false ∧ number w.right < 32 ∧ w.op.symbol ≠ [60, 61] ∧ w.op.symbol ≠ [62, 61]
    · have hop := (symbol_quick w.op).1 hq.2.2
      rw [if_pos hq, quickCode_symbol hop, Res.ok_bind, code_bits.1 _ hop _ hq.2.1]
      have : w.cond = .quick w.op (UInt8.ofNat (number w.left)) (number w.right) := by
        rw [Written.cond, if_neg (by simp [hq.1]), if_pos ⟨hq.2.1, hop⟩]
      rw [this]
      rfl
    · rw [if_neg hq, opCode_symbol, Res.ok_bind]
      have hc := w.op.code
      have hc6 : w.op.code < 6 := by cases w.op <;> decide
      cases hh : w.hash
      · have : w.cond = .const w.op (UInt8.ofNat (number w.left)) (UInt8.ofNat (number w.right)) := by
          rw [Written.cond, if_neg (by simp [hh]), if_neg]
          exact fun h => hq ⟨hh, h.1, (symbol_quick w.op).2 h.2⟩
        rw [this, code_bits.2.2 _ hc6]
        rfl
      · have : w.cond = .settings w.op (UInt8.ofNat (number w.left)) (UInt8.ofNat (number w.right)) := by
          rw [Written.cond, if_pos hh]
        rw [this, code_bits.2.1 _ hc6]
        rfl
  · have h5 : number w.right > 254 ∧ (w.hash = true ∨ number w.right > 255) := by
      have := fun h => h4 ⟨by omega, h⟩
      cases hh : w.hash
      · rw [hh] at this; simp at this; exact ⟨by omega, .inr this⟩
      · rw [hh] at this; simp at this; exact ⟨by omega, .inl rfl⟩
    rw [if_pos h5, if_pos h4]

/-! ## Definitions -/

theorem slice_middle (p m q : Bytes) : slice (p ++ (m ++ q)) p.length (p.length + m.length) = .ok m := by
  rw [slice, if_pos ⟨by omega, by simp⟩, ← List.append_assoc, ← List.length_append, List.take_left]
  simp

theorem slice_start (d : Bytes) {s : Nat} (h : s ≤ d.length) : slice d 0 s = .ok (d.take s) := by
  rw [slice, if_pos ⟨by omega, h⟩]; rfl

section
variable {i j : Nat} {m : Bytes} (hm : Trim m) (hlen : (spaces i ++ (m ++ spaces j)).length ≤ 1024)
include hm hlen

theorem compile_start (fuel : Nat) : compile fuel (spaces i ++ (m ++ spaces j)) = (do
    let (s, e, data) ← appendNextExpr (spaces i ++ (m ++ spaces j)) fuel [] i (i + m.length) false
    if s < e then do
      let _ ← slice (spaces i ++ (m ++ spaces j)) 0 s
      .err "definition expected to end"
    else if s ≠ e then .panic "broken code"
    else return data) := by
  have := hm.pos
  rw [compile, if_neg (by omega), trim_first i j hm, Res.ok_bind]
  simp only
  rw [if_neg (by omega)]

theorem expr_start (fuel : Nat) (inner : Bool) {c : UInt8} {r : Bytes} (hc : m = c :: r) (h40 : c ≠ 40)
    (h : inner = true ∨ c = 35) :
    appendNextExpr (spaces i ++ (m ++ spaces j)) (fuel + 1) [] i (i + m.length) inner =
      appendNextTerm (spaces i ++ (m ++ spaces j)) [] i (i + m.length) := by
  have hp := hm.pos
  have h1 := trim_again (p := spaces i) (q := spaces j) rfl hm 2
  have hi : (spaces i).length = i := by simp [spaces]
  rw [hi] at h1
  have h2 : idx (spaces i ++ (m ++ spaces j)) i = .ok c := by
    rw [idx_eq_ok, List.getElem?_append_right (by omega), hi, Nat.sub_self, hc]; rfl
  rw [appendNextExpr, trimSpaces, h1, Res.ok_bind]
  simp only
  rw [if_neg (by omega), if_neg (by simp [hi]), h2, Res.ok_bind, if_neg h40]
  rcases h with h | h
  · rw [if_pos h]
  · split
    · rfl
    · first | rfl | rw [if_pos h]

/-- A parenthesis first: the call repeats itself. -/
theorem expr_paren (fuel : Nat) (inner : Bool) {r : Bytes} (hc : m = 40 :: r) :
    appendNextExpr (spaces i ++ (m ++ spaces j)) fuel [] i (i + m.length) inner = .panic "out of fuel" := by
  have hp := hm.pos
  have h1 := trim_again (p := spaces i) (q := spaces j) rfl hm 2
  have hi : (spaces i).length = i := by simp [spaces]
  rw [hi] at h1
  have h2 : idx (spaces i ++ (m ++ spaces j)) i = .ok 40 := by
    rw [idx_eq_ok, List.getElem?_append_right (by omega), hi, Nat.sub_self, hc]; rfl
  induction fuel generalizing inner with
  | zero => rw [appendNextExpr]
  | succ fuel ih =>
    rw [appendNextExpr, trimSpaces, h1, Res.ok_bind]
    simp only
    rw [if_neg (by omega), if_neg (by simp [hi]), h2, Res.ok_bind, if_pos rfl, ih false]
    rfl

/-- All the outcomes when the definition begins with a comparison. -/
theorem compile_outcome (fuel : Nat) (w : Written) (hw : w.Ok) {rest : Bytes} (hn : NoDigit rest) (ht : m = w.text ++ rest) :
    compile (fuel + 1) (spaces i ++ (m ++ spaces j)) =
      if 2 ^ 63 ≤ number w.left then .panic "broken code"
      else if 254 < number w.left then .err "setting out of range"
      else if 2 ^ 63 ≤ number w.right then .panic "broken code"
      else if ¬ w.InRange then .err "out of range"
      else if rest ≠ [] then .err "definition expected to end"
      else .ok (w.cond.bytes.take 2) := by
  have hi : (spaces i).length = i := by simp [spaces]
  have hs := slice_middle (spaces i) m (spaces j)
  rw [hi] at hs
  rw [compile_start hm hlen, expr_start hm hlen fuel false (c := 35)
    (r := (w.text ++ rest).tail) (by rw [ht]; rfl) (by decide) (.inr rfl), term_outcome w hw hn hs ht]
  have hml : m.length = w.text.length + rest.length := by rw [ht]; simp
  split
  · rfl
  split
  · rfl
  split
  · rfl
  split
  · rfl
  simp only [Res.ok_bind]
  by_cases hr : rest = []
  · subst hr
    rw [if_neg (by simp [hml]), if_neg (by simp [hml]), if_neg (by simp)]
    simp
  · have : 0 < rest.length := List.length_pos_iff.2 hr
    rw [if_pos (by omega), slice_start _ (by simp [hi]; omega), if_pos hr]
    rfl

/-- Anything else is an error. -/
theorem compile_other (fuel : Nat) (h40 : ¬ ∃ r, m = 40 :: r) (hno : termRegexp m = none) :
    compile (fuel + 2) (spaces i ++ (m ++ spaces j)) = .err "invalid setting comparison" := by
  have hp := hm.pos
  have hi : (spaces i).length = i := by simp [spaces]
  have hs := slice_middle (spaces i) m (spaces j)
  rw [hi] at hs
  have hterm : appendNextTerm (spaces i ++ (m ++ spaces j)) [] i (i + m.length) = .err "invalid setting comparison" := by
    rw [appendNextTerm, hs, Res.ok_bind, hno]
    simp only
    rw [slice_start _ (by simp [hi])]
    rfl
  obtain ⟨c, r, hc, _⟩ := hm.1
  have hc40 : c ≠ 40 := fun h => h40 ⟨r, by rw [hc, h]⟩
  rw [compile_start hm hlen]
  by_cases h35 : c = 35
  · rw [expr_start hm hlen (fuel + 1) false hc hc40 (.inr h35), hterm]; rfl
  · have h1 := trim_again (p := spaces i) (q := spaces j) rfl hm 2
    rw [hi] at h1
    have h2 : idx (spaces i ++ (m ++ spaces j)) i = .ok c := by
      rw [idx_eq_ok, List.getElem?_append_right (by omega), hi, Nat.sub_self, hc]; rfl
    rw [appendNextExpr, trimSpaces, h1, Res.ok_bind]
    simp only
    rw [if_neg (by omega), if_neg (by simp [hi]), h2, Res.ok_bind, if_neg hc40, if_neg (by simp), if_neg h35,
      expr_start hm hlen fuel true hc hc40 (.inl rfl), hterm]
    rfl

end

theorem compile_spaces (fuel i : Nat) : ∃ e, compile fuel (spaces i) = .err e := by
  rw [compile]
  split
  · exact ⟨_, rfl⟩
  · obtain ⟨s, e, h, hle⟩ := trim_empty i
    rw [h, Res.ok_bind]
    simp only
    rw [if_pos hle]
    exact ⟨_, rfl⟩

theorem compile_long {d : Bytes} (fuel : Nat) (h : 1024 < d.length) : ∃ e, compile fuel d = .err e :=
  ⟨_, by rw [compile, if_pos h]⟩

theorem text_trim (w : Written) (hw : w.Ok) : Trim w.text := by
  refine ⟨⟨35, w.text.tail, rfl, by decide⟩, ?_⟩
  obtain ⟨hne, hd⟩ := hw.right
  have hc := List.dropLast_concat_getLast hne
  have := hd _ (List.getLast_mem hne)
  refine ⟨[35] ++ w.left ++ spaces w.gap1 ++ w.op.symbol ++ spaces w.gap2 ++ (if w.hash then [35] else []) ++
    w.right.dropLast, w.right.getLast hne, ?_, ?_⟩
  · rw [Written.text]
    conv => lhs; rw [← hc]
    simp [List.append_assoc]
  · intro h; rw [h] at this; exact absurd this.1 (by decide)

end ConditionModel
