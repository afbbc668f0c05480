import Verif.Model.Parse
import Mathlib.Tactic.SplitIfs
import Mathlib.Tactic.Conv

/-!
# Two semantics for parsers

`wp` is a weakest precondition for every reader: each read may fail or return any bytes.
`flat` runs a program on the complete data at once.
-/

namespace ParseBuf
open Go

/-- Ghost state: `c` are the bytes passed over so far, the first `d` of them are known to be in
`font.Data`, and `e` errors of reads have been ignored so far. -/
structure G where
  c : Bytes
  d : Nat
  e : Nat

/-- The longest the buffer can be. -/
def G.cap (g : G) : Nat := FontModel.maxFontDataSize + 1024 * g.e

namespace Prog
variable {α β : Type}

/-- Weakest precondition over all readers. -/
def wp : Prog α → G → (α → G → Prop) → Prop
  | ret a, g, Q => Q a g
  | fail _, _, _ => True
  | panic _, _, _ => False
  | take n h k, g, Q => 0 < n ∧ (∀ m, wp (h m) ⟨g.c, g.d, g.e + 1⟩ Q) ∧
      ∀ b, b.length = n → wp (k b) ⟨g.c ++ b, g.d, g.e⟩ Q
  | index k, g, Q => g.c.length ≤ g.cap → wp (k g.c.length) g Q
  | sync k, g, Q => wp (k ()) ⟨g.c, g.c.length, g.e⟩ Q
  | query v k, g, Q => (∀ x, v (g.c.take g.d ++ x) = v (g.c.take g.d)) ∧
      (∀ b, v (g.c.take g.d) = .ok b → wp (k b) g Q) ∧
      ∀ m, v (g.c.take g.d) ≠ .panic m

theorem wp_mono {p : Prog α} {Q Q' : α → G → Prop} :
    ∀ {g}, wp p g Q → (∀ a g', g.c <+: g'.c → Q a g' → Q' a g') → wp p g Q' := by
  induction p with
  | ret a => intro g h hQ; exact hQ _ _ (List.prefix_refl _) h
  | fail m => intros; trivial
  | panic m => intro g h; exact h.elim
  | take n h k ih ik =>
    intro g hw hQ
    obtain ⟨hn, hh, hk⟩ := hw
    exact ⟨hn, fun m => ih m (hh m) hQ, fun b hb => ik b (hk b hb)
      fun a g' hc hq => hQ a g' ((List.prefix_append _ _).trans hc) hq⟩
  | index k ik => intro g h hQ; exact fun hc => ik _ (h hc) hQ
  | sync k ik => intro g h hQ; exact ik _ h hQ
  | query v k ik =>
    intro g h hQ
    exact ⟨h.1, fun b hb => ik _ (h.2.1 b hb) hQ, h.2.2⟩

theorem bind_def (p : Prog α) (f : α → Prog β) : (p >>= f) = p.bind f := rfl
theorem pure_def (a : α) : (pure a : Prog α) = ret a := rfl

theorem wp_bind {p : Prog α} {f : α → Prog β} {Q : β → G → Prop} :
    ∀ {g}, wp p g (fun a g => wp (f a) g Q) → wp (p >>= f) g Q := by
  simp only [bind_def]
  induction p with
  | ret a => intro g h; exact h
  | fail m => intros; trivial
  | panic m => intro g h; exact h
  | take n h k ih ik =>
    intro g hw
    obtain ⟨hn, hh, hk⟩ := hw
    exact ⟨hn, fun m => ih m (hh m), fun b hb => ik b (hk b hb)⟩
  | index k ik => intro g h; exact fun hc => ik _ (h hc)
  | sync k ik => intro g h; exact ik _ h
  | query v k ik =>
    intro g h
    exact ⟨h.1, fun b hb => ik _ (h.2.1 b hb), h.2.2⟩

/-- Run on complete data; `i` is the index, `d` the part known to be in `font.Data`. -/
def flat (D : Bytes) : Prog α → Nat → Nat → Res (α × Nat × Nat)
  | ret a, i, d => .ok (a, i, d)
  | fail m, _, _ => .err m
  | panic m, _, _ => .panic m
  | take n h k, i, d =>
    if i + n ≤ D.length then (k ((D.take (i + n)).drop i)).flat D (i + n) d
    else (h "premature end of file (or font offsets are wrong)").flat D i d
  | index k, i, d => (k i).flat D i d
  | sync k, i, _ => (k ()).flat D i i
  | query v k, i, d =>
    match v (D.take d) with
    | .ok b => (k b).flat D i d
    | .err m => .err m
    | .panic m => .panic m

theorem flat_bind (D : Bytes) (p : Prog α) (f : α → Prog β) : ∀ i d,
    (p >>= f).flat D i d = (p.flat D i d >>= fun r => (f r.1).flat D r.2.1 r.2.2) := by
  simp only [bind_def]
  induction p with
  | ret a => intros; rfl
  | fail m => intros; rfl
  | panic m => intros; rfl
  | take n h k ih ik =>
    intro i d
    simp only [bind, flat]
    by_cases hc : i + n ≤ D.length
    · rw [if_pos hc, if_pos hc, ik]
    · rw [if_neg hc, if_neg hc, ih]
  | index k ik => intro i d; simp only [bind, flat]; rw [ik]
  | sync k ik => intro i d; simp only [bind, flat]; rw [ik]
  | query v k ik =>
    intro i d
    simp only [bind, flat]
    cases v (D.take d) with
    | ok b => simp only; rw [ik]
    | err m => rfl
    | panic m => rfl


end Prog

/-! ## Soundness of `wp` for every reader -/

/-- Reads return at most the 1024 bytes asked for (contract of `io.Reader`). -/
def Reader.Fits (r : Reader) : Prop := ∀ e ∈ r.evs, e.bytes.length ≤ 1024

theorem Reader.Fits.read {r : Reader} (h : r.Fits) :
    r.read.1.bytes.length ≤ 1024 ∧ r.read.2.Fits := by
  unfold Reader.read
  cases he : r.evs with
  | nil => exact ⟨by simp, h⟩
  | cons e es =>
    exact ⟨h e (by simp [he]), fun e' he' => h e' (by rw [he]; exact List.mem_cons_of_mem _ he')⟩

/-- What one call of `readMore` or `readUpTo` guarantees. `M` is the size limit. -/
structure Step (M : Nat) (e : Option String) (s s' : PBuf) : Prop where
  fits : s'.reader.Fits
  grow : s.bytes <+: s'.bytes
  data : s'.data = s.data
  okLen : e = none → s'.bytes.length ≤ max s.bytes.length M
  errLen : s'.bytes.length ≤ max s.bytes.length M + 1024

attribute [local irreducible] FontModel.maxFontDataSize

theorem readMoreLoop_inv (junk : Nat → UInt8) : ∀ n (s : PBuf), s.reader.Fits →
    ∃ e s', readMoreLoop junk n s = .ok (e, s') ∧ Step FontModel.maxFontDataSize e s s' ∧
      s'.index = s.index ∧
      (e = none → s'.bytes.length > s.bytes.length ∨ s'.eof = true) := by
  intro n
  induction n with
  | zero =>
    intro s h
    exact ⟨_, s, rfl, ⟨h, List.prefix_refl _, rfl, by simp, by omega⟩, rfl, by simp⟩
  | succ n ih =>
    intro s h
    have hr := h.read
    rcases hrd : s.reader.read with ⟨e, r⟩
    rw [hrd] at hr
    obtain ⟨hl, hf⟩ := hr
    simp only at hl hf
    simp only [readMoreLoop, hrd]
    rw [if_neg (show ¬ e.bytes.length > 1024 by omega)]
    by_cases hsz : e.bytes.length > 0 ∧ s.bytes.length + e.bytes.length > FontModel.maxFontDataSize
    · rw [if_pos hsz]
      refine ⟨_, _, rfl, ⟨hf, List.prefix_append _ _, rfl, by simp, ?_⟩, rfl, by simp⟩
      simp only [List.length_append, List.length_map, List.length_range]
      omega
    · rw [if_neg hsz]
      have hstep : ∀ o b, Step FontModel.maxFontDataSize o s
          ⟨s.bytes ++ e.bytes, s.index, b, r, s.data⟩ := by
        intro o b
        refine ⟨hf, List.prefix_append _ _, rfl, fun _ => ?_, ?_⟩ <;>
          simp only [List.length_append] <;> omega
      cases he : e.status with
      | eof => exact ⟨_, _, rfl, hstep _ _, rfl, fun _ => Or.inr rfl⟩
      | err m => exact ⟨_, _, rfl, hstep _ _, rfl, by simp⟩
      | nil =>
        simp only
        by_cases h0 : e.bytes.length = 0
        · rw [if_neg (by omega)]
          have hb : e.bytes = [] := List.eq_nil_of_length_eq_zero h0
          obtain ⟨o, s', h1, h2, h3, h4⟩ := ih { s with bytes := s.bytes ++ e.bytes, reader := r } hf
          refine ⟨o, s', h1, ?_, h3, ?_⟩
          · have := h2
            simp only [hb, List.append_nil] at this
            exact ⟨this.fits, this.grow, this.data, this.okLen, this.errLen⟩
          · simpa [hb] using h4
        · rw [if_pos h0]
          refine ⟨_, _, rfl, hstep _ _, rfl, fun _ => Or.inl ?_⟩
          simp only [List.length_append]; omega

theorem Step.trans {M o s s' s''} (h : Step M none s s') (h' : Step M o s' s'') : Step M o s s'' := by
  have h1 := h.okLen rfl
  refine ⟨h'.fits, h.grow.trans h'.grow, h'.data.trans h.data, fun ho => ?_, ?_⟩
  · have := h'.okLen ho; omega
  · have := h'.errLen; omega

theorem readUpToLoop_inv (junk : Nat → UInt8) (ni : Nat) : ∀ fuel (s : PBuf), s.reader.Fits →
    (ni - s.bytes.length) + (if s.eof then 0 else 1) < fuel →
    ∃ e s', readUpToLoop junk ni fuel s = .ok (e, s') ∧ Step FontModel.maxFontDataSize e s s' ∧
      (e = none → s'.index = ni ∧ ni ≤ s'.bytes.length) ∧ (e ≠ none → s'.index = s.index) := by
  intro fuel
  induction fuel with
  | zero => intro s _ h; omega
  | succ fuel ih =>
    intro s hf hfu
    simp only [readUpToLoop]
    by_cases hlt : s.bytes.length < ni
    · rw [if_pos hlt]
      by_cases he : s.eof = true
      · rw [if_pos he]
        exact ⟨_, s, rfl, ⟨hf, List.prefix_refl _, rfl, by simp, by omega⟩, by simp, by simp⟩
      · rw [if_neg he]
        rw [if_neg he] at hfu
        obtain ⟨o, s', h1, h2, h3, h4⟩ := readMoreLoop_inv junk 3 s hf
        simp only [readMore, h1, Res.ok_bind]
        cases o with
        | some m => exact ⟨some m, s', rfl, h2, by simp, fun _ => h3⟩
        | none =>
          simp only
          obtain ⟨o, s'', g1, g2, g3, g4⟩ := ih s' h2.fits (by
            have := h2.grow.length_le
            rcases h4 rfl with h | h
            · split_ifs <;> omega
            · rw [if_pos h]; omega)
          exact ⟨o, s'', g1, h2.trans g2, g3, fun ho => (g4 ho).trans h3⟩
    · rw [if_neg hlt]
      exact ⟨_, _, rfl, ⟨hf, List.prefix_refl _, rfl, by simp; omega, by simp; omega⟩,
        fun _ => ⟨rfl, by simp; omega⟩, by simp⟩

theorem readUpTo_inv (junk : Nat → UInt8) (ni : Nat) (s : PBuf) (hf : s.reader.Fits)
    (hi : s.index < ni) :
    ∃ e s', readUpTo junk ni s = .ok (e, s') ∧ Step FontModel.maxFontDataSize e s s' ∧
      (e = none → s'.index = ni ∧ ni ≤ s'.bytes.length) ∧ (e ≠ none → s'.index = s.index) := by
  simp only [readUpTo]
  rw [if_neg (by omega)]
  exact readUpToLoop_inv junk ni _ s hf (by split_ifs <;> omega)

/-- The buffer matches the ghost state. -/
structure Inv (s : PBuf) (g : G) : Prop where
  fits : s.reader.Fits
  cons : g.c <+: s.bytes
  idx : s.index = g.c.length
  dle : g.d ≤ g.c.length
  data : g.c.take g.d <+: s.data
  dataBytes : s.data <+: s.bytes
  len : s.bytes.length ≤ g.cap

theorem Inv.init {r : Reader} (h : r.Fits) : Inv (PBuf.init r) ⟨[], 0, 0⟩ :=
  ⟨h, List.prefix_refl _, rfl, Nat.le_refl _, List.prefix_refl _, List.prefix_refl _,
    Nat.zero_le _⟩

theorem cap_aux {a b M e K : Nat} (h1 : b ≤ M + K * e) (h2 : a ≤ max b M + K) :
    a ≤ M + K * (e + 1) := by
  rw [Nat.mul_succ]
  generalize K * e = t at *
  omega

theorem exec_wp (junk : Nat → UInt8) {α : Type} (p : Prog α) {Q : α → G → Prop} :
    ∀ s g, Inv s g → p.wp g Q →
      (∃ m, p.exec junk s = .err m) ∨ ∃ a s' g', p.exec junk s = .ok (a, s') ∧ Inv s' g' ∧ Q a g' := by
  induction p with
  | ret a => intro s g hi hw; exact Or.inr ⟨a, s, g, rfl, hi, hw⟩
  | fail m => intro s g hi hw; exact Or.inl ⟨m, rfl⟩
  | panic m => intro s g hi hw; exact hw.elim
  | index k ik =>
    intro s g hi hw
    simp only [Prog.exec]
    rw [hi.idx]
    exact ik _ _ _ hi (hw (Nat.le_trans hi.cons.length_le hi.len))
  | sync k ik =>
    intro s g hi hw
    simp only [Prog.exec]
    refine ik _ _ ⟨g.c, g.c.length, g.e⟩ ⟨hi.fits, hi.cons, hi.idx, Nat.le_refl _, ?_, List.prefix_refl _, hi.len⟩ hw
    simpa using hi.cons
  | query v k ik =>
    intro s g hi hw
    obtain ⟨hx, hk, hp⟩ := hw
    obtain ⟨x, hdx⟩ := hi.data
    simp only [Prog.exec]
    rw [← hdx, hx]
    cases hv : v (g.c.take g.d) with
    | ok b => exact ik _ _ _ hi (hk b hv)
    | err m => exact Or.inl ⟨m, rfl⟩
    | panic m => exact absurd hv (hp m)
  | take n h k ih ik =>
    intro s g hi hw
    obtain ⟨hn, hh, hk⟩ := hw
    obtain ⟨o, s', h1, h2, h3, h4⟩ := readUpTo_inv junk (s.index + n) s hi.fits (by omega)
    simp only [Prog.exec, h1]
    have hlen := hi.len
    simp only [G.cap] at hlen
    cases o with
    | some m =>
      simp only
      refine ih m _ ⟨g.c, g.d, g.e + 1⟩ ⟨h2.fits, hi.cons.trans h2.grow,
        (h4 (by simp)).trans hi.idx, hi.dle, ?_, ?_, ?_⟩
        (hh m)
      · rw [h2.data]; exact hi.data
      · rw [h2.data]; exact hi.dataBytes.trans h2.grow
      · have := h2.errLen
        exact cap_aux hlen this
    | none =>
      simp only
      obtain ⟨hix, hle⟩ := h3 rfl
      obtain ⟨y, hy⟩ := hi.cons.trans h2.grow
      have hok := h2.okLen rfl
      have hb : ((s'.bytes.take s'.index).drop s.index).length = n := by
        rw [List.length_drop, List.length_take]; omega
      have hcat : g.c ++ (s'.bytes.take s'.index).drop s.index = s'.bytes.take s'.index := by
        have : g.c = (s'.bytes.take s'.index).take s.index := by
          rw [List.take_take, Nat.min_eq_left (by omega), ← hy, hi.idx]; simp
        conv_lhs => rw [this]
        exact List.take_append_drop _ _
      refine ik _ _ ⟨g.c ++ (s'.bytes.take s'.index).drop s.index, g.d, g.e⟩ ⟨h2.fits, ?_, ?_, ?_, ?_, ?_, ?_⟩ (hk _ hb)
      · rw [hcat]; exact List.take_prefix _ _
      · rw [hcat, List.length_take]; omega
      · have := hi.dle; simp only [List.length_append]; omega
      · rw [h2.data, List.take_append_of_le_length hi.dle]; exact hi.data
      · rw [h2.data]; exact hi.dataBytes.trans h2.grow
      · simp only [G.cap]; omega

end ParseBuf
