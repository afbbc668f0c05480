import Verif.Lemmas.ParseWp
import Verif.Spec.Reader

/-! # Runs on complete data agree with runs on any reader for that data -/

namespace ParseBuf
open Go
attribute [local irreducible] FontModel.maxFontDataSize

/-- `i`, `d`: index and length of the synchronised data. -/
structure FInv (D : Bytes) (s : PBuf) (i d : Nat) : Prop where
  fits : s.reader.Fits
  fin : s.reader.fin = .eof
  idx : s.index = i
  ile : i ≤ s.bytes.length
  dle : d ≤ i
  data : D.take d <+: s.data
  dataBytes : s.data <+: s.bytes
  rest : (s.eof = true ∧ s.bytes = D) ∨
    (s.eof = false ∧ StallFree 2 s.reader.evs ∧ ∃ R, D = s.bytes ++ R ∧ Delivers s.reader.evs R)

theorem FInv.bytes {D s i d} (h : FInv D s i d) : s.bytes <+: D := by
  rcases h.rest with ⟨_, h⟩ | ⟨_, _, R, h, _⟩
  · rw [h]; exact List.prefix_refl _
  · rw [h]; exact List.prefix_append _ _

theorem FInv.init {r : Reader} {D} (h : r.Serves D) : FInv D (PBuf.init r) 0 0 :=
  ⟨h.fits, h.fin, rfl, Nat.zero_le _, Nat.le_refl _, by simp, List.prefix_refl _,
    Or.inr ⟨rfl, h.stallFree, D, rfl, h.delivers⟩⟩

theorem readMoreLoop_step (junk : Nat → UInt8) (n : Nat) (s : PBuf) (e : Ev) (r : Reader)
    (h : s.reader.read = (e, r)) (h1 : e.bytes.length ≤ 1024) :
    readMoreLoop junk (n + 1) s =
      (if e.bytes.length > 0 ∧ s.bytes.length + e.bytes.length > FontModel.maxFontDataSize then
        .ok (some "font data size exceeds limit",
          { s with bytes := s.bytes ++ (List.range e.bytes.length).map junk, reader := r })
      else
        match e.status with
        | .eof => .ok (none, { s with bytes := s.bytes ++ e.bytes, reader := r, eof := true })
        | .err m => .ok (some m, { s with bytes := s.bytes ++ e.bytes, reader := r })
        | .nil => if e.bytes.length ≠ 0 then
              .ok (none, { s with bytes := s.bytes ++ e.bytes, reader := r })
            else readMoreLoop junk n { s with bytes := s.bytes ++ e.bytes, reader := r }) := by
  simp only [readMoreLoop, h]
  rw [if_neg (by omega)]
  rfl

theorem readMoreLoop_flat (junk : Nat → UInt8) {D : Bytes}
    (hD : D.length ≤ FontModel.maxFontDataSize) (s : PBuf) (hfin : s.reader.fin = .eof)
    (heof : s.eof = false) : ∀ n (es : List Ev), (∀ e ∈ es, e.bytes.length ≤ 1024) →
    StallFree n es → ∀ R, D = s.bytes ++ R → Delivers es R →
    ∃ s', readMoreLoop junk (n + 1) { s with reader := ⟨es, s.reader.fin⟩ } = .ok (none, s') ∧
      s'.reader.Fits ∧ s'.reader.fin = .eof ∧ s'.index = s.index ∧ s'.data = s.data ∧
      s.bytes <+: s'.bytes ∧
      ((s'.eof = true ∧ s'.bytes = D) ∨
        (s'.eof = false ∧ s'.bytes.length > s.bytes.length ∧ StallFree 2 s'.reader.evs ∧
          ∃ R, D = s'.bytes ++ R ∧ Delivers s'.reader.evs R)) := by
  intro n
  induction n with
  | zero =>
    intro es hf hs R hR hd
    cases es with
    | nil =>
      simp only [Delivers] at hd
      rw [readMoreLoop_step _ _ _ ⟨[], .eof⟩ ⟨[], .eof⟩ (by simp [Reader.read, hfin]) (by simp),
        if_neg (by simp)]
      refine ⟨_, rfl, by simp [Reader.Fits], rfl, rfl, rfl, by simp, Or.inl ⟨rfl, ?_⟩⟩
      simp [hR, hd]
    | cons e es =>
      have h1 := hf e (by simp)
      simp only [StallFree] at hs
      rw [readMoreLoop_step _ _ _ e ⟨es, s.reader.fin⟩ rfl h1]
      simp only [Delivers] at hd
      cases he : e.status with
      | err m => simp only [he] at hd
      | eof =>
        simp only [he] at hd
        rw [if_neg (show ¬ (e.bytes.length > 0 ∧
          s.bytes.length + e.bytes.length > FontModel.maxFontDataSize) by
            rw [hR, hd] at hD; simp at hD; omega)]
        refine ⟨_, rfl, fun e' h' => hf e' (List.mem_cons_of_mem _ h'), hfin, rfl, rfl,
          List.prefix_append _ _, Or.inl ⟨rfl, ?_⟩⟩
        simp [hR, hd]
      | nil =>
        simp only [he] at hd
        obtain ⟨R', hR', hd⟩ := hd
        rw [if_neg (show ¬ (e.bytes.length > 0 ∧
          s.bytes.length + e.bytes.length > FontModel.maxFontDataSize) by
            rw [hR, hR'] at hD; simp at hD; omega)]
        have hne : e.bytes.length ≠ 0 := by
          intro h0
          exact hs.1 ⟨he, List.eq_nil_of_length_eq_zero h0⟩
        simp only
        rw [if_pos hne]
        refine ⟨_, rfl, fun e' h' => hf e' (List.mem_cons_of_mem _ h'), hfin, rfl, rfl,
          List.prefix_append _ _, Or.inr ⟨heof, by simp; omega, hs.2, R', ?_, hd⟩⟩
        simp [hR, hR']
  | succ n ih =>
    intro es hf hs R hR hd
    cases es with
    | nil =>
      simp only [Delivers] at hd
      rw [readMoreLoop_step _ _ _ ⟨[], .eof⟩ ⟨[], .eof⟩ (by simp [Reader.read, hfin]) (by simp),
        if_neg (by simp)]
      refine ⟨_, rfl, by simp [Reader.Fits], rfl, rfl, rfl, by simp, Or.inl ⟨rfl, ?_⟩⟩
      simp [hR, hd]
    | cons e es =>
      have h1 := hf e (by simp)
      simp only [StallFree] at hs
      have hf' : ∀ e ∈ es, e.bytes.length ≤ 1024 := fun e' h' => hf e' (List.mem_cons_of_mem _ h')
      rw [readMoreLoop_step _ _ _ e ⟨es, s.reader.fin⟩ rfl h1]
      simp only [Delivers] at hd
      cases he : e.status with
      | err m => simp only [he] at hd
      | eof =>
        simp only [he] at hd
        rw [if_neg (show ¬ (e.bytes.length > 0 ∧
          s.bytes.length + e.bytes.length > FontModel.maxFontDataSize) by
            rw [hR, hd] at hD; simp at hD; omega)]
        refine ⟨_, rfl, hf', hfin, rfl, rfl, List.prefix_append _ _, Or.inl ⟨rfl, ?_⟩⟩
        simp [hR, hd]
      | nil =>
        simp only [he] at hd
        obtain ⟨R', hR', hd⟩ := hd
        rw [if_neg (show ¬ (e.bytes.length > 0 ∧
          s.bytes.length + e.bytes.length > FontModel.maxFontDataSize) by
            rw [hR, hR'] at hD; simp at hD; omega)]
        simp only
        by_cases h0 : e.bytes = []
        · rcases hs with hs | hs
          · rw [if_neg (by simp [h0])]
            have := ih es hf' hs.2.2 R' (by simp [hR, hR', h0]) hd
            simpa [h0] using this
          · exact absurd ⟨he, h0⟩ hs.1
        · rcases hs with hs | hs
          · exact absurd hs.2.1 h0
          · have hne : e.bytes.length ≠ 0 := fun h => h0 (List.eq_nil_of_length_eq_zero h)
            rw [if_pos hne]
            refine ⟨_, rfl, hf', hfin, rfl, rfl,
              List.prefix_append _ _, Or.inr ⟨heof, by simp; omega, hs.2, R', ?_, hd⟩⟩
            simp [hR, hR']

theorem readMore_flat (junk : Nat → UInt8) {D : Bytes}
    (hD : D.length ≤ FontModel.maxFontDataSize) {s : PBuf} {i d} (h : FInv D s i d)
    (heof : s.eof = false) :
    ∃ s', readMore junk s = .ok (none, s') ∧ FInv D s' i d ∧
      ((s'.eof = true ∧ s'.bytes = D) ∨
        (s'.eof = false ∧ s'.bytes.length > s.bytes.length)) := by
  rcases h.rest with ⟨h1, _⟩ | ⟨_, hs, R, hR, hd⟩
  · rw [heof] at h1; simp at h1
  · obtain ⟨s', h1, h2, h3, h4, h5, h6, h7⟩ :=
      readMoreLoop_flat junk hD s h.fin heof 2 s.reader.evs h.fits hs R hR hd
    refine ⟨s', h1, ⟨h2, h3, h4.trans h.idx, Nat.le_trans h.ile h6.length_le, h.dle, ?_, ?_, ?_⟩, ?_⟩
    · rw [h5]; exact h.data
    · rw [h5]; exact h.dataBytes.trans h6
    · rcases h7 with h7 | ⟨a, _, b⟩
      · exact Or.inl h7
      · exact Or.inr ⟨a, b⟩
    · rcases h7 with h7 | ⟨a, b, _⟩
      · exact Or.inl h7
      · exact Or.inr ⟨a, b⟩

theorem readUpToLoop_flat (junk : Nat → UInt8) {D : Bytes}
    (hD : D.length ≤ FontModel.maxFontDataSize) {i d : Nat} (ni : Nat) (hni : i < ni) :
    ∀ fuel (s : PBuf), FInv D s i d → (ni - s.bytes.length) + (if s.eof then 0 else 1) < fuel →
    ∃ o s', readUpToLoop junk ni fuel s = .ok (o, s') ∧
      ((ni ≤ D.length ∧ o = none ∧ FInv D s' ni d) ∨
       (D.length < ni ∧ o = some "premature end of file (or font offsets are wrong)" ∧
          FInv D s' i d ∧ s'.eof = true)) := by
  intro fuel
  induction fuel with
  | zero => intro s _ h; omega
  | succ fuel ih =>
    intro s h hfu
    simp only [readUpToLoop]
    have hb := h.bytes.length_le
    by_cases hlt : s.bytes.length < ni
    · rw [if_pos hlt]
      by_cases he : s.eof = true
      · rw [if_pos he]
        refine ⟨_, s, rfl, Or.inr ⟨?_, rfl, h, he⟩⟩
        rcases h.rest with ⟨_, h1⟩ | ⟨h1, _⟩
        · rw [← h1]; exact hlt
        · rw [he] at h1; simp at h1
      · rw [if_neg he]
        rw [if_neg he] at hfu
        obtain ⟨s', h1, h2, h3⟩ := readMore_flat junk hD h (by simpa using he)
        simp only [h1, Res.ok_bind]
        refine ih s' h2 ?_
        rcases h3 with ⟨h3, h4⟩ | ⟨h3, h4⟩
        · rw [if_pos h3, h4]; omega
        · rw [h3]; simp; omega
    · rw [if_neg hlt]
      refine ⟨_, _, rfl, Or.inl ⟨by omega, rfl, ⟨h.fits, h.fin, rfl, by simp; omega, ?_, h.data,
        h.dataBytes, h.rest⟩⟩⟩
      have := h.dle; omega

theorem readUpTo_flat (junk : Nat → UInt8) {D : Bytes}
    (hD : D.length ≤ FontModel.maxFontDataSize) {s : PBuf} {i d n} (h : FInv D s i d)
    (hn : 0 < n) :
    ∃ o s', readUpTo junk (s.index + n) s = .ok (o, s') ∧
      ((i + n ≤ D.length ∧ o = none ∧ FInv D s' (i + n) d) ∨
       (D.length < i + n ∧ o = some "premature end of file (or font offsets are wrong)" ∧
          FInv D s' i d ∧ s'.eof = true)) := by
  simp only [readUpTo]
  rw [if_neg (by omega), h.idx]
  exact readUpToLoop_flat junk hD _ (by omega) _ s h (by split_ifs <;> omega)

/-- A run on a reader for `D` and the run on `D` itself have the same outcome. -/
theorem exec_flat (junk : Nat → UInt8) {D : Bytes} (hD : D.length ≤ FontModel.maxFontDataSize)
    {α : Type} (p : Prog α) {Q : α → G → Prop} :
    ∀ s i d e, FInv D s i d → p.wp ⟨D.take i, d, e⟩ Q →
      (∃ m, p.flat D i d = .err m ∧ p.exec junk s = .err m) ∨
      ∃ a i' d' s' e', p.flat D i d = .ok (a, i', d') ∧ p.exec junk s = .ok (a, s') ∧
        FInv D s' i' d' ∧ Q a ⟨D.take i', d', e'⟩ := by
  induction p with
  | ret a => intro s i d e hi hw; exact Or.inr ⟨a, i, d, s, e, rfl, rfl, hi, hw⟩
  | fail m => intro s i d e hi hw; exact Or.inl ⟨m, rfl, rfl⟩
  | panic m => intro s i d e hi hw; exact hw.elim
  | index k ik =>
    intro s i d e hi hw
    have hl : (D.take i).length = i := by
      have := hi.ile; have := hi.bytes.length_le; rw [List.length_take]; omega
    simp only [Prog.exec, Prog.flat]
    simp only [Prog.wp, hl] at hw
    rw [hi.idx]
    refine ik _ _ _ _ _ hi (hw ?_)
    have := hi.ile; have := hi.bytes.length_le
    simp only [G.cap]; omega
  | sync k ik =>
    intro s i d e hi hw
    have hl : (D.take i).length = i := by
      have := hi.ile; have := hi.bytes.length_le; rw [List.length_take]; omega
    simp only [Prog.exec, Prog.flat]
    simp only [Prog.wp, hl] at hw
    refine ik _ _ _ _ _ ⟨hi.fits, hi.fin, hi.idx, hi.ile, Nat.le_refl _, ?_, List.prefix_refl _,
      hi.rest⟩ hw
    obtain ⟨y, hy⟩ := hi.bytes
    rw [← hy, List.take_append_of_le_length hi.ile]
    exact List.take_prefix _ _
  | query v k ik =>
    intro s i d e hi hw
    obtain ⟨hx, hk, hp⟩ := hw
    obtain ⟨x, hdx⟩ := hi.data
    have ht : (D.take i).take d = D.take d := by rw [List.take_take, Nat.min_eq_left hi.dle]
    simp only [ht] at hx hk hp
    simp only [Prog.exec, Prog.flat]
    rw [← hdx, hx]
    cases hv : v (D.take d) with
    | ok b => exact ik _ _ _ _ _ hi (hk b hv)
    | err m => exact Or.inl ⟨m, rfl, rfl⟩
    | panic m => exact absurd hv (hp m)
  | take n h k ih ik =>
    intro s i d e hi hw
    obtain ⟨hn, hh, hk⟩ := hw
    obtain ⟨o, s', h1, h2⟩ := readUpTo_flat junk hD hi hn
    simp only [Prog.exec, Prog.flat, h1]
    rcases h2 with ⟨hle, ho, hi'⟩ | ⟨hle, ho, hi', _⟩
    · subst ho
      rw [if_pos hle]
      simp only
      have hb : (s'.bytes.take s'.index).drop s.index = (D.take (i + n)).drop i := by
        obtain ⟨y, hy⟩ := hi'.bytes
        rw [hi'.idx, hi.idx, ← hy, List.take_append_of_le_length hi'.ile]
      rw [hb]
      have hcat : D.take i ++ (D.take (i + n)).drop i = D.take (i + n) := by
        have : D.take i = (D.take (i + n)).take i := by rw [List.take_take, Nat.min_eq_left (by omega)]
        rw [this]; exact List.take_append_drop _ _
      have hw := hk ((D.take (i + n)).drop i) (by rw [List.length_drop, List.length_take]; omega)
      simp only [hcat] at hw
      exact ik _ _ _ _ _ hi' hw
    · subst ho
      rw [if_neg (by omega)]
      simp only
      exact ih _ _ _ _ _ hi' (hh _)

end ParseBuf
