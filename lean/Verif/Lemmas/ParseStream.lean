import Verif.Lemmas.ParseTrunc

/-! # Whole runs of `Parse` on readers for given data -/

namespace ParseBuf
open Go
attribute [local irreducible] FontModel.maxFontDataSize
variable {α β : Type}

theorem Prog.exec_bind (junk : Nat → UInt8) (p : Prog α) (f : α → Prog β) : ∀ s,
    (p >>= f).exec junk s = (p.exec junk s >>= fun r => (f r.1).exec junk r.2) := by
  rw [bind_def]
  induction p with
  | ret a => intro s; rfl
  | fail m => intro s; rfl
  | panic m => intro s; rfl
  | take n h k ih ik =>
    intro s
    simp only [Prog.bind, Prog.exec]
    rcases readUpTo junk (s.index + n) s with ⟨_ | m, s'⟩ | m | m
    · exact ik _ _
    · exact ih _ _
    · rfl
    · rfl
  | index k ik => intro s; exact ik _ _
  | sync k ik => intro s; exact ik _ _
  | query v k ik =>
    intro s
    simp only [Prog.bind, Prog.exec]
    rcases v s.data with b | m | m
    · exact ik _ _
    · rfl
    · rfl

theorem readUpToLoop_eof (junk : Nat → UInt8) {ni fuel s o s'} (he : s.eof = true)
    (h : readUpToLoop junk ni fuel s = .ok (o, s')) : s'.eof = true := by
  cases fuel with
  | zero => simp [readUpToLoop] at h
  | succ n =>
    simp only [readUpToLoop] at h
    split at h
    · simp only [Res.ok.injEq, Prod.mk.injEq] at h
      rw [← h.2]; exact he
    · simp only [Res.ok.injEq, Prod.mk.injEq] at h
      rw [← h.2]; exact he

theorem exec_eof (junk : Nat → UInt8) (p : Prog α) : ∀ s a s', s.eof = true →
    p.exec junk s = .ok (a, s') → s'.eof = true := by
  induction p with
  | ret a =>
    intro s a s' he h
    simp only [Prog.exec, Res.ok.injEq, Prod.mk.injEq] at h
    rw [← h.2]; exact he
  | fail m => intro s a s' he h; simp [Prog.exec] at h
  | panic m => intro s a s' he h; simp [Prog.exec] at h
  | take n h k ih ik =>
    intro s a s' he hx
    simp only [Prog.exec] at hx
    cases hr : readUpTo junk (s.index + n) s with
    | err m => rw [hr] at hx; simp at hx
    | panic m => rw [hr] at hx; simp at hx
    | ok x =>
      obtain ⟨o, s1⟩ := x
      have : s1.eof = true := by
        unfold readUpTo at hr
        split at hr
        · simp at hr
        · exact readUpToLoop_eof junk he hr
      rw [hr] at hx
      cases o with
      | none => exact ik _ _ _ _ this hx
      | some m => exact ih _ _ _ _ this hx
  | index k ik => intro s a s' he h; exact ik _ _ _ _ he h
  | sync k ik => intro s a s' he h; exact ik _ _ _ _ (by exact he) h
  | query v k ik =>
    intro s a s' he h
    simp only [Prog.exec] at h
    cases hv : v s.data with
    | ok b => rw [hv] at h; exact ik _ _ _ _ he h
    | err m => rw [hv] at h; simp at h
    | panic m => rw [hv] at h; simp at h

theorem ensureEOF_flat (junk : Nat → UInt8) {D : Bytes}
    (hD : D.length ≤ FontModel.maxFontDataSize) {s : PBuf} {i d} (h : FInv D s i d) :
    (∃ s', ensureEOF junk s = .ok (none, s')) ∨
      (ensureEOF junk s = .panic "broken code" ∧ s.eof = false ∧ s.bytes.length < D.length) := by
  unfold ensureEOF
  by_cases he : s.eof = true
  · exact Or.inl ⟨s, by rw [if_pos he]⟩
  · rw [if_neg he]
    obtain ⟨s', h1, h2, h3⟩ := readMore_flat junk hD h (by simpa using he)
    simp only [h1, Res.ok_bind]
    rw [if_neg (by rw [h2.idx, h.idx]; omega)]
    rcases h3 with ⟨h3, h4⟩ | ⟨h3, h4⟩
    · rw [h3]; exact Or.inl ⟨s', rfl⟩
    · rw [h3]
      refine Or.inr ⟨rfl, by simpa using he, ?_⟩
      have := h2.bytes.length_le
      omega

end ParseBuf

namespace ParseModel
open Go ParseBuf ParseBuf.Prog FontModel Spec
attribute [local irreducible] FontModel.maxFontDataSize

/-- The two outcomes of the part before the check for the end of the file. -/
theorem parseBody_exec (junk : Nat → UInt8) {r : Reader} {D : Bytes} (hr : r.Serves D)
    (hD : D.length ≤ maxFontDataSize) :
    (∃ m, parseBody.flat D 0 0 = .err m ∧ parseBody.exec junk (PBuf.init r) = .err m) ∨
    ∃ f i s, parseBody.flat D 0 0 = .ok (f, i, i) ∧ parseBody.exec junk (PBuf.init r) = .ok (f, s) ∧
      FInv D s i i := by
  have hw : parseBody.wp ⟨D.take 0, 0, 0⟩ fun _ g => g.d = g.c.length := by
    simpa using wp_parseBody
  rcases exec_flat junk hD parseBody _ 0 0 0 (FInv.init hr) hw with h | ⟨f, i, d, s, e, h1, h2, h3, h4⟩
  · exact Or.inl h
  · have := h3.ile
    have := h3.bytes.length_le
    have hd : d = i := by
      have : d = (D.take i).length := h4
      rw [this]; simp; omega
    subst hd
    exact Or.inr ⟨f, d, s, h1, h2, h3⟩

/-- The outcomes of `Parse` on a reader for `D`. -/
theorem parseStream_flat (junk : Nat → UInt8) {r : Reader} {D : Bytes} (hr : r.Serves D)
    (hD : D.length ≤ maxFontDataSize) :
    (∃ m, parseBody.flat D 0 0 = .err m ∧ parseStream junk r = .err m) ∨
    ∃ f i s, parseBody.flat D 0 0 = .ok (f, i, i) ∧ parseBody.exec junk (PBuf.init r) = .ok (f, s) ∧
      FInv D s i i ∧
      ((∃ s', ensureEOF junk s = .ok (none, s')) ∧ parseStream junk r = .ok { f with data := s.data } ∨
        parseStream junk r = .panic "broken code" ∧ s.eof = false ∧ i < D.length) := by
  rcases parseBody_exec junk hr hD with ⟨m, h1, h2⟩ | ⟨f, i, s, h1, h2, h3⟩
  · refine Or.inl ⟨m, h1, ?_⟩
    unfold parseStream
    rw [h2]; rfl
  · refine Or.inr ⟨f, i, s, h1, h2, h3, ?_⟩
    rcases ensureEOF_flat junk hD h3 with ⟨s', h⟩ | ⟨h, h4, h5⟩
    · refine Or.inl ⟨⟨s', h⟩, ?_⟩
      unfold parseStream
      rw [h2]
      simp only [Res.ok_bind, h]
      rfl
    · refine Or.inr ⟨?_, h4, ?_⟩
      · unfold parseStream
        rw [h2]
        simp only [Res.ok_bind, h]
        rfl
      · have := h3.ile; omega

theorem FInv.data_eq {D : Bytes} {s : PBuf} (h : FInv D s D.length D.length) : s.data = D := by
  have h1 := h.data
  rw [List.take_length] at h1
  exact (h1.eq_of_length_le (h.dataBytes.trans h.bytes).length_le).symm

theorem kernTable_cut (junk : Nat → UInt8) {D : Bytes} (hD : D.length ≤ maxFontDataSize) {s i d n}
    (h : FInv D s i d) (hc : D.length < i + 3) :
    ∃ s', (parseKernTable n).exec junk s = .ok ((), s') ∧ FInv D s' i d ∧ s'.eof = true := by
  obtain ⟨o, s', h1, h2⟩ := readUpTo_flat junk hD h (n := 3) (by omega)
  rcases h2 with ⟨h2, _⟩ | ⟨_, rfl, h3, h4⟩
  · omega
  · refine ⟨s', ?_, h3, h4⟩
    unfold parseKernTable readUint24IgnoringError
    rw [exec_bind]
    simp only [Prog.exec, h1, Res.ok_bind]
    rfl

/-- If a kerning count is cut off, the end of the file has been seen. -/
theorem parseStream_cut (junk : Nat → UInt8) {r : Reader} {D : Bytes} (hr : r.Serves D)
    (hD : D.length ≤ maxFontDataSize) {f i} (h : parseBody.flat D 0 0 = .ok (f, i, i))
    (hc : D.length < f.offHorzKern + 3 ∨ D.length < f.offVertKern + 3) :
    ∃ f', parseStream junk r = .ok f' := by
  obtain ⟨f0, n, i0, d0, hu, hk⟩ := parseBody_flat_iff.1 h
  have hbody := parseBody_flat hD h
  have hw : parseUpToKerning.wp ⟨D.take 0, 0, 0⟩ (fun r g => AfterMetrics r.1 g ∧ r.2 < 65536) := by
    simpa using wp_parseUpToKerning
  rcases exec_flat junk hD parseUpToKerning _ 0 0 0 (FInv.init hr) hw with
    ⟨m, h1, _⟩ | ⟨⟨f1, n1⟩, i1, d1, s1, e1, h1, h2, h3, h4⟩
  · rw [hu] at h1; simp at h1
  · rw [hu] at h1
    simp only [Res.ok.injEq, Prod.mk.injEq] at h1
    obtain ⟨⟨rfl, rfl⟩, rfl, rfl⟩ := h1
    obtain ⟨j, d1, d2, hk1, hk2, hf, hd⟩ := parseKerning_flat.1 hk
    have hi0 : i0 ≤ D.length := by have := h3.ile; have := h3.bytes.length_le; omega
    have hj : j ≤ D.length := by
      have := hk1; rw [parseKernTable_flat] at this; omega
    have eh : f.offHorzKern = i0 := by rw [hf]; exact u32_eq hD hi0
    have ev : f.offVertKern = j := by rw [hf]; exact u32_eq hD hj
    rcases parseStream_flat junk hr hD with ⟨m, h5, _⟩ | ⟨f5, i5, s5, h5, h6, h7, h8⟩
    · rw [h] at h5; simp at h5
    · rcases h8 with ⟨_, h8⟩ | ⟨_, h8, _⟩
      · exact ⟨_, h8⟩
      · exfalso
        have hs5 : s5.eof = true := by
          unfold parseBody at h6
          rw [exec_bind, h2] at h6
          simp only [Res.ok_bind] at h6
          unfold parseKerning at h6
          rw [exec_bind] at h6
          have hhere : (here).exec junk s1 = .ok (u32 s1.index, s1) := rfl
          rw [hhere] at h6
          simp only [Res.ok_bind] at h6
          rw [exec_bind] at h6
          by_cases hc1 : D.length < i0 + 3
          · obtain ⟨s2, hx, hi2, he2⟩ := kernTable_cut junk hD (n := n) h3 hc1
            rw [hx] at h6
            simp only [Res.ok_bind] at h6
            exact exec_eof junk _ _ _ _ he2 h6
          · have hc2 : D.length < j + 3 := by rw [eh, ev] at hc; omega
            have hwk : (parseKernTable n).wp ⟨D.take i0, d0, e1⟩ fun _ _ => True := wp_parseKernTable fun _ => trivial
            rcases exec_flat junk hD _ _ _ _ _ h3 hwk with
              ⟨m, h9, _⟩ | ⟨_, i2, d2, s2, e2, h9, h10, h11, _⟩
            · rw [hk1] at h9; simp at h9
            · rw [hk1] at h9
              simp only [Res.ok.injEq, Prod.mk.injEq] at h9
              obtain ⟨-, rfl, rfl⟩ := h9
              rw [h10] at h6
              simp only [Res.ok_bind] at h6
              rw [exec_bind] at h6
              have hhere2 : (here).exec junk s2 = .ok (u32 s2.index, s2) := rfl
              rw [hhere2] at h6
              simp only [Res.ok_bind] at h6
              rw [exec_bind] at h6
              obtain ⟨s3, hx, hi3, he3⟩ := kernTable_cut junk hD (n := n) h11 hc2
              rw [hx] at h6
              simp only [Res.ok_bind] at h6
              exact exec_eof junk _ _ _ _ he3 h6
        rw [hs5] at h8; simp at h8

/-- Truncating data that parses completely. -/
theorem parseBody_take {D : Bytes} (hD : D.length ≤ maxFontDataSize) {f}
    (h : parseBody.flat D 0 0 = .ok (f, D.length, D.length)) (hv : f.offVertKern + 3 ≤ D.length)
    {n : Nat} (hn : n < D.length) :
    ((∃ f', parseBody.flat (D.take n) 0 0 = .ok (f', f'.offVertKern, f'.offVertKern) ∧
        (n < f'.offHorzKern + 3 ∨ n < f'.offVertKern + 3)) ∧
      (f.offHorzKern ≤ n ∧ n < f.offHorzKern + 3 ∨ f.offVertKern ≤ n ∧ n < f.offVertKern + 3)) ∨
    ((∀ x, parseBody.flat (D.take n) 0 0 ≠ .ok x) ∧
      ¬ (f.offHorzKern ≤ n ∧ n < f.offHorzKern + 3 ∨ f.offVertKern ≤ n ∧ n < f.offVertKern + 3)) := by
  obtain ⟨f0, N, i0, d0, hu, hk⟩ := parseBody_flat_iff.1 h
  obtain ⟨j, d1, d2, hk1, hk2, hf, hd⟩ := parseKerning_flat.1 hk
  obtain ⟨_, _, _, rfl, hi0⟩ := parseUpToKerning_flat hD hu
  have hkk1 := hk1
  have hkk2 := hk2
  rw [parseKernTable_flat] at hkk1 hkk2
  have hj : j ≤ D.length := by omega
  have eh : f.offHorzKern = d0 := by rw [hf]; exact u32_eq hD hi0
  have ev : f.offVertKern = j := by rw [hf]; exact u32_eq hD hj
  have hl : (D.take n).length = n := by rw [List.length_take]; omega
  have hDn : (D.take n).length ≤ maxFontDataSize := by rw [hl]; omega
  rw [ev] at hv
  rw [eh, ev]
  have hkj : j = d0 + kernSize D d0 := by
    rcases hkk1.2 with h1 | h1
    · omega
    · exact h1.2.2.1
  have hkl : D.length = j + kernSize D j := by
    rcases hkk2.2 with h1 | h1
    · omega
    · exact h1.2.2.1
  have k1 : kernSize D d0 = 3 + 5 * u24At D d0 := rfl
  have k2 : kernSize D j = 3 + 5 * u24At D j := rfl
  have u24t : ∀ o, o + 3 ≤ n → u24At (D.take n) o = u24At D o := fun o ho => u24At_take ho
  by_cases hlow : n < d0
  · right
    refine ⟨fun x hx => ?_, by omega⟩
    obtain ⟨fx, ix, dx⟩ := x
    obtain ⟨f1, n1, i1, d1, hu1, _⟩ := parseBody_flat_iff.1 hx
    exact flat_short strict_parseUpToKerning (Nat.le_refl _) (Nat.zero_le _) (by omega) hu hlow _ hu1
  · have hu' : parseUpToKerning.flat (D.take n) 0 0 = .ok ((f0, N), d0, d0) :=
      (flat_local strict_parseUpToKerning (Nat.le_refl _) (Nat.zero_le _) hu).2.2.2 _ (by omega)
        (by rw [List.take_take, Nat.min_eq_left (by omega)])
    by_cases hwh : n < d0 + 3
    · left
      have ka : (parseKernTable N).flat (D.take n) d0 d0 = .ok ((), d0, d0) := by
        rw [parseKernTable_flat]; exact ⟨rfl, Or.inl ⟨by omega, rfl⟩⟩
      have eo := u32_eq hD hi0
      refine ⟨⟨{ f0 with offHorzKern := u32 d0, offVertKern := u32 d0 }, ?_, ?_⟩, Or.inl ⟨by omega, hwh⟩⟩
      · rw [parseBody_flat_iff]
        refine ⟨f0, N, d0, d0, hu', ?_⟩
        simp only [eo]
        rw [parseKerning_flat]
        refine ⟨d0, d0, d0, ka, ka, ?_, rfl⟩
        simp only [eo]
      · simp only [eo]; exact Or.inl hwh
    · have hcnt : u24At D d0 ≤ N * N := by
        rcases hkk1.2 with h1 | h1
        · omega
        · exact h1.2.1
      by_cases hlv : n < j
      · right
        refine ⟨fun x hx => ?_, by omega⟩
        obtain ⟨fx, ix, dx⟩ := x
        obtain ⟨f1, n1, i1, d1, hu1, hk1'⟩ := parseBody_flat_iff.1 hx
        rw [hu'] at hu1
        simp only [Res.ok.injEq, Prod.mk.injEq] at hu1
        obtain ⟨⟨rfl, rfl⟩, rfl, rfl⟩ := hu1
        obtain ⟨j2, _, _, hj2, _⟩ := parseKerning_flat.1 hk1'
        rw [parseKernTable_flat] at hj2
        have e1 : kernSize (D.take n) d0 = kernSize D d0 := by
          unfold kernSize; rw [u24t _ (by omega)]
        omega
      · have ka : (parseKernTable N).flat (D.take n) d0 d0 = .ok ((), j, d0) := by
          rw [parseKernTable_flat]
          have e1 : kernSize (D.take n) d0 = kernSize D d0 := by
            unfold kernSize; rw [u24t _ (by omega)]
          exact ⟨rfl, Or.inr ⟨by omega, by rw [u24t _ (by omega)]; exact hcnt, by omega, by omega⟩⟩
        by_cases hwv : n < j + 3
        · left
          have kb : (parseKernTable N).flat (D.take n) j d0 = .ok ((), j, d0) := by
            rw [parseKernTable_flat]; exact ⟨rfl, Or.inl ⟨by omega, rfl⟩⟩
          have eo := u32_eq hD hi0
          have ej := u32_eq hD hj
          refine ⟨⟨{ f0 with offHorzKern := u32 d0, offVertKern := u32 j }, ?_, ?_⟩, Or.inr ⟨by omega, hwv⟩⟩
          · rw [parseBody_flat_iff]
            refine ⟨f0, N, d0, d0, hu', ?_⟩
            simp only [eo, ej]
            rw [parseKerning_flat]
            refine ⟨j, d0, d0, ka, kb, ?_, rfl⟩
            simp only [eo, ej]
          · simp only [eo, ej]; exact Or.inr hwv
        · right
          refine ⟨fun x hx => ?_, by omega⟩
          obtain ⟨fx, ix, dx⟩ := x
          obtain ⟨f1, n1, i1, d1, hu1, hk1'⟩ := parseBody_flat_iff.1 hx
          rw [hu'] at hu1
          simp only [Res.ok.injEq, Prod.mk.injEq] at hu1
          obtain ⟨⟨rfl, rfl⟩, rfl, rfl⟩ := hu1
          obtain ⟨j2, d3, _, hj2, hj3, _⟩ := parseKerning_flat.1 hk1'
          rw [ka] at hj2
          simp only [Res.ok.injEq, Prod.mk.injEq, true_and] at hj2
          obtain ⟨rfl, rfl⟩ := hj2
          rw [parseKernTable_flat] at hj3
          have e1 : kernSize (D.take n) j = kernSize D j := by
            unfold kernSize; rw [u24t _ (by omega)]
          omega

end ParseModel
