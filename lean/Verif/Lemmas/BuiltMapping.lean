import Verif.Lemmas.Switch

/-! # Lookups in a built font -/

namespace BuilderModel
open Go Helpers Spec FontModel

variable {env : Env} {b b' : Builder} {f : Font} {s : Parts} {w bi : GoMap Bytes Int}

theorem order_le (h : Built env b b' f s w bi) : b.glyphOrder.length ≤ 56789 := by
  have := h.count
  have := h.order
  simp only [maxGlyphs] at *
  omega

theorem utf8_none (h : Built env b b' f s w bi) (hm : MapOk b) {c : Int}
    (hc : -2147483648 ≤ c ∧ c < 2147483648) (hn : b.runeMapping.get c = none) (settings : List Nat) :
    f.utf8 (runeBits c) settings = .ok none := by
  have hr : ∀ c ∈ b.runeMapping.keys, c < 2147483648 := by
    intro c hc
    obtain ⟨e, he, rfl⟩ := List.mem_map.1 hc
    exact hm.runes e he
  rw [Font.utf8, built_none h hm.keys hr c hc hn]
  rfl

/-- Single glyphs. -/
theorem utf8_single (h : Built env b b' f s w bi) (hm : MapOk b)
    (hsize : f.offConditions - (f.offMapping + (2 + 7 * b.runeMapping.length)) ≤ 16777215) {c : Int}
    (hc : -2147483648 ≤ c ∧ c < 2147483648) {u : Nat} {fl : UInt8}
    (he : b.runeMapping.get c = some ⟨255, [⟨[u], fl⟩]⟩) (settings : List Nat) :
    ∃ g i, f.utf8 (runeBits c) settings = .ok (some g) ∧ b.glyphOrder[i]? = some u ∧
      f.groupSize g = .ok 1 ∧ f.groupAnimFlags g = .ok 0 ∧ f.groupSelect g 0 = .ok i := by
  have hr : ∀ c ∈ b.runeMapping.keys, c < 2147483648 := by
    intro c hc
    obtain ⟨e, he, rfl⟩ := List.mem_map.1 hc
    exact hm.runes e he
  have e1 : b'.glyphOrder = b.glyphOrder := by rw [h.b'_eq]
  obtain ⟨l, x, o, h1, h2, h3, h4⟩ := built_entry h hm.keys hr hsize c hc _ he
  simp only [Builder.entryBytes, if_true, Res.bind_eq_ok, Res.pure_eq, Res.ok.injEq] at h1
  obtain ⟨i, hi, rfl⟩ := h1
  have hol := order_le h
  have hi' := (Builder.glyphIndexP_iff (by rw [e1]; exact hm.order) (by rw [e1]; omega)).1 hi
  rw [e1] at hi'
  refine ⟨{ offset := mappingData f.data f + (o + 1), switchType := 255, direct := true }, i, ?_, hi',
    rfl, rfl, ?_⟩
  · rw [Font.utf8, h4, Res.ok_bind]
    rfl
  · have := h3.right
    rw [Font.groupSelect]
    simp only [if_true, ne_eq, not_true_eq_false, if_false]
    rw [show mappingData f.data f + (o + 1) = mappingData f.data f + o + 1 by omega]
    obtain ⟨hlt, _⟩ := List.getElem?_eq_some_iff.1 hi'
    rw [show List.length [byte 255] = 1 from rfl] at this
    rw [this.rd16, Nat.mod_eq_of_lt (by omega)]

/-- Groups without a switch. -/
theorem utf8_group (h : Built env b b' f s w bi) (hm : MapOk b)
    (hsize : f.offConditions - (f.offMapping + (2 + 7 * b.runeMapping.length)) ≤ 16777215) {c : Int}
    (hc : -2147483648 ≤ c ∧ c < 2147483648) {g : MapGroup}
    (he : b.runeMapping.get c = some ⟨254, [g]⟩) (settings : List Nat) :
    ∃ r, ∃ st : Stored, f.utf8 (runeBits c) settings = .ok (some r) ∧ r.direct = false ∧
      At f.data r.offset st.bytes ∧ st.Valid ∧ st.glyphs.Pairwise (· ≤ ·) ∧
      (st.glyphs.map fun i => b.glyphOrder[i]?).Perm (g.glyphs.map some) ∧
      st.flags = g.animFlags.toNat := by
  have hr : ∀ c ∈ b.runeMapping.keys, c < 2147483648 := by
    intro c hc
    obtain ⟨e, he, rfl⟩ := List.mem_map.1 hc
    exact hm.runes e he
  have e1 : b'.glyphOrder = b.glyphOrder := by rw [h.b'_eq]
  have hol := order_le h
  obtain ⟨l, x, o, h1, h2, h3, h4⟩ := built_entry h hm.keys hr hsize c hc _ he
  simp only [Builder.entryBytes, show ¬ (254 = 255) by decide, if_true, if_false, ite_panic,
    Res.bind_eq_ok, Res.pure_eq, Res.ok.injEq] at h1
  obtain ⟨hlen, y, hy, rfl⟩ := h1
  obtain ⟨st, s1, s2, s3, s4, s5, s6⟩ := Builder.groupBytes_stored (by rw [e1]; exact hm.order)
    (by rw [e1]; omega) hy
  subst s2
  refine ⟨{ offset := mappingData f.data f + (o + 1), switchType := 254 }, st, ?_, rfl, ?_, s1, s3,
    by rw [← e1]; exact s4, s5 (by omega)⟩
  · rw [Font.utf8, h4, Res.ok_bind]
    rfl
  · have := h3.right
    rw [Nat.add_assoc] at this
    exact this

/-- Groups with a switch. -/
theorem utf8_switch (h : Built env b b' f s w bi) (hm : MapOk b)
    (hsize : f.offConditions - (f.offMapping + (2 + 7 * b.runeMapping.length)) ≤ 16777215) {c : Int}
    (hc : -2147483648 ≤ c ∧ c < 2147483648) {e : MapEntry}
    (he : b.runeMapping.get c = some e) (ht : e.switchType < 254) :
    ∃ sts : List Stored, sts.length = e.cases.length ∧
      (∀ i (hi : i < e.cases.length) (hs : i < sts.length), sts[i].Valid ∧
        sts[i].glyphs.Pairwise (· ≤ ·) ∧
        (sts[i].glyphs.map fun i => b.glyphOrder[i]?).Perm (e.cases[i].glyphs.map some) ∧
        (2 ≤ e.cases[i].glyphs.length → sts[i].flags = e.cases[i].animFlags.toNat) ∧
        (e.cases[i].glyphs.length = 1 → ∃ j, sts[i] = .single j)) ∧
      ∀ settings k, f.evaluateSwitch e.switchType settings = .ok k → (hk : k < sts.length) →
        (∀ i (hi : i < sts.length), i < k → sts[i].Skippable) →
        ∃ r, f.utf8 (runeBits c) settings = .ok (some r) ∧ r.direct = false ∧ r.caseBranch = k ∧
          r.switchType = e.switchType ∧ At f.data r.offset sts[k].bytes := by
  have hr : ∀ c ∈ b.runeMapping.keys, c < 2147483648 := by
    intro c hc
    obtain ⟨e, he, rfl⟩ := List.mem_map.1 hc
    exact hm.runes e he
  have e1 : b'.glyphOrder = b.glyphOrder := by rw [h.b'_eq]
  have hol := order_le h
  obtain ⟨l, x, o, h1, h2, h3, h4⟩ := built_entry h hm.keys hr hsize c hc _ he
  rw [Builder.entryBytes, if_neg (by omega), if_neg (by omega)] at h1
  simp only [Res.bind_eq_ok, Res.pure_eq, Res.ok.injEq] at h1
  obtain ⟨y, hy, rfl⟩ := h1
  obtain ⟨sts, t1, t2, t3⟩ := Builder.casesBytes_stored (by rw [e1]; exact hm.order)
    (by rw [e1]; omega) hy
  subst t2
  refine ⟨sts, t1, fun i hi hs => ?_, ?_⟩
  · obtain ⟨q1, _, q2, q3, q4, q5⟩ := t3 i hi hs
    rw [e1] at q3
    exact ⟨q1, q2, q3, q4, q5⟩
  · intro settings k hk hlt hskip
    have hat := h3.right
    rw [show List.length [byte e.switchType] = 1 from rfl, Nat.add_assoc] at hat
    have hv : ∀ g ∈ sts, g.Valid := by
      intro g hg
      obtain ⟨j, hj, rfl⟩ := List.getElem_of_mem hg
      exact (t3 j (by omega) hj).1
    obtain ⟨o', ho, hat'⟩ := staircase_eq (gs := sts) (start := o + 1) (k := k)
      (endOff := o + ([byte e.switchType] ++ (sts.map Stored.bytes).flatten).length)
      hat hv hlt (by simp; omega) hskip
    rw [List.getElem?_eq_getElem hlt] at hat'
    refine ⟨{ offset := mappingData f.data f + o', switchType := e.switchType, caseBranch := k }, ?_,
      rfl, rfl, rfl, hat'⟩
    rw [Font.utf8, h4, Res.ok_bind]
    have hmod : e.switchType % 256 = e.switchType := Nat.mod_eq_of_lt (by omega)
    simp only [hmod]
    rw [if_neg (by omega), if_pos (by omega), hk, Res.ok_bind, ho]
    rfl

/-- Evaluation of a switch of a built font. -/
theorem evaluate_built (h : Built env b b' f s w bi) {k : Nat} (hk : k < b.switches.length)
    (hok : SwitchOk b b.switches[k]) {settings : List Nat} (hset : b.settings.length ≤ settings.length) :
    f.evaluateSwitch k settings = .ok
      (mixedRadix (b.switches[k].map fun j => (options b j, settings.getD j 0)) % 256) := by
  obtain ⟨h1, h2, h3, h4⟩ := switch_built h hk
  obtain ⟨_, n2, _⟩ := numSettings_built h
  refine Font.evaluateSwitch_eq (by omega) hok.some (by rw [h1]; exact h2) h3 ?_ ?_ ?_
  · intro i hi
    have hm := hok.exist _ (List.getElem_mem hi)
    rw [h1, h4 i hi, Nat.mod_eq_of_lt (by omega)]
  · intro j hj
    have := hok.exist _ hj
    omega
  · intro j hj
    have hlt := hok.exist _ hj
    have hne := hok.nonempty _ hj
    have e : options b j = b.settings[j].options.length := by
      simp [options, List.getElem?_eq_getElem hlt]
    rw [e]
    exact (numOptions_built h hok.sizes hlt (fun e0 => hne (by rw [e, e0]; rfl))).1

open Builder (wrapInt)

theorem wrapInt_mul (x : Int) (m : Nat) : wrapInt (wrapInt x * m) = wrapInt (x * m) :=
  Int.bmod_mul_bmod

/-- When a wrapped number is a length. -/
theorem wrapInt_eq_nat {m k : Nat} :
    wrapInt m = k ↔ m % 18446744073709551616 = k ∧ k < 9223372036854775808 := by
  rw [wrapInt, Int.bmod_def]
  split <;> omega

theorem numCasesLoop_ok (b : Builder) : ∀ (sw : List Nat) (i m : Nat) (r : Int), (i = 0 → sw ≠ []) →
    Builder.numCasesLoop b sw i (wrapInt m) = .ok r →
    (∀ k ∈ sw, k < b.settings.length ∧ options b k ≠ 0) ∧
    r = wrapInt ((sw.map (options b)).foldl (· * ·) (if i = 0 then 1 else m) : Nat) := by
  intro sw
  induction sw with
  | nil =>
    intro i m r hi h
    simp only [Builder.numCasesLoop, Res.ok.injEq] at h
    have : i ≠ 0 := fun e => hi e rfl
    simp [this, h]
  | cons k sw ih =>
    intro i m r _ h
    simp only [Builder.numCasesLoop, Res.bind_eq_ok, ite_panic] at h
    obtain ⟨x, hx, hne, hr⟩ := h
    rw [idx_eq_ok] at hx
    have eo : options b k = x.options.length := by simp [options, hx]
    have em : wrapInt (if i = 0 then (x.options.length : Int) else wrapInt m * x.options.length) =
        wrapInt ((if i = 0 then x.options.length else m * x.options.length : Nat)) := by
      split
      · rfl
      · rw [wrapInt_mul, Int.natCast_mul]
    rw [em] at hr
    obtain ⟨i1, i2⟩ := ih _ _ _ (by simp) hr
    refine ⟨?_, ?_⟩
    · intro j hj
      rcases List.mem_cons.1 hj with rfl | hj
      · exact ⟨(List.getElem?_eq_some_iff.1 hx).1, by rw [eo]; exact hne⟩
      · exact i1 j hj
    · rw [i2, List.map_cons, List.foldl_cons, if_neg (by omega), eo]
      congr 3
      split <;> simp

/-- The number of cases. -/
theorem numCases_ok {b : Builder} {k : Nat} {n : Int} (hk : k < 254)
    (h : b.computeNumSwitchCases k = .ok n) (hne : ∀ s ∈ b.switches, s ≠ []) :
    ∃ sw, b.switches[k]? = some sw ∧ sw ≠ [] ∧
      (∀ j ∈ sw, j < b.settings.length ∧ options b j ≠ 0) ∧ n = wrapInt (combinations (sw.map (options b))) := by
  simp only [Builder.computeNumSwitchCases, if_neg (show ¬ k ≥ 254 by omega), Res.bind_eq_ok] at h
  obtain ⟨sw, hs, hl⟩ := h
  rw [idx_eq_ok] at hs
  have hn := hne sw (List.mem_of_getElem? hs)
  obtain ⟨h1, h2⟩ := numCasesLoop_ok b sw 0 0 n (fun _ => hn) hl
  exact ⟨sw, hs, hn, h1, h2⟩

/-- The number of groups of an entry. -/
theorem numCases_length {b : Builder} {k n : Nat} (hk : k < 254)
    (h : b.computeNumSwitchCases k = .ok (n : Int)) (hne : ∀ s ∈ b.switches, s ≠ []) :
    ∃ sw, b.switches[k]? = some sw ∧ sw ≠ [] ∧ (∀ j ∈ sw, j < b.settings.length ∧ options b j ≠ 0) ∧
      combinations (sw.map (options b)) % 18446744073709551616 = n ∧ n < 9223372036854775808 := by
  obtain ⟨sw, h1, h2, h3, h4⟩ := numCases_ok hk h hne
  exact ⟨sw, h1, h2, h3, wrapInt_eq_nat.1 h4.symm⟩

/-- The check of `AddSwitch`. -/
theorem checkSwitch_eq (n : Nat) : ∀ (l seen : List Nat),
    (Builder.checkSwitch n l seen = .ok () ∧ (l.Nodup ∧ ∀ k ∈ l, k ∉ seen) ∧ ∀ k ∈ l, k < n) ∨
    ((∃ m, Builder.checkSwitch n l seen = .err m) ∧
      ¬ ((l.Nodup ∧ ∀ k ∈ l, k ∉ seen) ∧ ∀ k ∈ l, k < n)) := by
  intro l
  induction l with
  | nil => intro seen; exact .inl ⟨rfl, by simp⟩
  | cons a l ih =>
    intro seen
    rw [Builder.checkSwitch]
    split
    · exact .inr ⟨⟨_, rfl⟩, fun h => by have := h.2 a (by simp); omega⟩
    · split
      · rename_i hm
        exact .inr ⟨⟨_, rfl⟩, fun h => h.1.2 a (by simp) hm⟩
      · rename_i hlt hm
        rcases ih (a :: seen) with ⟨h1, ⟨h2, h3⟩, h4⟩ | ⟨h1, h2⟩
        · refine .inl ⟨h1, ⟨List.nodup_cons.2 ⟨fun ha => h3 a ha (by simp), h2⟩, ?_⟩, ?_⟩
          · intro k hk
            rcases List.mem_cons.1 hk with rfl | hk
            · exact hm
            · exact fun hs => h3 k hk (by simp [hs])
          · intro k hk
            rcases List.mem_cons.1 hk with rfl | hk
            · omega
            · exact h4 k hk
        · refine .inr ⟨h1, fun h => h2 ⟨⟨(List.nodup_cons.1 h.1.1).2, ?_⟩, fun k hk => h.2 k (by simp [hk])⟩⟩
          intro k hk hs
          rcases List.mem_cons.1 hs with rfl | hs
          · exact (List.nodup_cons.1 h.1.1).1 hk
          · exact h.1.2 k (by simp [hk]) hs

theorem idxOf_getElem {l : List Nat} (h : l.Nodup) {i : Nat} (hi : i < l.length) :
    l.idxOf l[i] = i := by
  have hm := List.idxOf_lt_length_of_mem (List.getElem_mem hi)
  have e : l[l.idxOf l[i]] = l[i] := List.getElem_idxOf hm
  rcases Nat.lt_trichotomy (l.idxOf l[i]) i with hlt | heq | hgt
  · exact absurd e (List.pairwise_iff_getElem.1 (List.nodup_iff_pairwise_ne.1 h) _ _ hm hi hlt)
  · exact heq
  · exact absurd e.symm (List.pairwise_iff_getElem.1 (List.nodup_iff_pairwise_ne.1 h) _ _ hi hm hgt)

theorem switchLoop_lt {f : Font} {settings : List Nat} {d : Nat} : ∀ (n e c r v : Nat),
    f.switchLoop settings d n e c r = .ok v → v < 256 := by
  intro n
  induction n with
  | zero =>
    intro e c r v h
    simp only [Font.switchLoop, Res.bind_eq_ok, Res.pure_eq, Res.ok.injEq] at h
    obtain ⟨_, _, _, _, rfl⟩ := h
    exact Nat.mod_lt _ (by decide)
  | succ n ih =>
    intro e c r v h
    simp only [Font.switchLoop, Res.bind_eq_ok] at h
    obtain ⟨_, _, _, _, _, _, h⟩ := h
    exact ih _ _ _ _ h

/-- Cases are 8-bit numbers. -/
theorem evaluateSwitch_lt {f : Font} {settings : List Nat} {k v : Nat}
    (h : f.evaluateSwitch k settings = .ok v) : v < 256 := by
  simp only [Font.evaluateSwitch, Res.bind_eq_ok, ite_panic] at h
  obtain ⟨_, _, _, _, _, _, _, _, h⟩ := h
  exact switchLoop_lt _ _ _ _ _ h

end BuilderModel
