import Verif.Lemmas.TesterRun

/-!
# Sequences
-/

namespace TesterModel
open Go ScannerModel TreeModel FontModel Spec Tester Circular

variable {S : Nat → List Nat} {sets : TreeModel.Sets}

/-- Giving out `out` and keeping `u'` instead of `u` is right whatever follows. -/
def Emits (S : Nat → List Nat) (em : RuleCode → List Nat) (R : List RuleCode) (u out u' : List Nat) : Prop :=
  ∀ z o, BatchOf S em R (u' ++ z) o → BatchOf S em R (u ++ z) (out ++ o)

theorem Emits.refl (S : Nat → List Nat) (em : RuleCode → List Nat) (R : List RuleCode) (u : List Nat) : Emits S em R u [] u := fun _ _ h => h

theorem Emits.trans {em : RuleCode → List Nat} {R : List RuleCode} {u a v b w : List Nat} (h : Emits S em R u a v) (h' : Emits S em R v b w) :
    Emits S em R u (a ++ b) w := fun z o ho => by
  rw [List.append_assoc]
  exact h z _ (h' z o ho)

theorem TreesAt.final {Fs : Nat → List Fed} {u : List Nat} {l : List Inst} (h : TreesAt Fs u l)
    (hs : ¬ ∃ t ∈ l, t.tree.scanning = true) (z : List Nat) : ∀ t ∈ l, BestFor (Fs t.condition) (u ++ z) t.tree.best :=
  fun t ht => (h t ht).final (by simpa using fun h => hs ⟨t, ht, h⟩) z

theorem TreesAt.longer {Fs : Nat → List Fed} {u : List Nat} {l : List Inst} (h : TreesAt Fs u l)
    (hs : ¬ ∃ t ∈ l, t.tree.scanning = true) (z : List Nat) : TreesAt Fs (u ++ z) l :=
  fun t ht => (h t ht).longer (by simpa using fun h => hs ⟨t, ht, h⟩) z

section
variable {v : Variant} {word : Nat → Bytes} {em : RuleCode → List Nat} {R : List RuleCode} {cap : Nat}

theorem rerunLoop_ok (hR : RulesOk v word R) : ∀ (fuel : Nat) {T : Tester} {u : List Nat} {g d depth : Nat} {fr : Bool},
    Base S word R cap u T → Rep T.acc ⟨u, cap, d, fr⟩ → u[d]? = some g → TreesAt (fedGroup S R) (u.take d) T.trees →
    (∀ r ∈ R, r.OccursIn S u → Usable v word em R r) → u.length < fuel + d →
    ∃ T' out more, rerunLoop v fuel T g depth = .ok (T', out, more) ∧ Keeps T T' ∧
      ((more = false ∧ out = [] ∧ Run S word R cap u T') ∨
        ∃ u' n, Next S word R cap n u' T' ∧ u' <:+ u ∧ n < u.length ∧ Emits S em R u out u' ∧ (more = true ↔ n ≠ 0))
  | 0, T, u, g, d, depth, fr, h, _, hg, _, _, hf => by
    have := (List.getElem?_eq_some_iff.1 hg).1
    omega
  | fuel + 1, T, u, g, d, depth, fr, h, hrep, hg, hat, hU, hf => by
    obtain ⟨l', run, f1, f2, f3, f4⟩ := feedTrees_ok hR.groups g h.good hat
    have htk : u.take d ++ [g] = u.take (d + 1) := by
      obtain ⟨hd, rfl⟩ := List.getElem?_eq_some_iff.1 hg
      rw [List.take_append_getElem]
    rw [htk] at f3
    have hfa : feedAt g depth T.unflushed T.trees = .ok (l', run) := by
      unfold feedAt
      rw [h.unflushed, if_neg (by omega), f1]
    unfold rerunLoop
    rw [hfa, Res.ok_bind]
    simp only
    have hk : Keeps T { T with trees := l' } := ⟨rfl, rfl, rfl, f2⟩
    have hb : Base S word R cap u { T with trees := l' } := h.move hk h.unflushed h.acc
    cases run with
    | true =>
      rw [if_pos rfl]
      obtain ⟨k1, k2⟩ := peek_rep hrep
      simp only at k1 k2
      by_cases hd : d + 1 < u.length
      · obtain ⟨b', e1, e2⟩ := k1 hd
        rw [e1, Res.ok_bind]
        simp only
        rw [if_neg (by simp), List.getElem?_eq_getElem hd]
        simp only
        have hk' : Keeps T { T with trees := l', acc := b' } := ⟨rfl, rfl, rfl, f2⟩
        obtain ⟨T', out, more, i1, i2, i3⟩ := rerunLoop_ok hR fuel (depth := u8 (depth + 1))
          (T := { T with trees := l', acc := b' }) (d := d + 1) (u := u)
          (h.move hk' h.unflushed (holds_of_rep e2)) e2 (List.getElem?_eq_getElem hd) f3 hU (by omega)
        exact ⟨T', out, more, i1, hk'.trans i2, i3⟩
      · rw [k2 hd, Res.ok_bind]
        simp only
        rw [if_pos (by rfl)]
        refine ⟨_, _, _, rfl, hk, Or.inl ⟨rfl, rfl, hb, ?_, f4.1 rfl⟩⟩
        rw [List.take_of_length_le (by omega)] at f3
        exact f3
    | false =>
      rw [if_neg (by simp)]
      have hns : ¬ ∃ t ∈ l', t.tree.scanning = true := fun hh => by have := f4.2 hh; cases this
      have f3' := f3.longer hns (u.drop (d + 1))
      rw [List.take_append_drop] at f3'
      have hact : ∀ (T1 : Tester), T1.trees = l' → Keeps T T1 → Base S word R cap u T1 → ∃ T' out more,
          (do let (T, out) ← act v T1
              return (T, out, !T.acc.isEmpty) : Res (Tester × List Nat × Bool)) = .ok (T', out, more) ∧ Keeps T T' ∧
          ∃ u' n, Next S word R cap n u' T' ∧ u' <:+ u ∧ n < u.length ∧ Emits S em R u out u' ∧ (more = true ↔ n ≠ 0) := by
        intro T1 h1 h2 h3
        have hat' : TreesAt (fedGroup S R) u T1.trees := by rw [h1]; exact f3'
        obtain ⟨T', out, u', n, a1, a2, a3, a4, a5, a6⟩ := act_ok hR h3 hat' (by
          rintro rfl; simp at hg) hU
        rw [a1, Res.ok_bind]
        refine ⟨_, _, _, rfl, h2.trans a2, u', n, a3, a4, a5, ?_, ?_⟩
        · intro z o ho
          refine a6 z ?_ o ho
          rw [h1]
          exact f3'.final hns z
        · simp [Circular.Buf.isEmpty, a3.num]
      by_cases hbm : bestMatch l' ruleNone = ruleNone
      · rw [if_pos hbm]
        obtain ⟨T', out, more, a1, a2, a3⟩ := hact { T with trees := l', acc := T.acc.discardPeeks } rfl
          ⟨rfl, rfl, rfl, f2⟩ (h.move ⟨rfl, rfl, rfl, f2⟩ h.unflushed (holds_of_rep (rep_discard hrep)))
        exact ⟨T', out, more, a1, a2, Or.inr a3⟩
      · rw [if_neg hbm]
        obtain ⟨T', out, more, a1, a2, a3⟩ := hact { T with trees := l' } rfl hk hb
        exact ⟨T', out, more, a1, a2, Or.inr a3⟩

theorem rerun_mid (hR : RulesOk v word R) (hne : R ≠ []) {T : Tester} {u : List Nat} (h : Mid S word R cap u T)
    (hU : ∀ r ∈ R, r.OccursIn S u → Usable v word em R r) :
    ∃ T' out more, rerun v T = .ok (T', out, more) ∧ Keeps T T' ∧
      ((more = false ∧ out = [] ∧ Run S word R cap u T') ∨
        ∃ u' n, Next S word R cap n u' T' ∧ u' <:+ u ∧ n < u.length ∧ Emits S em R u out u' ∧ (more = true ↔ n ≠ 0)) := by
  unfold rerun
  cases u with
  | nil =>
    rw [if_pos (h.acc.isEmpty.2 rfl)]
    exact ⟨T, [], false, rfl, Keeps.refl T, Or.inl ⟨rfl, rfl, mid_run h hne⟩⟩
  | cons x u =>
    rw [if_neg (by rw [h.acc.isEmpty]; simp)]
    obtain ⟨fr, hrep⟩ := h.acc
    have hd : Holds T.acc.discardPeeks (x :: u) cap := holds_of_rep hrep
    simp only
    rw [head_holds hd, Res.ok_bind]
    have hk : Keeps T { T with acc := T.acc.discardPeeks } := ⟨rfl, rfl, rfl, rfl⟩
    obtain ⟨T', out, more, i1, i2, i3⟩ := rerunLoop_ok hR (T.acc.discardPeeks.numElements + 1) (depth := 0) (d := 0)
      (T := { T with acc := T.acc.discardPeeks }) (u := x :: u) (g := x)
      (h.toBase.move hk h.unflushed hd) hrep rfl (by simpa using h.start) hU (by rw [hd.num]; omega)
    exact ⟨T', out, more, i1, hk.trans i2, i3⟩

/-- An element that has already been reported is taken out at once. -/
theorem rerun_late (hR : RulesOk v word R) {T : Tester} {x : Nat} {u : List Nat} (h : Late S word R cap x u T) :
    ∃ T' more, rerun v T = .ok (T', [], more) ∧ Keeps T T' ∧ Mid S word R cap u T' ∧ (more = true ↔ u ≠ []) := by
  unfold rerun
  rw [if_neg (by rw [h.acc.isEmpty]; simp)]
  obtain ⟨fr, hrep⟩ := h.acc
  have hd : Holds T.acc.discardPeeks (x :: u) cap := holds_of_rep hrep
  have hd' : Holds T.acc.discardPeeks.discardPeeks (x :: u) cap := holds_of_rep (rep_discard hrep)
  simp only
  rw [head_holds hd, Res.ok_bind]
  obtain ⟨l', f1, f2, f3⟩ := feedTreesHead_stop hR.groups (n := T.unflushed) (fun c f hf => by
    obtain ⟨r, i, _, h1, _, _, rfl⟩ := mem_fedGroup.1 hf
    exact h.headless r (List.mem_of_getElem? h1)) (by rw [h.unflushed]; omega) x h.good h.start h.scan
  unfold rerunLoop
  have hfa : feedAt x 0 T.unflushed T.trees = .ok (l', false) := by
    unfold feedAt
    rw [if_pos (by rw [h.unflushed]; omega), f1]
  simp only
  rw [hfa, Res.ok_bind]
  simp only
  rw [if_neg (by simp), if_pos (bestMatch_none f3)]
  obtain ⟨l2, r1, r2, r3, r4⟩ := restartAll_ok hR.groups (l := l')
  obtain ⟨b', p1, p2⟩ := pop_holds hd'
  unfold act
  rw [if_pos (bestMatch_none f3)]
  unfold popOldest
  simp only
  rw [p1, Res.ok_bind]
  simp only [r1, Res.ok_bind]
  rw [if_pos (by rw [h.unflushed]; omega)]
  have hs := f2.trans r2
  refine ⟨_, _, rfl, ⟨rfl, rfl, rfl, hs⟩, ⟨⟨h.rules, ?_, p2, hs.good h.good, ?_, h.fits⟩, r3, r4⟩, ?_⟩
  · show T.unflushed - 1 = 0
    rw [h.unflushed]
  · intro r hr
    obtain ⟨t, ht, hc⟩ := h.cover r hr
    obtain ⟨t', ht', he⟩ := hs.symm.mem ht
    simp only [sig, Prod.mk.injEq] at he
    exact ⟨t', ht', he.1.trans hc⟩
  · have := p2.isEmpty
    simp only [Bool.not_eq_true', ne_eq, ← this]
    simp

theorem rerun_ok (hR : RulesOk v word R) (hne : R ≠ []) {T : Tester} {u : List Nat} {n : Nat} (h : Next S word R cap n u T)
    (hU : ∀ r ∈ R, r.OccursIn S u → Usable v word em R r) :
    ∃ T' out more, rerun v T = .ok (T', out, more) ∧ Keeps T T' ∧
      ((more = false ∧ out = [] ∧ Run S word R cap u T') ∨
        ∃ u' n', Next S word R cap n' u' T' ∧ u' <:+ u ∧ n' < n ∧ Emits S em R u out u' ∧ (more = true ↔ n' ≠ 0)) := by
  rcases h with ⟨h, rfl⟩ | ⟨x, h, rfl⟩
  · exact rerun_mid hR hne h hU
  · obtain ⟨T', more, h1, h2, h3, h4⟩ := rerun_late hR h
    refine ⟨T', [], more, h1, h2, Or.inr ⟨u, u.length, Or.inl ⟨h3, rfl⟩, List.suffix_refl _, by omega, Emits.refl S em R u, ?_⟩⟩
    rw [h4, ne_eq, ne_eq, List.length_eq_zero_iff]

theorem rerunAll_ok (hR : RulesOk v word R) (hne : R ≠ []) : ∀ (fuel : Nat) {T : Tester} {u : List Nat} {n : Nat},
    Next S word R cap n u T → (∀ r ∈ R, r.OccursIn S u → Usable v word em R r) → n < fuel →
    ∃ T' out u', rerunAll v fuel T = .ok (T', out) ∧ Keeps T T' ∧ Run S word R cap u' T' ∧ u' <:+ u ∧ Emits S em R u out u'
  | 0, T, u, n, h, _, hf => absurd hf (by omega)
  | fuel + 1, T, u, n, h, hU, hf => by
    obtain ⟨T1, out, more, h1, h2, h3⟩ := rerun_ok hR hne h hU
    unfold rerunAll
    rw [h1, Res.ok_bind]
    simp only
    rcases h3 with ⟨rfl, rfl, h3⟩ | ⟨u1, n1, h3, h4, h5, h6, h7⟩
    · rw [if_neg (by simp)]
      exact ⟨T1, [], u, rfl, h2, h3, List.suffix_refl _, Emits.refl S em R u⟩
    · by_cases hm : more = true
      · rw [if_pos hm]
        obtain ⟨T2, out2, u2, i1, i2, i3, i4, i5⟩ := rerunAll_ok hR hne fuel h3
          (fun r hr hi => hU r hr (hi.mono h4.isInfix)) (by omega)
        rw [i1, Res.ok_bind]
        exact ⟨T2, out ++ out2, u2, rfl, h2.trans i2, i3, i4.trans h4, h6.trans i5⟩
      · rw [if_neg hm]
        have hn1 : n1 = 0 := Decidable.not_not.1 fun hh => hm (h7.2 hh)
        rcases h3 with ⟨h3, h8⟩ | ⟨_, _, h8⟩
        · have hu1 : u1 = [] := List.length_eq_zero_iff.1 (by omega)
          subst hu1
          exact ⟨T1, out, [], rfl, h2, mid_run h3 hne, h4, h6⟩
        · omega

theorem feedOne_ok (hR : RulesOk v word R) (hne : R ≠ []) {T : Tester} {u : List Nat} {g : Nat}
    (h : Run S word R cap u T) (hop : T.operating = true) (hs : v.skip g = false) (hb : v.bad g = false)
    (hU : ∀ r ∈ R, r.OccursIn S (u ++ [g]) → Usable v word em R r) :
    ∃ T' out u', feed v T g = .ok (T', out, none) ∧ Keeps T T' ∧ Run S word R cap u' T' ∧ u' <:+ u ++ [g] ∧
      Emits S em R (u ++ [g]) out u' := by
  obtain ⟨b', p1, p2⟩ := push_holds h.acc g (h.room hR hne)
  obtain ⟨l', run, f1, f2, f3, f4⟩ := feedTrees_ok hR.groups g h.good h.at_
  unfold Tester.feed
  rw [if_neg (by simp [hop]), if_neg (by simp [hs]), if_neg (by simp [hb]), p1, Res.ok_bind, f1, Res.ok_bind]
  simp only
  have hk : Keeps T { T with acc := b', trees := l' } := ⟨rfl, rfl, rfl, f2⟩
  have hbase : Base S word R cap (u ++ [g]) { T with acc := b', trees := l' } := h.toBase.move hk h.unflushed p2
  cases run with
  | true =>
    rw [if_pos rfl]
    exact ⟨_, _, u ++ [g], rfl, hk, ⟨hbase, f3, f4.1 rfl⟩, List.suffix_refl _, Emits.refl S em R _⟩
  | false =>
    rw [if_neg (by simp)]
    have hns : ¬ ∃ t ∈ l', t.tree.scanning = true := fun hh => by have := f4.2 hh; cases this
    obtain ⟨T1, out, u1, n1, a1, a2, a3, a4, a5, a6⟩ := act_ok hR hbase f3 (by simp) hU
    rw [a1, Res.ok_bind]
    simp only
    obtain ⟨T2, out2, u2, i1, i2, i3, i4, i5⟩ := rerunAll_ok hR hne (T1.acc.numElements + 1) a3
      (fun r hr hi => hU r hr (hi.mono a4.isInfix)) (by rw [a3.num]; omega)
    rw [i1, Res.ok_bind]
    refine ⟨T2, out ++ out2, u2, rfl, hk.trans (a2.trans i2), i3, i4.trans a4, ?_⟩
    refine Emits.trans ?_ i5
    exact fun z o ho => a6 z (f3.final hns z) o ho

theorem breakLoop_ok (hR : RulesOk v word R) (hne : R ≠ []) : ∀ (fuel : Nat) {T : Tester} {u : List Nat},
    Run S word R cap u T → (∀ r ∈ R, r.OccursIn S u → Usable v word em R r) → u.length < fuel →
    ∃ T' out, breakLoop v fuel T = .ok (T', out) ∧ Keeps T T' ∧ Run S word R cap [] T' ∧ BatchOf S em R u out
  | 0, T, u, h, _, hf => absurd hf (by omega)
  | fuel + 1, T, u, h, hU, hf => by
    unfold breakLoop
    rw [h.acc.num, h.unflushed]
    by_cases hu : u = []
    · subst hu
      rw [if_neg (by simp)]
      exact ⟨T, [], rfl, Keeps.refl T, h, BatchOf.nil⟩
    · rw [if_pos (List.length_pos_iff.2 hu)]
      obtain ⟨T1, out, u1, n1, a1, a2, a3, a4, a5, a6⟩ := act_ok hR h.toBase h.at_ hu hU
      rw [a1, Res.ok_bind]
      simp only
      have hU1 := fun r hr hi => hU r hr (RuleCode.OccursIn.mono hi a4.isInfix)
      obtain ⟨T2, out2, u2, i1, i2, i3, i4, i5⟩ := rerunAll_ok hR hne (T1.acc.numElements + 1) a3 hU1
        (by rw [a3.num]; omega)
      rw [i1, Res.ok_bind]
      simp only
      have hl2 := i4.length_le
      have hl1 : u1.length ≤ n1 := by rcases a3 with ⟨_, h⟩ | ⟨_, _, h⟩ <;> omega
      obtain ⟨T3, out3, j1, j2, j3, j4⟩ := breakLoop_ok hR hne fuel i3
        (fun r hr hi => hU1 r hr (RuleCode.OccursIn.mono hi i4.isInfix)) (by omega)
      rw [j1, Res.ok_bind]
      refine ⟨T3, _, rfl, a2.trans (i2.trans j2), j3, ?_⟩
      have h5 := i5 [] out3 (by simpa using j4)
      have h6 := a6 [] (fun t ht => by
        rw [List.append_nil]; exact (h.at_ t ht).best) _ h5
      simpa using h6

theorem finish_ok (hR : RulesOk v word R) (hne : R ≠ []) {T : Tester} {u : List Nat}
    (h : Run S word R cap u T) (hop : T.operating = true) (hU : ∀ r ∈ R, r.OccursIn S u → Usable v word em R r) :
    ∃ T' out, finishSequence v T = .ok (T', out) ∧ Base S word R cap [] T' ∧ T'.operating = false ∧
      T'.recompile = T.recompile ∧ Same T.trees T'.trees ∧ BatchOf S em R u out := by
  unfold finishSequence breakSequence
  rw [if_neg (by simp [hop])]
  obtain ⟨T1, out, h1, h2, h3, h4⟩ := breakLoop_ok hR hne (T.acc.numElements + 1) h hU (by rw [h.acc.num]; omega)
  rw [h1, Res.ok_bind]
  exact ⟨_, _, rfl, ⟨h3.rules, h3.unflushed, h3.acc, h3.good, h3.cover, h3.fits⟩, rfl, h2.recompile, h2.trees, h4⟩

end
end TesterModel
