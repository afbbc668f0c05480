import Verif.Lemmas.TesterWorld

/-!
# What testers need to begin a sequence

The rules of each condition have to compile.
-/

namespace TesterModel
open Go ScannerModel TreeModel FontModel CacheModel Spec Tester

theorem compileTrees_all {k : Kind} {mv : Nat → Bool} {sets : Sets} {f : Font} {rules : List Bytes} :
    ∀ {l l' : List Inst} {c c' : Compiler} {s s' : SettingsCache},
    compileTrees k mv sets f rules l c s = .ok (l', c', s', none) → ∀ t ∈ l, t.resync = true →
    ∃ mine c1 out, rulesWith t.condition rules 0 = .ok mine ∧ compile k mv sets mine c1 = .ok out
  | [], _, _, _, _, _, _, _, ht, _ => by cases ht
  | x :: l, l', c, c', s, s', h, t, ht, hr => by
    rw [compileTrees, Res.bind_eq_ok] at h
    obtain ⟨⟨s1, x1⟩, h1, h⟩ := h
    have hx : x1.resync = x.resync ∧ x1.condition = x.condition := by
      split at h1
      · rw [Res.bind_eq_ok] at h1
        obtain ⟨⟨s2, b⟩, _, h1⟩ := h1
        simp only [Res.pure_eq, Res.ok.injEq, Prod.mk.injEq] at h1
        rw [← h1.2]; exact ⟨rfl, rfl⟩
      · simp only [Res.pure_eq, Res.ok.injEq, Prod.mk.injEq] at h1
        rw [← h1.2]; exact ⟨rfl, rfl⟩
    simp only at h
    split at h
    · rw [Res.bind_eq_ok] at h
      obtain ⟨c1, h2, h⟩ := h
      rw [Res.bind_eq_ok] at h
      obtain ⟨mine, h3, h⟩ := h
      cases h4 : feedAll k mv sets mine c1 with
      | panic e => rw [h4] at h; cases h
      | err e => rw [h4] at h; simp at h
      | ok c2 =>
        rw [h4] at h
        simp only [Res.bind_eq_ok] at h
        obtain ⟨⟨S, c3⟩, h5, ⟨l2, c4, s4, e⟩, h6, h⟩ := h
        simp only [Res.pure_eq, Res.ok.injEq, Prod.mk.injEq] at h
        rcases List.mem_cons.1 ht with rfl | ht
        · refine ⟨mine, c, (S, c3), by rw [← hx.2]; exact h3, ?_⟩
          unfold compile
          rw [h2, Res.ok_bind, h4, Res.ok_bind, h5]
        · rw [h.2.2.2] at h6
          exact compileTrees_all h6 t ht hr
    · rename_i hn
      simp only [Res.bind_eq_ok] at h
      obtain ⟨⟨l2, c4, s4, e⟩, h6, h⟩ := h
      simp only [Res.pure_eq, Res.ok.injEq, Prod.mk.injEq] at h
      rcases List.mem_cons.1 ht with rfl | ht
      · rw [hx.1] at hn; exact absurd hr hn
      · rw [h.2.2.2] at h6
        exact compileTrees_all h6 t ht hr

/-- A sequence that begins: the trees that had to be compiled were. -/
theorem begin_needs {k : Kind} {mv : Nat → Bool} {sets : Sets} {f : Font} {junk : List Nat} {T T' : Tester}
    {c c' : Compiler} {s s' : SettingsCache} (h : T.beginSequence k mv sets f junk c s = .ok (T', c', s', none))
    (hr : T.recompile = true) : ∀ t ∈ T.trees, t.resync = true →
    ∃ mine c1 out, rulesWith t.condition T.rules 0 = .ok mine ∧ compile k mv sets mine c1 = .ok out := by
  unfold beginSequence at h
  split at h
  · cases h
  simp only [hr, if_true] at h
  rw [Res.bind_eq_ok] at h
  obtain ⟨⟨T1, c1, s1, e⟩, h1, h⟩ := h
  simp only at h
  cases e with
  | some m => simp at h
  | none =>
    unfold recompileAll at h1
    rw [Res.bind_eq_ok] at h1
    obtain ⟨⟨l, c2, s2, e⟩, h2, h1⟩ := h1
    simp only at h1
    cases e with
    | some m => simp at h1
    | none => exact compileTrees_all h2

section
variable {v : Variant} {word : Nat → Bytes} {E : Env} {S : Nat → List Nat}

theorem adds_sane {ops : List Op} : ∀ {R' R : List RuleCode} {W : World},
    (∀ r ∈ R', Rok v word r) → R.length + R'.length ≤ 254 →
    Sane S word (fun _ => True) (fun _ => true) R W.T → W.T.operating = false →
    ∃ T', World.run v word E (R'.map .add ++ ops) W = World.run v word E ops { W with T := T' } ∧
      Sane S word (fun _ => True) (fun _ => true) (R ++ R') T' ∧ T'.operating = false ∧
      (W.T.recompile = true ∨ R' ≠ [] → T'.recompile = true)
  | [], R, W, _, _, h, ho => ⟨W.T, rfl, by simpa using h, ho, fun h => by rcases h with h | h; exact h; exact absurd rfl h⟩
  | r :: R', R, W, hr, hl, h, ho => by
    simp only [List.length_cons] at hl
    obtain ⟨T1, h1, h2, h3⟩ := addRule_ok (hr r List.mem_cons_self) (by omega) trivial h ho E.old
    have hrec : T1.recompile = true := by
      unfold addRule at h1
      split at h1
      · cases h1
      split at h1
      · simp at h1
      split at h1
      · simp at h1
      simp only [Res.bind_eq_ok] at h1
      obtain ⟨_, _, _, _, _, _, h1⟩ := h1
      simp only [Res.pure_eq, Res.ok.injEq, Prod.mk.injEq] at h1
      rw [← h1.1]
    obtain ⟨T2, g1, g2, g3, g4⟩ := adds_sane (ops := ops) (R' := R') (R := R ++ [r]) (W := { W with T := T1 })
      (fun x hx => hr x (List.mem_cons_of_mem _ hx)) (by simp; omega) h2 h3
    refine ⟨T2, ?_, by simpa using g2, g3, fun _ => g4 (.inl hrec)⟩
    rw [List.map_cons, List.cons_append, World.run]
    simp only [World.step, h1, Res.ok_bind, stop, Res.pure_eq, g1, List.nil_append]
    cases World.run v word E ops { W with T := T2 } <;> rfl

/-- Rules added to a fresh tester and a sequence: the rules of each condition have to compile. -/
theorem sequence_needs {R : List RuleCode} (hR : ∀ r ∈ R, Rok v word r) (hl : R.length ≤ 254) {c : Compiler}
    {s : SettingsCache} {w : List Nat} {out : World × List (List Nat)}
    (h : World.run v word E (R.map .add ++ [.seq w]) { c := c, s := s } = .ok out) {r : RuleCode} (hr : r ∈ R) :
    ∃ c1 q, compile v.kind E.mv E.sets (((R.zipIdx 0).filter fun x => decide (x.1.condition.toNat = r.condition.toNat)).map
      fun x => (x.1.bytes word, x.2)) c1 = .ok q := by
  obtain ⟨T, h1, h2, h3, h4⟩ := adds_sane (E := E) (S := fun _ => []) (ops := [.seq w]) (R := [])
    (W := { c := c, s := s }) hR (by simpa using hl) Sane.fresh rfl
  rw [h1] at h
  rw [List.nil_append] at h2
  simp only [World.run, World.step, World.process, Res.bind_eq_ok] at h
  obtain ⟨_, ⟨_, ⟨⟨T1, c1, s1, e⟩, h5, T2, h6, _⟩, _⟩, _⟩ := h
  cases e with
  | some m => cases h6
  | none =>
    obtain ⟨t, ht, hc⟩ := h2.cover r hr
    obtain ⟨mine, c2, q, h7, h8⟩ := begin_needs h5 (h4 (.inr (List.ne_nil_of_mem hr))) t ht (h2.insts t ht).1
    rw [h2.rules, hc, rulesWith_ok _ hR (by omega)] at h7
    exact ⟨c2, q, by rw [Res.ok.inj h7]; exact h8⟩

end

theorem map_fst_split {α β : Type} {Z : List (α × β)} {L L' : List α} {r : α} (h : Z.map (·.1) = L ++ r :: L') :
    ∃ Z₁ i Z₂, Z = Z₁ ++ (r, i) :: Z₂ ∧ Z₁.map (·.1) = L := by
  obtain ⟨Z₁, Z', rfl, h1, h2⟩ := List.map_eq_append_iff.1 h
  obtain ⟨⟨a, i⟩, Z₂, rfl, h3, -⟩ := List.map_eq_cons_iff.1 h2
  exact ⟨Z₁, i, Z₂, by rw [← h3], h1⟩

/-- The rules of a condition up to one of them, with their indices. -/
theorem group_split {R L L' : List RuleCode} {r : RuleCode} {d : Nat}
    (h : (R.filter fun x => decide (x.condition.toNat = d)) = L ++ r :: L') (hl : R.length ≤ 254) :
    ∃ Z₁ i Z₂, ((R.zipIdx 0).filter fun x => decide (x.1.condition.toNat = d)) = Z₁ ++ (r, i) :: Z₂ ∧
      Z₁.map (·.1) = L ∧ (Z₁.Pairwise fun a b => a.2 < b.2) ∧ ∀ x ∈ Z₁, x.2 < 255 := by
  have hz := zip_filter (fun x => decide (x.condition.toNat = d)) R 0
  rw [h] at hz
  obtain ⟨Z₁, i, Z₂, h1, h2⟩ := map_fst_split hz
  have hp : ((R.zipIdx 0).filter fun x => decide (x.1.condition.toNat = d)).Pairwise fun a b => a.2 < b.2 := by
    refine List.Pairwise.filter _ ?_
    rw [List.pairwise_iff_getElem]
    intro i j hi hj hij
    simpa using hij
  refine ⟨Z₁, i, Z₂, h1, h2, ?_, fun x hx => ?_⟩
  · rw [h1] at hp
    exact (List.pairwise_append.1 hp).1
  · have hm : x ∈ R.zipIdx 0 := by
      have : x ∈ (R.zipIdx 0).filter fun x => decide (x.1.condition.toNat = d) := by rw [h1]; simp [hx]
      exact (List.mem_filter.1 this).1
    have := List.snd_lt_of_mem_zipIdx hm
    omega

end TesterModel
