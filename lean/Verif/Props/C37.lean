import Verif.Lemmas.TesterWorld
import Verif.Lemmas.WideSets
import Verif.Spec.SampleTester

/-!
# C37: a failed rule compilation leaves everything usable

A rule that is refused when it is added changes nothing. An error from the compiler leaves the shared compiler
in the middle of a compilation: from then on every tester that has to compile rules panics.
-/

namespace C37
open Go Spec TesterModel TreeModel ScannerModel CacheModel Tester

/-- A rule that is refused leaves the tester as it was. Missing: errors from the compiler (`begin_violated`,
`resync_violated` and `stuck_violated`). -/
theorem refused_partial {k : Kind} {T T' : Tester} {rule : Bytes} {old : Tree} {m : String}
    (h : T.addRule k rule old = .ok (T', some m)) : T' = T := addRule_rejected h

/-- Rules are only refused when they are too short or there are 254 already. -/
theorem refused_iff {k : Kind} {T : Tester} {rule : Bytes} {old : Tree} (hop : T.operating = false) {m : String} :
    (∃ T', T.addRule k rule old = .ok (T', some m)) ↔
      (rule.length < k.minLen ∧ m = invalidRule) ∨
        (k.minLen ≤ rule.length ∧ 254 ≤ T.rules.length ∧ m = tooManyRules) := by
  rw [addRule, if_neg (by simp [hop])]
  by_cases h1 : rule.length < k.minLen
  · rw [if_pos h1]
    constructor
    · rintro ⟨T', h⟩
      simp only [Res.ok.injEq, Prod.mk.injEq, Option.some.injEq] at h
      exact Or.inl ⟨h1, h.2.symm⟩
    · rintro (⟨_, rfl⟩ | ⟨h, _⟩)
      · exact ⟨T, rfl⟩
      · omega
  · rw [if_neg h1]
    by_cases h2 : T.rules.length ≥ 254
    · rw [if_pos h2]
      constructor
      · rintro ⟨T', h⟩
        simp only [Res.ok.injEq, Prod.mk.injEq, Option.some.injEq] at h
        exact Or.inr ⟨by omega, h2, h.2.symm⟩
      · rintro (⟨h, _⟩ | ⟨_, _, rfl⟩)
        · omega
        · exact ⟨T, rfl⟩
    · rw [if_neg h2]
      constructor
      · rintro ⟨T', h⟩
        obtain ⟨c, _, h⟩ := Res.bind_eq_ok.1 h
        obtain ⟨⟨i, found⟩, _, h⟩ := Res.bind_eq_ok.1 h
        obtain ⟨trees, _, h⟩ := Res.bind_eq_ok.1 h
        simp only [Res.pure_eq, Res.ok.injEq, Prod.mk.injEq] at h
        exact absurd h.2 (by simp)
      · rintro (⟨h, _⟩ | ⟨_, h, _⟩) <;> omega

example : addRule glyphKind {} [1, 2, 3] ⟨[], 0, 0, false⟩ = .ok ({}, some invalidRule) ∧
    addRule glyphKind { rules := List.replicate 254 Sample.rule124 } Sample.rule52 ⟨[], 0, 0, false⟩ =
      .ok ({ rules := List.replicate 254 Sample.rule124 }, some tooManyRules) := by decide +kernel

/-- After any error when a sequence begins, the compiler is left in the middle of a compilation and the tester in
the middle of a sequence: rules can not be removed or added. -/
theorem begin_violated {k : Kind} {mv : Nat → Bool} {sets : Sets} {f : FontModel.Font} {junk : List Nat} {T T' : Tester}
    {c c' : Compiler} {s s' : SettingsCache} {m : String}
    (h : T.beginSequence k mv sets f junk c s = .ok (T', c', s', some m)) :
    c'.compiling = true ∧ T'.removeAllRules = .panic preViolation ∧ (∀ r, T'.removeRule r = .panic preViolation) ∧
      ∀ r old, T'.addRule k r old = .panic preViolation := by
  obtain ⟨h1, h2⟩ := begin_error h
  refine ⟨h1, ?_, fun r => ?_, fun r old => ?_⟩
  · rw [removeAllRules, if_pos h2]
  · rw [removeRule, if_pos h2]
  · rw [addRule, if_pos h2]

/-- The same compiler after an error of `Resync`. -/
theorem resync_violated {k : Kind} {mv : Nat → Bool} {sets : Sets} {f : FontModel.Font} {junk : List Nat} {T T' : Tester}
    {c c' : Compiler} {s s' : SettingsCache} {m : String}
    (h : T.resync k mv sets f junk c s = .ok (T', c', s', some m)) : c'.compiling = true := by
  unfold resync at h
  by_cases h1 : T.operating = true
  · rw [if_pos h1] at h
    cases h
  rw [if_neg h1] at h
  by_cases h2 : (!T.recompile) = true
  · rw [if_pos h2] at h
    simp at h
  · rw [if_neg h2] at h
    exact (recompile_error h).1

/-- With such a compiler, every tester that has to compile panics, whatever its rules, when it begins a
sequence. -/
theorem stuck_violated {k : Kind} {mv : Nat → Bool} {sets : Sets} {f : FontModel.Font} {junk : List Nat} {T : Tester}
    {c : Compiler} {s s₁ : SettingsCache} {t : Inst} {l : List Inst} {b : Bool} (hc : c.compiling = true)
    (hop : T.operating = false) (hr : T.recompile = true) (ht : T.trees = t :: l) (hs : t.resync = true)
    (hcond : testCondition f t.condition s = .ok (s₁, b)) :
    (T.beginSequence k mv sets f junk c s).isPanic = true := by
  obtain ⟨m, hm⟩ : ∃ m, compileTrees k mv sets f T.rules (t :: l) c s = .panic m := by
    have := compileTrees_stuck (k := k) (mv := mv) (sets := sets) (rules := T.rules) (l := l) hc hs hcond
    cases h : compileTrees k mv sets f T.rules (t :: l) c s with
    | ok x => rw [h] at this; cases this
    | err x => rw [h] at this; cases this
    | panic m => exact ⟨m, rfl⟩
  unfold beginSequence
  rw [if_neg (by simp [hop])]
  simp only
  rw [if_pos hr]
  unfold recompileAll
  simp only [ht]
  rw [hm]
  rfl

/-- A rule that takes any element of a set of 255 glyphs or more, listed or as ranges of one, is accepted but can't be
compiled. From then on other fresh testers with rules panic when they begin a sequence, with the same compiler. -/
theorem limits_violated {mv : Nat → Bool} {sets : Sets} {rs l : List Nat}
    (hs : sets 0 = .ok (rs.map fun v => (v, v), l)) (hw : ∀ g ∈ rs ++ l, g < 65535) (hn : (rs ++ l).Nodup)
    (hl : 254 < (rs ++ l).length) (f : FontModel.Font) (junk : List Nat) (old : Tree)
    (s : SettingsCache) :
    ∃ T T' c', ({} : Tester).addRule glyphKind (Sample.onlySet.bytes word16) old = .ok (T, none) ∧
      T.resync glyphKind mv sets f junk {} s = .ok (T', c', s, some hitLimits) ∧
      ∀ U, ({} : Tester).addRule glyphKind (Sample.rewrite124.bytes word16) old = .ok (U, none) →
        (U.beginSequence glyphKind mv sets f junk c' s).isPanic = true := by
  have hc := compileTrees_err (f := f) (rules := [Sample.onlySet.bytes word16]) (t := Inst.reconfigure old 255)
    (l := []) (c := {}) (s := s) rfl rfl rfl rfl rfl
    (feedAll_wide (mv := mv) (c := { compiling := true }) rfl rfl hs hw hn hl)
  refine ⟨{ rules := [Sample.onlySet.bytes word16], trees := [Inst.reconfigure old 255], recompile := true },
    { rules := [Sample.onlySet.bytes word16], trees := [⟨old, 255, true, true, true⟩], recompile := true },
    { compiling := true }, rfl, ?_, fun U hU => ?_⟩
  · unfold resync
    rw [if_neg (by simp), if_neg (by simp)]
    unfold recompileAll
    simp only
    erw [hc]
    rfl
  · cases hU
    exact stuck_violated rfl rfl rfl rfl rfl rfl

/-- The elements of such a set; with a small set, both rules are compiled and used. -/
example : (List.range 255).Nodup ∧ (∀ g ∈ List.range 255, g < 65535) ∧
    Sample.tested glyphV word16 0 [.add Sample.rewrite124, .seq [1, 2, 4]] = .ok [[7]] ∧
    Sample.tested glyphV word16 0 [.add Sample.onlySet, .seq [1, 2, 4]] = .ok [[7, 2, 4]] :=
  ⟨List.nodup_range, fun g hg => by have := List.mem_range.1 hg; omega, by decide +kernel⟩

end C37
