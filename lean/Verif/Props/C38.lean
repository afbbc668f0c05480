import Verif.Lemmas.TesterWorld
import Verif.Spec.SampleTester

/-!
# C38: without matching rules rewriting is the identity

This holds for rules with sets only as last elements, or that may not start with the same elements, if there is at least one. Without rules the first element panics.
-/

namespace C38
open Go Spec TesterModel CacheModel Tester

/-- In any history, sequences in which no rule occurs give back their accepted elements. Missing: rules with sets
that may start as other rules with the same condition, testers without rules. -/
theorem identity_glyph_partial {E : Env} {s₀ s : SettingsCache} {options : List (UInt8 × Nat)} {S : Nat → List Nat}
    {ops : List Op} (hj : 255 ≤ E.junk.length) (hn : SettingsCache.new E.font = .ok s₀) (ho : setOptions options s₀ = .ok s)
    (ha : Allowed (Tidy E.sets S 65535) glyphV word16 (GlyphRule E s.settings) (fun R w => ∀ r ∈ R, ¬ r.OccursIn S w) [] ops) :
    ∃ W' outs, World.run glyphV word16 E ops { s := s } = .ok (W', outs) ∧
      Outputs glyphV word16 (fun _ w o => o = w) [] ops outs := by
  obtain ⟨W', outs, h1, h2, _⟩ := history_ok (glyph_handles E S s.settings) apt_none hj (by simp) (by simp)
    (Fine.fresh (settled_new hn ho)) ha
  exact ⟨W', outs, h1, outputs_same (by simp) ha h2⟩

/-- The same for code points. -/
theorem identity_utf8_partial {E : Env} {s₀ s : SettingsCache} {options : List (UInt8 × Nat)} {S : Nat → List Nat}
    {ops : List Op} (hj : 255 ≤ E.junk.length) (hn : SettingsCache.new E.font = .ok s₀) (ho : setOptions options s₀ = .ok s)
    (ha : Allowed (Tidy E.sets S 2147483647) utf8V word32 (Utf8Rule E s.settings) (fun R w => ∀ r ∈ R, ¬ r.OccursIn S w) [] ops) :
    ∃ W' outs, World.run utf8V word32 E ops { s := s } = .ok (W', outs) ∧
      Outputs utf8V word32 (fun _ w o => o = w) [] ops outs := by
  obtain ⟨W', outs, h1, h2, _⟩ := history_ok (utf8_handles E S s.settings) apt_none hj (by simp) (by simp)
    (Fine.fresh (settled_new hn ho)) ha
  exact ⟨W', outs, h1, outputs_same (by simp) ha h2⟩

/-- Sequences that only have beginnings of the rules, one with a tail and one with two output elements. -/
example : Sample.tested glyphV word16 0 ([Sample.rewrite12T1, Sample.rewriteTwo, Sample.rewrite124].map .add ++
      [.seq [1, 1, 1, 4, 2, 1], .seq [1]]) = .ok [[1, 1, 1, 4, 2, 1], [1]] ∧
    ∀ r ∈ [Sample.rewrite12T1, Sample.rewriteTwo, Sample.rewrite124],
      ¬ r.OccursIn (fun _ => []) (glyphV.accepted [1, 1, 1, 4, 2, 1]) ∧ ¬ r.OccursIn (fun _ => []) (glyphV.accepted [1]) := by
  decide +kernel

/-- A sequence without 1 or 5 after 1, which would be replaced. -/
example : Sample.tested glyphV word16 0 [.add Sample.endsInSet, .seq [1, 2, 5, 1, 4], .seq [1, 2, 1, 5]] =
      .ok [[1, 2, 5, 1, 4], [1, 2, 7]] ∧
    ¬ Sample.endsInSet.OccursIn (fun _ => [1, 5]) (glyphV.accepted [1, 2, 5, 1, 4]) := by decide +kernel

/-- Without rules, the first element that is not ignored or refused panics, whatever the variant. -/
theorem no_rules_violated (v : Variant) (E : Env) (c : TreeModel.Compiler) (s : SettingsCache) (g : Nat) (w : List Nat)
    (hs : v.skip g = false) (hb : v.bad g = false) :
    (World.process v E (g :: w) ⟨{}, c, s⟩).isPanic = true := by
  unfold World.process beginSequence
  simp only [restartAll, Res.ok_bind, Res.pure_eq, stop]
  have hf : ∃ m, Tester.feed v ({ operating := true } : Tester) g = .panic m := by
    unfold Tester.feed
    rw [if_neg (by simp), if_neg (by simp [hs]), if_neg (by simp [hb])]
    exact ⟨_, rfl⟩
  obtain ⟨m, hf⟩ := hf
  have : feedSeq v (g :: w) ({ operating := true } : Tester) = .panic m := by
    rw [feedSeq, hf]
    rfl
  rw [if_neg (by simp), if_neg (by simp), Res.ok_bind]
  simp only
  rw [if_neg (by simp)]
  simp only [restartAll, Res.ok_bind]
  rw [this]
  rfl

example : glyphV.skip 5 = false ∧ glyphV.bad 5 = false ∧ utf8V.skip 65 = false ∧ utf8V.bad 65 = false := by decide

end C38
