import Verif.Lemmas.TesterWorld
import Verif.Spec.SampleTester

/-!
# C34: a rule is only applied when its condition holds

The values of the conditions are computed and stored correctly, but nothing looks at them: rules are applied
whatever their condition.
-/

namespace C34
open Go Spec TesterModel CacheModel Tester

/-- `RefreshConditions` stores for every tree the value of its condition with the current settings, in any
state of the tester. Missing: that this value is respected, which fails (`ignored_violated`). -/
theorem refresh_partial {f : FontModel.Font} {s₀ s : SettingsCache} {options : List (UInt8 × Nat)}
    (hn : SettingsCache.new f = .ok s₀) (ho : setOptions options s₀ = .ok s) (T : Tester)
    (hc : ∀ t ∈ T.trees, Evaluable f s.settings t.condition) :
    ∃ s', T.refreshConditions f s = .ok ({ T with trees := T.trees.map fun t =>
      { t with value := holds f s.settings t.condition, cached := true } }, s') ∧ s'.settings = s.settings := by
  obtain ⟨s', h1, h2⟩ := refreshLoop_ok (P := Settled f s.settings) (fun s h c hc => settled_test s h c hc)
    (settled_new hn ho) hc
  obtain ⟨st, h3, h4, _⟩ := h2
  refine ⟨s', ?_, h3.settings.trans h4⟩
  unfold refreshConditions
  rw [h1]
  rfl

example : ∃ s₀ s, SettingsCache.new Sample.testerFont = .ok s₀ ∧ setOptions [(0, 1)] s₀ = .ok s ∧
    Evaluable Sample.testerFont s.settings 0 ∧ Evaluable Sample.testerFont s.settings 255 ∧
    holds Sample.testerFont s₀.settings 0 = false ∧ holds Sample.testerFont s.settings 0 = true :=
  ⟨_, _, rfl, rfl, Or.inr ⟨true, by decide +kernel⟩, Or.inl rfl, by decide +kernel, by decide +kernel⟩

/-- In any history, the trees of the rules that were compiled keep the values of their conditions. -/
theorem compiled_partial {E : Env} {s₀ s : SettingsCache} {options : List (UInt8 × Nat)} {S : Nat → List Nat}
    {ops : List Op} (hj : 255 ≤ E.junk.length) (hn : SettingsCache.new E.font = .ok s₀) (ho : setOptions options s₀ = .ok s)
    (ha : Allowed (Tidy E.sets S 65535) glyphV word16 (GlyphRule E s.settings) (ShortTails S) [] ops) :
    ∃ W' outs, World.run glyphV word16 E ops { s := s } = .ok (W', outs) ∧
      (∀ t ∈ W'.T.trees, t.cached = true → t.value = holds E.font s.settings t.condition) ∧
      ∀ r ∈ ops.foldl (Op.rules word16) [], ∃ t ∈ W'.T.trees, t.condition = r.condition.toNat := by
  obtain ⟨W', outs, h1, _, h2⟩ := history_ok (glyph_handles E S s.settings) apt_shortTails hj (by simp) (by simp)
    (Fine.fresh (settled_new hn ho)) ha
  exact ⟨W', outs, h1, fun t ht hc => (h2.sane.insts t ht).2.2 hc, h2.sane.cover⟩

/-- The output of a sequence is the same for any two assignments of the settings, whatever the conditions
of the rules say. -/
theorem ignored_violated {E : Env} {s₀ s s' : SettingsCache} {options options' : List (UInt8 × Nat)}
    {S : Nat → List Nat} {R : List RuleCode} {w : List Nat} (hj : 255 ≤ E.junk.length) (hn : SettingsCache.new E.font = .ok s₀)
    (ho : setOptions options s₀ = .ok s) (ho' : setOptions options' s₀ = .ok s') (hne : R ≠ []) (hl : R.length ≤ 254)
    (ht : Tidy E.sets S 65535 R) (hR : ∀ r ∈ R, GlyphRule E s.settings r)
    (hR' : ∀ r ∈ R, GlyphRule E s'.settings r) (hs : ShortTails S R (glyphV.accepted w)) :
    ∃ W W' out, World.run glyphV word16 E (R.map .add ++ [.seq w]) { s := s } = .ok (W, [out]) ∧
      World.run glyphV word16 E (R.map .add ++ [.seq w]) { s := s' } = .ok (W', [out]) := by
  obtain ⟨W, out, h1, h2⟩ := sequence_ok (glyph_handles E S s.settings) apt_shortTails hj hne hl ht hR
    (Fine.fresh (settled_new hn ho)) hs
  obtain ⟨W', out', h3, h4⟩ := sequence_ok (glyph_handles E S s'.settings) apt_shortTails hj hne hl ht hR'
    (Fine.fresh (settled_new hn ho')) hs
  rw [h4.unique hl (fun r hr => ((glyph_handles E S s.settings).rok r (hR r hr)).ne) h2] at h3
  exact ⟨W, W', out, h1, h3⟩

/-- The rule that replaces 3 by 9 when the setting is 1 is applied when it is 0 too. -/
theorem false_violated : holds Sample.testerFont [0] 0 = false ∧ holds Sample.testerFont [1] 0 = true ∧
    Sample.tested glyphV word16 0 [.add Sample.rewriteIf3, .seq [3]] = .ok [[9]] ∧
    Sample.tested glyphV word16 1 [.add Sample.rewriteIf3, .seq [3]] = .ok [[9]] ∧
    Sample.tested utf8V word32 0 [.add Sample.rewriteIf3, .seq [3]] = .ok [[9]] := by decide +kernel

end C34
