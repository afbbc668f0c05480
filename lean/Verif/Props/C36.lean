import Verif.Lemmas.TesterWorld
import Verif.Spec.SampleTester

/-!
# C36: sequences are independent

For rules with sets only as last elements, or that may not start with the same elements, when those that occur in the
inputs have no tail (or a tail of one element, if there are no heads), every sequence of every history gives what it would give on a fresh tester with the rules at that time. Other
tails are kept for the next sequence.
-/

namespace C36
open Go Spec TesterModel CacheModel

/-- Histories of any length: adding, removing and replacing rules, compiling them in advance, refreshing
conditions, and sequences. They never panic, and the output of each sequence is determined by
that sequence and the rules at that time (as in C35). Missing: rules with sets that may start as other rules with the
same condition, with tails of more than one element, or with tails when others have heads. -/
theorem histories_glyph_partial {E : Env} {s₀ s : SettingsCache} {options : List (UInt8 × Nat)} {S : Nat → List Nat}
    {ops : List Op} (hj : 255 ≤ E.junk.length) (hn : SettingsCache.new E.font = .ok s₀) (ho : setOptions options s₀ = .ok s)
    (ha : Allowed (Tidy E.sets S 65535) glyphV word16 (GlyphRule E s.settings) (ShortTails S) [] ops) :
    ∃ W' outs, World.run glyphV word16 E ops { s := s } = .ok (W', outs) ∧
      Outputs glyphV word16 (BatchOf S glyphVisits) [] ops outs := by
  obtain ⟨W', outs, h1, h2, _⟩ := history_ok (glyph_handles E S s.settings) apt_shortTails hj (by simp) (by simp)
    (Fine.fresh (settled_new hn ho)) ha
  exact ⟨W', outs, h1, h2⟩

/-- The same for code points. -/
theorem histories_utf8_partial {E : Env} {s₀ s : SettingsCache} {options : List (UInt8 × Nat)} {S : Nat → List Nat}
    {ops : List Op} (hj : 255 ≤ E.junk.length) (hn : SettingsCache.new E.font = .ok s₀) (ho : setOptions options s₀ = .ok s)
    (ha : Allowed (Tidy E.sets S 2147483647) utf8V word32 (Utf8Rule E s.settings) (ShortTails S) [] ops) :
    ∃ W' outs, World.run utf8V word32 E ops { s := s } = .ok (W', outs) ∧
      Outputs utf8V word32 (BatchOf S runeVisits) [] ops outs := by
  obtain ⟨W', outs, h1, h2, _⟩ := history_ok (utf8_handles E S s.settings) apt_shortTails hj (by simp) (by simp)
    (Fine.fresh (settled_new hn ho)) ha
  exact ⟨W', outs, h1, h2⟩

/-- A history with a change of rules. -/
example : Sample.tested glyphV word16 0 [.add Sample.rewrite124, .resync, .add Sample.rewriteH52, .seq [1, 2, 4, 1],
      .seq [5, 2, 1, 2, 4], .remove Sample.rewrite124, .refresh, .seq [5, 2, 1, 2, 4], .removeAll,
      .add Sample.rewriteIf3, .seq [5, 2, 3]] =
    .ok [[7, 1], [5, 8, 7], [5, 8, 1, 2, 4], [5, 2, 9]] := by decide +kernel

/-- It is allowed, if the rules are (for which see C35). -/
example (Q : RuleCode → Prop) (h : ∀ r ∈ [Sample.rewrite124, Sample.rewriteH52, Sample.rewriteIf3], Q r) :
    Allowed (Tidy Sample.testerEnv.sets (fun _ => []) 65535) glyphV word16 Q (ShortTails fun _ => []) []
      [.add Sample.rewrite124, .resync, .add Sample.rewriteH52, .seq [1, 2, 4, 1],
      .seq [5, 2, 1, 2, 4], .remove Sample.rewrite124, .refresh, .seq [5, 2, 1, 2, 4], .removeAll,
      .add Sample.rewriteIf3, .seq [5, 2, 3]] := by
  have hs : ∀ R w, (∀ r ∈ R, r.tail = []) → ShortTails (fun _ => []) R w := fun R w h r hr _ => Or.inl (h r hr)
  have hk : ∀ R : List RuleCode, (∀ r ∈ R, r ∈ [Sample.rewrite124, Sample.rewriteH52, Sample.rewriteIf3]) →
      (R.map fun r => r.weight fun _ => []).sum ≤ 253 → Tidy Sample.testerEnv.sets (fun _ => []) 65535 R := by
    refine fun R hR => tidy_last fun r hr => ?_
    have hr := hR r hr
    simp only [List.mem_cons, List.not_mem_nil, or_false] at hr
    rcases hr with rfl | rfl | rfl
    all_goals
      constructor
      all_goals
        intro b i hb
        simp [RuleCode.elems, blockElems, Fragment.elems, Sample.rewrite124, Sample.rewriteH52, Sample.rewriteIf3,
          Sample.plainRule] at hb
        done
  exact ⟨⟨h _ (by simp), by decide⟩, hk [Sample.rewrite124] (by simp) (by decide), ⟨h _ (by simp), by decide⟩,
    ⟨by simp [Op.rules], hk [Sample.rewrite124, Sample.rewriteH52] (by simp) (by decide), hs _ _ (by decide)⟩,
    ⟨by simp [Op.rules], hk [Sample.rewrite124, Sample.rewriteH52] (by simp) (by decide), hs _ _ (by decide)⟩, trivial,
    trivial, ⟨by decide, hk [Sample.rewriteH52] (by simp) (by decide), hs _ _ (by decide)⟩, trivial,
    ⟨h _ (by simp), by decide⟩,
    ⟨by simp [Op.rules], hk [Sample.rewriteIf3] (by simp) (by decide), hs _ _ (by decide)⟩, trivial⟩

/-- Two rules with a tail: 1 2, before 1, is replaced by 9, and 1 2 4 by 7. -/
example : Sample.tested glyphV word16 0 [.add Sample.rewrite12T1, .add Sample.rewrite124, .seq [1, 2, 1, 2, 1, 2, 4, 1, 2],
      .seq [1, 2, 1], .seq [1, 2, 1]] = .ok [[9, 1, 2, 7, 1, 2], [9, 1], [9, 1]] ∧
    ∀ S w, ShortTails S [Sample.rewrite12T1, Sample.rewrite124] w := by
  refine ⟨by decide +kernel, fun S w r hr _ => ?_⟩
  rcases List.mem_cons.1 hr with rfl | hr
  · exact Or.inr (by decide)
  · obtain rfl := List.mem_singleton.1 hr
    exact Or.inl rfl

/-- A rule with a set as tail: 1 2, before 1 or 5, is replaced by 9. -/
example : Sample.tested glyphV word16 0 [.add Sample.rewrite12TSet, .add Sample.rewrite124, .seq [1, 2, 1, 2, 5, 1, 2, 4, 1, 2],
      .seq [1, 2, 5], .seq [1, 2, 3]] = .ok [[9, 1, 2, 5, 7, 1, 2], [9, 5], [1, 2, 3]] ∧
    Sample.rewrite12TSet.SetsLast ∧ Known Sample.treeSets (fun _ => [1, 5]) 65535 Sample.rewrite12TSet ∧
    ∀ S w, ShortTails S [Sample.rewrite12TSet, Sample.rewrite124] w := by
  refine ⟨by decide +kernel, ?_, ?_, fun S w r hr _ => ?_⟩
  · intro b i h
    simp [RuleCode.elems, blockElems, Fragment.elems, Sample.rewrite12TSet] at h
  · intro b i h
    simp [RuleCode.elems, blockElems, Fragment.elems, Sample.rewrite12TSet] at h
    obtain ⟨_, rfl⟩ := h
    exact ⟨by decide, by decide, ⟨[], [1, 5], rfl, rfl⟩, by decide⟩
  · rcases List.mem_cons.1 hr with rfl | hr
    · exact Or.inr (by decide)
    · obtain rfl := List.mem_singleton.1 hr
      exact Or.inl rfl

/-- With the rules that replace 1 2, before 1, by 9, and 2, after 1, by 8, the sequence 1 2 gives 1 8.
After the sequence 1 2 1 it gives 8 1 8, and the sequence 1 2 1 itself panics. -/
theorem tail_violated :
    Sample.tested glyphV word16 0 ([Sample.rewrite12T1, Sample.rewriteH12].map .add ++ [.seq [1, 2]]) = .ok [[1, 8]] ∧
    Sample.tested glyphV word16 0 ([Sample.rewrite12T1, Sample.rewriteH12].map .add ++ [.seq [1, 2, 1], .seq [1, 2]]) =
      .ok [[9, 1], [8, 1, 8]] ∧
    (Sample.tested glyphV word16 0 ([Sample.rewrite12T1, Sample.rewriteH12].map .add ++
      [.seq [1, 2, 1], .seq [1, 2, 1]])).isPanic = true := by decide +kernel

end C36
