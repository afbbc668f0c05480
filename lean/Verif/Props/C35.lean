import Verif.Lemmas.TesterWorld
import Verif.Lemmas.TesterInside
import Verif.Lemmas.TesterRefuses
import Verif.Lemmas.TesterOutputs
import Verif.Spec.SampleTester

/-!
# C35: streaming rewriting is greedy batch rewriting

For rules with sets only as last elements, or that may not start with the same elements (each condition on its own), when
those that occur in the input have no tail, or one of one element when no rule has a head: the output is that of the batch specification
in which bodies are replaced by what the code visits of the outputs (`glyphVisits`, `runeVisits`). This is the whole
output exactly for rules with one output element (C29); every rule with more of them loses half of them. With other rules
and sets, compiled trees may fail (C32, C33).
-/

namespace C35
open Go Spec TesterModel CacheModel

/-- The specification is a function: rules that have input elements give exactly one output. -/
theorem batch_unique (S : Nat → List Nat) (em : RuleCode → List Nat) {R : List RuleCode} (hl : R.length ≤ 254)
    (hne : ∀ r ∈ R, r.size ≠ 0) (w : List Nat) : ∃ o, BatchOf S em R w o ∧ ∀ o', BatchOf S em R w o' → o' = o := by
  obtain ⟨o, ho⟩ := BatchOf.total hl hne w.length w (Nat.le_refl _)
  exact ⟨o, ho, fun o' h => h.unique hl hne ho⟩

example : ([Sample.rewrite124, Sample.rewriteH52] : List RuleCode).length ≤ 254 ∧
    ∀ r ∈ [Sample.rewrite124, Sample.rewriteH52], r.size ≠ 0 := by decide

/-- The accepted glyphs and code points. -/
theorem accepted_elements (w : List Nat) : glyphV.accepted w = glyphsOnly w ∧ utf8V.accepted w = runesOnly w := by
  constructor
  · refine List.filter_congr fun g _ => ?_
    rw [Bool.eq_iff_iff]
    simp only [glyphV, Bool.and_eq_true, Bool.not_eq_true', decide_eq_false_iff_not, decide_eq_true_eq]
    omega
  · refine List.filter_congr fun c _ => ?_
    rw [Bool.eq_iff_iff]
    simp only [utf8V, Bool.and_eq_true, Bool.not_eq_true', Bool.or_eq_false_iff, Bool.not_eq_false', Bool.or_eq_true,
      decide_eq_false_iff_not, decide_eq_true_eq, Bool.not_false, true_and]
    omega

example : glyphsOnly [3, 56789, 56790, 60000] = [3, 56789] ∧
    runesOnly [32, 0xD7FF, 0xD800, 0xDFFF, 0xE000, 0xFFFD, 0x10FFFF, 0x110000, 0xFFFFFFFF] =
      [32, 0xD7FF, 0xE000, 0x10FFFF] := by decide

/-- The others change nothing. All of them but `GlyphZilch` are reported. -/
theorem other_elements {T : Tester} (ho : T.operating = true) (g : Nat) :
    (g ∉ glyphsOnly [g] → T.feed glyphV g = .ok (T, [], if g = 56790 then none else some badElement)) ∧
    (g ∉ runesOnly [g] → T.feed utf8V g = .ok (T, [], some badElement)) := by
  constructor
  · intro hg
    simp only [glyphsOnly, List.filter_cons, List.filter_nil] at hg
    split at hg
    · simp at hg
    · rename_i h
      simp only [decide_eq_true_eq] at h
      simp only [Tester.feed, ho, glyphV, Bool.not_true, Bool.false_eq_true, if_false, decide_eq_true_eq]
      split
      · rfl
      · rw [if_pos (by omega)]
  · intro hg
    have he : utf8V.accepted [g] = runesOnly [g] := (accepted_elements [g]).2
    rw [← he] at hg
    have hb : utf8V.bad g = true := by
      cases h : utf8V.bad g
      · simp [Variant.accepted, h, show utf8V.skip g = false from rfl] at hg
      · rfl
    simp only [Tester.feed, ho, Bool.not_true, Bool.false_eq_true, if_false, show utf8V.skip g = false from rfl, hb, if_true]

/-- Rules added to a fresh tester and a whole sequence: never a panic or an error, and the output is that of the batch
specification for the accepted elements, with what the code visits of the outputs. -/
theorem actual_glyph {E : Env} {s₀ s : SettingsCache} {options : List (UInt8 × Nat)} {S : Nat → List Nat}
    {R : List RuleCode} {w : List Nat} (hj : 255 ≤ E.junk.length) (hn : SettingsCache.new E.font = .ok s₀)
    (ho : setOptions options s₀ = .ok s) (hne : R ≠ []) (hl : R.length ≤ 254)
    (ht : Tidy E.sets S 65535 R) (hR : ∀ r ∈ R, GlyphRule E s.settings r)
    (hs : ShortTails S R (glyphV.accepted w)) :
    ∃ W' out, World.run glyphV word16 E (R.map .add ++ [.seq w]) { s := s } = .ok (W', [out]) ∧
      BatchOf S glyphVisits R (glyphV.accepted w) out :=
  sequence_ok (glyph_handles E S s.settings) apt_shortTails hj hne hl ht hR (Fine.fresh (settled_new hn ho)) hs

/-- The same for code points. -/
theorem actual_utf8 {E : Env} {s₀ s : SettingsCache} {options : List (UInt8 × Nat)} {S : Nat → List Nat}
    {R : List RuleCode} {w : List Nat} (hj : 255 ≤ E.junk.length) (hn : SettingsCache.new E.font = .ok s₀)
    (ho : setOptions options s₀ = .ok s) (hne : R ≠ []) (hl : R.length ≤ 254)
    (ht : Tidy E.sets S 2147483647 R) (hR : ∀ r ∈ R, Utf8Rule E s.settings r)
    (hs : ShortTails S R (utf8V.accepted w)) :
    ∃ W' out, World.run utf8V word32 E (R.map .add ++ [.seq w]) { s := s } = .ok (W', [out]) ∧
      BatchOf S runeVisits R (utf8V.accepted w) out :=
  sequence_ok (utf8_handles E S s.settings) apt_shortTails hj hne hl ht hR (Fine.fresh (settled_new hn ho)) hs

/-- With one output element, this is the batch specification. Missing: rules with other sets or more output elements, more than
253 input elements under a condition. -/
theorem sequence_glyph_partial {E : Env} {s₀ s : SettingsCache} {options : List (UInt8 × Nat)} {S : Nat → List Nat}
    {R : List RuleCode} {w : List Nat} (hj : 255 ≤ E.junk.length) (hn : SettingsCache.new E.font = .ok s₀)
    (ho : setOptions options s₀ = .ok s) (hne : R ≠ []) (hl : R.length ≤ 254)
    (ht : Tidy E.sets S 65535 R) (hR : ∀ r ∈ R, GlyphRule E s.settings r)
    (hs : Simple S R (glyphV.accepted w)) :
    ∃ W' out, World.run glyphV word16 E (R.map .add ++ [.seq w]) { s := s } = .ok (W', [out]) ∧
      Batch S R (glyphV.accepted w) out :=
  sequence_ok (glyph_handles E S s.settings) apt_glyphs hj hne hl ht hR (Fine.fresh (settled_new hn ho)) hs

/-- The same for code points. -/
theorem sequence_utf8_partial {E : Env} {s₀ s : SettingsCache} {options : List (UInt8 × Nat)} {S : Nat → List Nat}
    {R : List RuleCode} {w : List Nat} (hj : 255 ≤ E.junk.length) (hn : SettingsCache.new E.font = .ok s₀)
    (ho : setOptions options s₀ = .ok s) (hne : R ≠ []) (hl : R.length ≤ 254)
    (ht : Tidy E.sets S 2147483647 R) (hR : ∀ r ∈ R, Utf8Rule E s.settings r)
    (hs : Simple S R (utf8V.accepted w)) :
    ∃ W' out, World.run utf8V word32 E (R.map .add ++ [.seq w]) { s := s } = .ok (W', [out]) ∧
      Batch S R (utf8V.accepted w) out :=
  sequence_ok (utf8_handles E S s.settings) apt_runes hj hne hl ht hR (Fine.fresh (settled_new hn ho)) hs

/-- Partway: what was given out is the beginning of the output for every continuation, and the rest of
that output only depends on the elements kept back, less than the input of some rule, and on what comes. -/
theorem stream_glyph_partial {E : Env} {s₀ s : SettingsCache} {options : List (UInt8 × Nat)} {S : Nat → List Nat}
    {R : List RuleCode} {w : List Nat} (hj : 255 ≤ E.junk.length) (hn : SettingsCache.new E.font = .ok s₀)
    (ho : setOptions options s₀ = .ok s) (hne : R ≠ []) (hl : R.length ≤ 254)
    (ht : Tidy E.sets S 65535 R) (hR : ∀ r ∈ R, GlyphRule E s.settings r)
    (hs : Simple S R (glyphV.accepted w)) :
    ∃ W T out u, World.run glyphV word16 E (R.map .add) { s := s } = .ok (W, []) ∧
      W.partway glyphV E w = .ok (T, out) ∧ u <:+ glyphV.accepted w ∧ (∃ r ∈ R, u.length < r.size) ∧
      ∀ z o, Batch S R (glyphV.accepted w ++ z) o → ∃ o', o = out ++ o' ∧ Batch S R (u ++ z) o' := by
  have hh := glyph_handles E S s.settings
  obtain ⟨W, h1, h2⟩ := adds_ok hh hj hl hR (Fine.fresh (settled_new hn ho))
  obtain ⟨T, out, u, h3⟩ := partway_ok hh apt_glyphs hj hne hl ht hR h2 hs
  exact ⟨W, T, out, u, h1, h3⟩

/-- The same for code points. -/
theorem stream_utf8_partial {E : Env} {s₀ s : SettingsCache} {options : List (UInt8 × Nat)} {S : Nat → List Nat}
    {R : List RuleCode} {w : List Nat} (hj : 255 ≤ E.junk.length) (hn : SettingsCache.new E.font = .ok s₀)
    (ho : setOptions options s₀ = .ok s) (hne : R ≠ []) (hl : R.length ≤ 254)
    (ht : Tidy E.sets S 2147483647 R) (hR : ∀ r ∈ R, Utf8Rule E s.settings r)
    (hs : Simple S R (utf8V.accepted w)) :
    ∃ W T out u, World.run utf8V word32 E (R.map .add) { s := s } = .ok (W, []) ∧
      W.partway utf8V E w = .ok (T, out) ∧ u <:+ utf8V.accepted w ∧ (∃ r ∈ R, u.length < r.size) ∧
      ∀ z o, Batch S R (utf8V.accepted w ++ z) o → ∃ o', o = out ++ o' ∧ Batch S R (u ++ z) o' := by
  have hh := utf8_handles E S s.settings
  obtain ⟨W, h1, h2⟩ := adds_ok hh hj hl hR (Fine.fresh (settled_new hn ho))
  obtain ⟨T, out, u, h3⟩ := partway_ok hh apt_runes hj hne hl ht hR h2 hs
  exact ⟨W, T, out, u, h1, h3⟩

/-- Three rules, one with a head and one that ends in a set with 1 and 5, and what they do. -/
example : Sample.tested glyphV word16 0 ([Sample.rewrite124, Sample.rewriteH52, Sample.endsInSet].map .add ++
      [.seq [1, 1, 1, 2, 56790, 4, 5, 2, 1, 5, 2, 1, 2]]) = .ok [[7, 7, 5, 8, 7, 2, 1, 2]] ∧
    Sample.tested utf8V word32 0 ([Sample.rewrite124, Sample.rewriteH52, Sample.endsInSet].map .add ++
      [.seq [1, 1, 1, 2, 65533, 4, 5, 2, 1, 5, 2, 1, 2]]) = .ok [[7, 7, 5, 8, 7, 2, 1, 2]] := by decide +kernel

/-- They satisfy the hypotheses. -/
example : ∃ s₀ s, SettingsCache.new Sample.testerEnv.font = .ok s₀ ∧ setOptions [(0, 0)] s₀ = .ok s ∧
    (∀ r ∈ [Sample.rewrite124, Sample.rewriteH52, Sample.rewriteIf3, Sample.endsInSet],
      GlyphRule Sample.testerEnv s.settings r ∧ Utf8Rule Sample.testerEnv s.settings r ∧ r.tail = [] ∧ r.outs.length ≤ 1) ∧
    Tidy Sample.testerEnv.sets (fun _ => [1, 5]) 65535
      [Sample.rewrite124, Sample.rewriteH52, Sample.rewriteIf3, Sample.endsInSet] ∧
    Tidy Sample.testerEnv.sets (fun _ => [1, 5]) 2147483647
      [Sample.rewrite124, Sample.rewriteH52, Sample.rewriteIf3, Sample.endsInSet] := by
  refine ⟨_, _, rfl, rfl, ?_, tidy_last ?_ (by decide), tidy_last ?_ (by decide)⟩
  all_goals
    intro r hr
    simp only [List.mem_cons, List.not_mem_nil, or_false] at hr
    rcases hr with rfl | rfl | rfl | rfl
  all_goals first
    | refine ⟨?_, ?_⟩
      all_goals
        intro b i h
        simp [RuleCode.elems, blockElems, Fragment.elems, Sample.rewrite124, Sample.rewriteH52, Sample.rewriteIf3,
          Sample.plainRule, Sample.endsInSet] at h
        try
          obtain ⟨_, rfl⟩ := h
          exact ⟨by decide, by decide, ⟨[], [1, 5], rfl, rfl⟩, by decide⟩
      done
    | refine ⟨⟨⟨?_, ?_, ?_, by decide, by decide, by decide⟩, by decide, ?_⟩,
        ⟨⟨?_, ?_, ?_, by decide, by decide, by decide⟩, by decide, ?_⟩, by decide, by decide⟩
      all_goals first
        | (intro f hf
           first
            | exact absurd hf List.not_mem_nil
            | (rw [List.mem_singleton.1 hf]; exact ⟨by decide, by decide, by decide, by decide, by decide⟩)
            | (simp only [Sample.endsInSet, List.mem_cons, List.not_mem_nil, or_false] at hf
               rcases hf with rfl | rfl <;> exact ⟨by decide, by decide, by decide, by decide, by decide⟩))
        | exact Or.inl rfl
        | exact Or.inr ⟨false, by decide +kernel⟩

/-- Rules with sets first and in the middle. One of 1 to 10, then 1 or 5, then 3 is replaced by 7; one of 1 to 10 and 12,
after 11, is replaced by 7; 3 is replaced by 9, under a condition. -/
example : Sample.tested glyphV word16 0 ([Sample.manySets, Sample.midSet, Sample.rewriteIf3].map .add ++
      [.seq [4, 5, 3, 11, 8, 12, 9, 2, 3, 11, 3, 4], .seq [7, 1, 3]]) = .ok [[7, 11, 7, 9, 2, 9, 11, 9, 4], [7]] ∧
    ∃ s₀ s, SettingsCache.new Sample.testerEnv.font = .ok s₀ ∧ setOptions [(0, 0)] s₀ = .ok s ∧
    (∀ r ∈ [Sample.manySets, Sample.midSet, Sample.rewriteIf3], GlyphRule Sample.testerEnv s.settings r ∧ r.tail = [] ∧
      r.outs.length ≤ 1) ∧
    Tidy Sample.testerEnv.sets (fun i => spread (Sample.treeRanges i)) 65535
      [Sample.manySets, Sample.midSet, Sample.rewriteIf3] := by
  refine ⟨by decide +kernel, _, _, rfl, rfl, ?_, fun c => ?_⟩
  · intro r hr
    simp only [List.mem_cons, List.not_mem_nil, or_false] at hr
    rcases hr with rfl | rfl | rfl
    all_goals
      refine ⟨⟨⟨?_, ?_, ?_, by decide, by decide, by decide⟩, by decide, ?_⟩, by decide, by decide⟩
      all_goals first
        | (intro f hf
           first
            | exact absurd hf List.not_mem_nil
            | (rw [List.mem_singleton.1 hf]; exact ⟨by decide, by decide, by decide, by decide, by decide⟩))
        | exact Or.inl rfl
        | exact Or.inr ⟨false, by decide +kernel⟩
  · have key : ∀ R : List RuleCode, (∀ r ∈ R, r ∈ [Sample.manySets, Sample.midSet, Sample.rewriteIf3]) →
        ∀ r ∈ R, Laid Sample.testerEnv.sets Sample.treeRanges 65535 r := by
      intro R hR r hr b i h
      have hr := hR r hr
      simp only [List.mem_cons, List.not_mem_nil, or_false] at hr
      rcases hr with rfl | rfl | rfl
      · simp [RuleCode.elems, blockElems, Fragment.elems, Sample.manySets] at h
        obtain ⟨_, rfl⟩ | ⟨_, rfl⟩ := h
        · exact ⟨by decide, by decide, ⟨[(1, 10)], [], rfl, rfl⟩, by decide, by decide⟩
        · exact ⟨by decide, by decide, ⟨[], [1, 5], rfl, rfl⟩, by decide, by decide⟩
      · simp [RuleCode.elems, blockElems, Fragment.elems, Sample.midSet] at h
        obtain ⟨_, rfl⟩ := h
        exact ⟨by decide, by decide, ⟨[(1, 10)], [], rfl, rfl⟩, by decide, by decide⟩
      · simp [RuleCode.elems, blockElems, Fragment.elems, Sample.rewriteIf3, Sample.plainRule] at h
    refine .inr (.inl ⟨Sample.treeRanges, fun _ => rfl, key _ fun r hr => (List.mem_filter.1 hr).1, ?_, ?_⟩)
    all_goals
      by_cases h1 : c = 255
      · subst h1; decide +kernel
      · by_cases h2 : c = 0
        · subst h2; decide +kernel
        · have e : ([Sample.manySets, Sample.midSet, Sample.rewriteIf3].filter fun r => decide (r.condition.toNat = c)) = [] := by
            simp [Sample.manySets, Sample.midSet, Sample.rewriteIf3, Sample.plainRule]; omega
          rw [e]
          first
            | exact List.Pairwise.nil
            | exact Nat.zero_le _

/-- A tester with one glyph rule with more than one output element, given an input of that rule: never the output of
the rule. -/
theorem more_outputs_violated {E : Env} {s₀ s : SettingsCache} {options : List (UInt8 × Nat)} {S : Nat → List Nat}
    {r : RuleCode} {p : List Nat} (hj : 255 ≤ E.junk.length) (hn : SettingsCache.new E.font = .ok s₀)
    (ho : setOptions options s₀ = .ok s) (hk : Compilable E.sets S 65535 [r]) (hR : GlyphRule E s.settings r) (hp : p ∈ r.inputs S)
    (hc : glyphsOnly p = p) (ht : r.ShortTail [r]) (h2 : 2 ≤ r.outs.length) :
    ∃ W' out, World.run glyphV word16 E [.add r, .seq p] { s := s } = .ok (W', [out]) ∧
      out = p.take (blockSize r.head) ++ glyphVisits r ++ r.tailOf p ∧ ¬ Batch S [r] p out := by
  have hne := ((glyph_handles E S s.settings).rok r hR).ne
  obtain ⟨W', out, h3, h4⟩ := actual_glyph (w := p) (R := [r]) hj hn ho (by simp) (by simp) (tidy_one hk)
    (by simpa using hR) (fun x hx _ => by rw [List.mem_singleton.1 hx]; exact ht)
  rw [(accepted_elements _).1, hc] at h4
  have e1 := batch_own hne hp h4
  refine ⟨W', out, h3, e1, fun hb => ?_⟩
  have e2 := batch_own hne hp hb
  have := congrArg List.length (e1.symm.trans e2)
  simp only [List.length_append, glyphVisits, List.length_take] at this
  omega

/-- The same for code points. -/
theorem more_runes_violated {E : Env} {s₀ s : SettingsCache} {options : List (UInt8 × Nat)} {S : Nat → List Nat}
    {r : RuleCode} {p : List Nat} (hj : 255 ≤ E.junk.length) (hn : SettingsCache.new E.font = .ok s₀)
    (ho : setOptions options s₀ = .ok s) (hk : Compilable E.sets S 2147483647 [r]) (hR : Utf8Rule E s.settings r) (hp : p ∈ r.inputs S)
    (hc : runesOnly p = p) (ht : r.ShortTail [r]) (h2 : 2 ≤ r.outs.length) :
    ∃ W' out, World.run utf8V word32 E [.add r, .seq p] { s := s } = .ok (W', [out]) ∧
      out = p.take (blockSize r.head) ++ runeVisits r ++ r.tailOf p ∧ ¬ Batch S [r] p out := by
  have hne := ((utf8_handles E S s.settings).rok r hR).ne
  obtain ⟨W', out, h3, h4⟩ := actual_utf8 (w := p) (R := [r]) hj hn ho (by simp) (by simp) (tidy_one hk)
    (by simpa using hR) (fun x hx _ => by rw [List.mem_singleton.1 hx]; exact ht)
  rw [(accepted_elements _).2, hc] at h4
  have e1 := batch_own hne hp h4
  refine ⟨W', out, h3, e1, fun hb => ?_⟩
  have e2 := batch_own hne hp hb
  have := congrArg List.length (e1.symm.trans e2)
  simp only [List.length_append, runeVisits, List.length_map, List.length_range] at this
  omega

/-- The rule that replaces 1 2 by 6 7 only gives out the 6, for glyphs and for code points. -/
theorem outputs_violated :
    Sample.tested glyphV word16 0 [.add Sample.rewriteTwo, .seq [1, 2]] = .ok [[6]] ∧
    Sample.tested utf8V word32 0 [.add Sample.rewriteTwo, .seq [1, 2]] = .ok [[6]] := by decide +kernel
/-- It satisfies the hypotheses. -/
example : ∃ s₀ s, SettingsCache.new Sample.testerEnv.font = .ok s₀ ∧ setOptions [(0, 0)] s₀ = .ok s ∧
    (∀ r ∈ [Sample.rewriteTwo], GlyphRule Sample.testerEnv s.settings r ∧
      Utf8Rule Sample.testerEnv s.settings r ∧ r.tail = [] ∧ r.outs.length = 2 ∧
      r.inputs (fun _ => []) = [[1, 2]] ∧ runesOnly [1, 2] = [1, 2] ∧ glyphsOnly [1, 2] = [1, 2]) ∧
    Compilable Sample.testerEnv.sets (fun _ => []) 65535 [Sample.rewriteTwo] ∧
    Compilable Sample.testerEnv.sets (fun _ => []) 2147483647 [Sample.rewriteTwo] := by
  have hm : ∀ max, Compilable Sample.testerEnv.sets (fun _ => []) max [Sample.rewriteTwo] := fun max =>
    .inl ⟨fun r hr => by
      obtain rfl := List.mem_singleton.1 hr
      constructor
      all_goals
        intro b i h
        simp [RuleCode.elems, blockElems, Fragment.elems, Sample.rewriteTwo, Sample.plainRule] at h
        done, by decide⟩
  refine ⟨_, _, rfl, rfl, ?_, hm _, hm _⟩
  intro r hr
  obtain rfl := List.mem_singleton.1 hr
  refine ⟨⟨⟨?_, ?_, ?_, by decide, by decide, by decide⟩, by decide, .inl rfl⟩,
      ⟨⟨?_, ?_, ?_, by decide, by decide, by decide⟩, by decide, .inl rfl⟩, by decide, by decide, by decide⟩
  all_goals
    intro f hf
    first
      | exact absurd hf List.not_mem_nil
      | (rw [List.mem_singleton.1 hf]; exact ⟨by decide, by decide, by decide, by decide, by decide⟩)

/-- Longer tails, and heads that begin in tails. The rule that replaces 1 1 2, before 3 4, by 9 works with 1 1 2 3 4; with
1 1 1 2 3 4 it panics. With the rules that replace 1 2, before 3, by 9, and 4, after 3, by 8, the last element of
1 2 3 4 is both replaced and put out. -/
theorem tails_violated :
    Sample.tested glyphV word16 0 [.add (Sample.plainRule 255 [9] [] [1, 1, 2] [3, 4]), .seq [1, 1, 2, 3, 4]] =
      .ok [[9, 3, 4]] ∧
    Sample.tested glyphV word16 0 [.add (Sample.plainRule 255 [9] [] [1, 1, 2] [3, 4]), .seq [1, 1, 1, 2, 3, 4]] =
      .panic "broken code" ∧
    Sample.tested glyphV word16 0 [.add (Sample.plainRule 255 [9] [] [1, 2] [3]),
      .add (Sample.plainRule 255 [8] [3] [4] []), .seq [1, 2, 3, 4]] = .ok [[9, 3, 8, 4]] := by decide +kernel

/-- No sequence at all can be processed when a rule begins with a glyph of a range (of several glyphs) with which an
earlier rule of the same condition begins, even if the rules before it start apart: whatever the other rules, the
growth of slices, the shared compiler, the settings and the sequence. -/
theorem inside_violated {E : Env} {Q : Nat → List (Nat × Nat)} {R L L' : List RuleCode} {r : RuleCode}
    (hl : R.length ≤ 254) (hok : ∀ x ∈ R, x.Ok (· < 56789))
    (hM : (R.filter fun x => decide (x.condition.toNat = r.condition.toNat)) = L ++ r :: L')
    (hL : ∀ x ∈ L, Laid E.sets Q 65535 x) (hap : L.Pairwise fun a b => ∀ g ∈ a.starts Q, g ∉ b.starts Q)
    {y : RuleCode} (hy : y ∈ L) {b i : Nat} (hset : y.elems.head? = some (b, .set i)) {p : Nat × Nat} (hp : p ∈ Q i)
    (hlt : p.1 < p.2) {blk x : Nat} (he : r.elems.head? = some (blk, .one x)) (h1 : p.1 ≤ x) (h2 : x ≤ p.2)
    (hx : x < 56789) (c : TreeModel.Compiler) (s : SettingsCache) (w : List Nat) (out : World × List (List Nat)) :
    World.run glyphV word16 E (R.map .add ++ [.seq w]) { c := c, s := s } ≠ .ok out :=
  inside_never (v := glyphV) (ok := (· < 56789)) (by decide) (fun v hv =>
    ⟨by simp [glyphV, ScannerModel.glyphKind, ScannerModel.Kind.width]; omega, by simp [glyphV, ScannerModel.glyphKind]; omega⟩) hl hok
    (fun x hx => ScannerModel.scanRule_ok ScannerModel.glyph_coded (by decide) (by decide) x (hok x hx)) hM hL hap hy hset hp hlt he
    (by simp [glyphV, ScannerModel.glyphKind]; omega) h1 h2 c s w out

/-- The same for code points. -/
theorem inside_runes_violated {E : Env} {Q : Nat → List (Nat × Nat)} {R L L' : List RuleCode} {r : RuleCode}
    (hl : R.length ≤ 254) (hok : ∀ x ∈ R, x.Ok fun v => v < 2147483647 ∧ v ≠ 65533)
    (hM : (R.filter fun x => decide (x.condition.toNat = r.condition.toNat)) = L ++ r :: L')
    (hL : ∀ x ∈ L, Laid E.sets Q 2147483647 x) (hap : L.Pairwise fun a b => ∀ g ∈ a.starts Q, g ∉ b.starts Q)
    {y : RuleCode} (hy : y ∈ L) {b i : Nat} (hset : y.elems.head? = some (b, .set i)) {p : Nat × Nat} (hp : p ∈ Q i)
    (hlt : p.1 < p.2) {blk x : Nat} (he : r.elems.head? = some (blk, .one x)) (h1 : p.1 ≤ x) (h2 : x ≤ p.2)
    (hx : x ≠ 65533) (c : TreeModel.Compiler) (s : SettingsCache) (w : List Nat) (out : World × List (List Nat)) :
    World.run utf8V word32 E (R.map .add ++ [.seq w]) { c := c, s := s } ≠ .ok out :=
  inside_never (v := utf8V) (ok := fun v => v < 2147483647 ∧ v ≠ 65533) (by decide) (fun v hv =>
    ⟨by simp [utf8V, ScannerModel.utf8Kind, ScannerModel.Kind.width]; omega, by simpa [utf8V, ScannerModel.utf8Kind] using hv.2⟩) hl hok
    (fun x hx => ScannerModel.scanRule_ok ScannerModel.utf8_coded (by decide) (by decide) x (weaken (hok x hx))) hM hL hap hy hset hp hlt he
    (by simpa [utf8V, ScannerModel.utf8Kind] using hx) h1 h2 c s w out

/-- Nor can one be processed when the first rule of a condition begins with a set without elements and has more
elements. -/
theorem empty_set_violated {E : Env} {R L' : List RuleCode} {r : RuleCode} (hl : R.length ≤ 254)
    (hok : ∀ x ∈ R, x.Ok (· < 56789))
    (hM : (R.filter fun x => decide (x.condition.toNat = r.condition.toNat)) = r :: L')
    {blk i : Nat} (he : r.elems.head? = some (blk, .set i)) (hlen : 1 < r.elems.length) (hi : i < 255)
    (hset : E.sets i = .ok ([], [])) (c : TreeModel.Compiler) (s : SettingsCache) (w : List Nat)
    (out : World × List (List Nat)) :
    World.run glyphV word16 E (R.map .add ++ [.seq w]) { c := c, s := s } ≠ .ok out :=
  empty_never (v := glyphV) hl hok (fun x hx => ScannerModel.scanRule_ok ScannerModel.glyph_coded (by decide) (by decide) x (hok x hx)) hM he hlen hi
    hset c s w out

/-- The same for code points. -/
theorem empty_set_runes_violated {E : Env} {R L' : List RuleCode} {r : RuleCode} (hl : R.length ≤ 254)
    (hok : ∀ x ∈ R, x.Ok fun v => v < 2147483647 ∧ v ≠ 65533)
    (hM : (R.filter fun x => decide (x.condition.toNat = r.condition.toNat)) = r :: L')
    {blk i : Nat} (he : r.elems.head? = some (blk, .set i)) (hlen : 1 < r.elems.length) (hi : i < 255)
    (hset : E.sets i = .ok ([], [])) (c : TreeModel.Compiler) (s : SettingsCache) (w : List Nat)
    (out : World × List (List Nat)) :
    World.run utf8V word32 E (R.map .add ++ [.seq w]) { c := c, s := s } ≠ .ok out :=
  empty_never (v := utf8V) hl hok (fun x hx => ScannerModel.scanRule_ok ScannerModel.utf8_coded (by decide) (by decide) x (weaken (hok x hx))) hM he
    hlen hi hset c s w out

/-- Nor can one be processed with a rule that has a word that is no glyph, wherever and whatever the other rules: adding
the rule is no error. -/
theorem refused_violated {E : Env} {R : List RuleCode} (hl : R.length ≤ 254) (hok : ∀ x ∈ R, x.Ok (· < 65536))
    {r : RuleCode} (hr : r ∈ R) {b x : Nat} (hx : (b, InElem.one x) ∈ r.elems) (hv : 56789 ≤ x) (c : TreeModel.Compiler)
    (s : SettingsCache) (w : List Nat) (out : World × List (List Nat)) :
    World.run glyphV word16 E (R.map .add ++ [.seq w]) { c := c, s := s } ≠ .ok out :=
  refused_never (v := glyphV) (fun x hx => rok_glyph_wide (hok x hx)) hl hr
    (fun es h => by rw [show glyphV.kind = ScannerModel.glyphKind from rfl, ScannerModel.glyph_refuses (hok r hr) hx hv] at h; cases h) c s w out

/-- The same for the code point U+FFFD, which builders take (`C31.rune_error_violated`). -/
theorem refused_runes_violated {E : Env} {R : List RuleCode} (hl : R.length ≤ 254) (hok : ∀ x ∈ R, x.Ok (· < 4294967296))
    {r : RuleCode} (hr : r ∈ R) {b : Nat} (hx : (b, InElem.one 65533) ∈ r.elems) (c : TreeModel.Compiler)
    (s : SettingsCache) (w : List Nat) (out : World × List (List Nat)) :
    World.run utf8V word32 E (R.map .add ++ [.seq w]) { c := c, s := s } ≠ .ok out :=
  refused_never (v := utf8V) (fun x hx => rok_utf8_wide (hok x hx)) hl hr
    (fun es h => by rw [show utf8V.kind = ScannerModel.utf8Kind from rfl, ScannerModel.utf8_refuses (hok r hr) hx] at h; cases h) c s w out

/-- Nor with a rule without output, or with more outputs than elements in its body, for glyphs and for code points. -/
theorem outputs_refused_violated {v : Variant} {word : Nat → Bytes} {E : Env} {R : List RuleCode} (hl : R.length ≤ 254)
    (hR : ∀ x ∈ R, blockSize x.head + blockSize x.body + blockSize x.tail ≤ 255 ∧ 0 < blockSize x.body)
    {r : RuleCode} (hr : r ∈ R) (h : r.outs.length ≤ 255) (ho : r.outs.length = 0 ∨ blockSize r.body < r.outs.length)
    (c : TreeModel.Compiler) (s : SettingsCache) (w : List Nat) (out : World × List (List Nat)) :
    World.run v word E (R.map .add ++ [.seq w]) { c := c, s := s } ≠ .ok out :=
  unscanned_never hR hl hr (ScannerModel.scanRule_outs (by have := hR r hr; omega) (by omega)) c s w out

example : Sample.tested glyphV word16 0 [.add (Sample.plainRule 255 [9, 8] [] [1, 2] []), .seq [7]] = .ok [[7]] ∧
    Sample.tested glyphV word16 0 [.add (Sample.plainRule 255 [9, 8, 7] [] [1, 2] []), .seq [7]] =
      .err ScannerModel.invalidRule ∧
    Sample.tested utf8V word32 0 [.add (Sample.plainRule 255 [] [] [1, 2] []), .seq [7]] =
      .err ScannerModel.invalidRule := by decide +kernel

example : Sample.tested glyphV word16 0 [.add Sample.rewriteTwo, .seq [9]] = .ok [[9]] ∧
    Sample.tested glyphV word16 0 [.add Sample.rewriteTwo, .add (Sample.plainRule 255 [9] [] [1, 60000] []), .seq [9]] =
      .err ScannerModel.invalidRule ∧
    Sample.tested utf8V word32 0 [.add Sample.rewriteTwo, .add (Sample.plainRule 255 [9] [] [65533] []), .seq [9]] =
      .err ScannerModel.invalidRule := by decide +kernel

/-- The rules of the example of `C32.apart_glyph_partial`, which can be used, and the same with a rule that begins in
the first range of one of them; a rule that begins with a set without elements. -/
example : Sample.tested glyphV word16 0 [.add Sample.manySets, .add Sample.midSet, .seq [7, 5, 3, 1]] = .ok [[7, 1]] ∧
    Sample.tested glyphV word16 0 [.add Sample.manySets, .add Sample.midSet, .add Sample.rewrite124, .seq [9]] =
      .panic "broken code" ∧
    ([Sample.manySets, Sample.midSet, Sample.rewrite124].filter fun x => decide (x.condition.toNat = 255)) =
      [Sample.manySets, Sample.midSet] ++ Sample.rewrite124 :: [] ∧
    Sample.manySets.elems.head? = some (1, .set 1) ∧ (1, 10) ∈ Sample.treeRanges 1 ∧
    Sample.rewrite124.elems.head? = some (1, .one 1) ∧ Sample.emptyFirst.elems.head? = some (1, .set 2) ∧
    Sample.testerEnv.sets 2 = .ok ([], []) ∧
    Sample.tested glyphV word16 0 [.add Sample.emptyFirst, .seq [9]] = .panic "index out of range" := by
  refine ⟨by decide +kernel, by decide +kernel, rfl, by decide +kernel, by decide +kernel, by decide +kernel,
    by decide +kernel, by decide +kernel, by decide +kernel⟩

end C35
