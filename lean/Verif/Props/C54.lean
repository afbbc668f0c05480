import Verif.Lemmas.TesterOutputs
import Verif.Lemmas.TextWide
import Verif.Lemmas.TextRules
import Verif.Lemmas.RulesSaid
import Verif.Props.C53
import Verif.Props.C35
import Verif.Spec.SampleText
import Verif.Spec.SampleCalls

/-!
# C54: replacements added to a builder are made in texts

From the builder to the output: a builder made with the public methods is built, exported and parsed (`ReadBack`), the
rules of the font are added to a tester, and a sequence is processed. What comes out are the elements of the sequence
with the replacements of the builder (`Rewritten`), applied from left to right, the longest one first.
-/

namespace C54
open Go Spec FontModel BuilderModel TesterModel CacheModel

/-- What the output has to be is determined. -/
theorem determined {L : List Replacement} (hne : ∀ r ∈ L, r.input ≠ []) {w o o' : List Nat}
    (h : Rewritten L w o) (h' : Rewritten L w o') : o = o' := h.unique hne h'

/-- `AddSimpleUtf8RewriteRule` adds the replacement of a sequence with a code point. -/
theorem added_text {b b' : Builder} {c : Nat} {seq : List Nat} (h : b.addSimpleUtf8Rule c seq = .ok b') :
    textRules b' = textRules b ++ [⟨0, seq, [c], 0⟩] := by
  obtain ⟨r, bits, rfl, a1, a2, a3, a4, a5, a6, a7, a8⟩ := Builder.addSimpleUtf8Rule_ok h
  obtain ⟨_, e⟩ := merge_ones_only a1.groups a1.elems a8
  simp [textRules, e, a5]

/-- `AddGlyphRewriteRule` adds the replacements of sequences of glyphs with glyphs. Identifiers that are not those of
glyphs are those of sets. -/
theorem added_glyphs {b b' : Builder} {hl bl tl : UInt8} {input out : List Nat}
    (h : b.addGlyphRule hl bl tl input out = .ok b') :
    glyphReplacements b' = glyphReplacements b ++
      (RuleCode.picks (input.map fun u => meant b (b.inElem u))).map fun p =>
        ⟨hl.toNat, p, out.map b.glyphOrder.idxOf, tl.toNat⟩ := by
  obtain ⟨r, bits, rfl, a1, a2, a3, a4, a5, a6, a7⟩ := Builder.addGlyphRule_ok h
  have : ∀ r, replacements { b with glyphRules := b.glyphRules ++ [r] } r = replacements b r := fun _ => rfl
  simp only [glyphReplacements, List.flatMap_append, List.flatMap_cons, List.flatMap_nil, List.append_nil]
  congr 1
  show replacements b r = _
  rw [replacements, pattern_eq a1, a7, List.map_map, a2, a4, a5]
  rfl

/-- Without sets, this is one replacement. -/
theorem added_one {b b' : Builder} {hl bl tl : UInt8} {input out : List Nat}
    (h : b.addGlyphRule hl bl tl input out = .ok b') (hi : ∀ u ∈ input, (b.glyphData.get u).isSome) :
    glyphReplacements b' = glyphReplacements b ++
      [⟨hl.toNat, input.map b.glyphOrder.idxOf, out.map b.glyphOrder.idxOf, tl.toNat⟩] := by
  have key : ∀ l : List Nat, (∀ u ∈ l, (b.glyphData.get u).isSome) →
      RuleCode.picks (l.map fun u => meant b (b.inElem u)) = [l.map b.glyphOrder.idxOf] := by
    intro l
    induction l with
    | nil => intro _; rfl
    | cons u l ih =>
      intro hl
      rw [List.map_cons, RuleCode.picks, ih fun x hx => hl x (List.mem_cons_of_mem _ hx), Builder.inElem,
        if_pos (hl u (List.mem_cons_self ..))]
      rfl
  rw [added_glyphs h, key _ hi]
  rfl

/-- Texts. Missing: more than 253 elements, over all rules, for which rules are refused, and inputs that are not
accepted in rules (U+FFFD) or no code points (from 2^31 - 1 on). -/
theorem text_partial {env : BuilderModel.Env} {b : Builder} {g : Font} (h : ReadBack env b g) (hne : b.utf8Rules ≠ [])
    (hl : b.utf8Rules.length ≤ 254) (hsum : ((textRules b).map fun r => r.input.length).sum ≤ 253)
    (hv : ∀ r ∈ textRules b, ∀ c ∈ r.input, c ≠ 65533 ∧ c < 2147483647) :
    ∃ R : List RuleCode, R.length = b.utf8Rules.length ∧
      (∀ i (hi : i < R.length), g.getUtf8Rule i = .ok (R[i].bytes word32)) ∧
      ∃ s₀, SettingsCache.new g = .ok s₀ ∧ ∀ (E : TesterModel.Env) options s w, E.font = g → 255 ≤ E.junk.length →
        setOptions options s₀ = .ok s →
        ∃ W out, World.run utf8V word32 E (R.map .add ++ [.seq w]) { s := s } = .ok (W, [out]) ∧
          Rewritten (textRules b) (runesOnly w) out := by
  obtain ⟨b', hb, _⟩ := C53.same h
  obtain ⟨R, h1, h2, h3, h4⟩ := built_utf8_codes h.made hb fun r hr => by
    intro c hc
    exact hv _ (List.mem_map.2 ⟨r, hr, rfl⟩) c hc
  obtain ⟨s₀, hs⟩ := built_settings h.made hb
  refine ⟨R, h1, h2, s₀, hs, fun E options s w hE hj ho => ?_⟩
  subst hE
  have hR : R ≠ [] := by
    intro e
    rw [e] at h1
    exact hne (List.eq_nil_of_length_eq_zero h1.symm)
  obtain ⟨W, out, r1, r2⟩ := C35.sequence_utf8_partial (E := E) (w := w) (R := R) hj hs ho hR (by omega)
    (S := fun _ => []) (tidy_last (fun r hr => (h4 r hr).2.2.2.1.known) (by rw [(h3 _).2]; exact hsum))
    (fun r hr => (h4 r hr).2.2.2.2 _ _ rfl)
    (fun r hr _ => ⟨.inl (h4 r hr).2.1, by rw [(h4 r hr).2.2.1]⟩)
  refine ⟨W, out, r1, ?_⟩
  have := r2.rewritten (by omega) fun r hr => (h4 r hr).1
  rwa [(h3 _).1, (C35.accepted_elements w).2] at this

/-- Sequences of glyphs, with any number of outputs, tails of at most one glyph if there are no heads, and sets only at
the end of the input, or anywhere if no two rules may start with the same glyph: the output is that of the replacements with the first half of their outputs. Rules without output,
or with more outputs than elements in their body, cannot be used (`outputs_refused_violated`). -/
theorem glyphs_actual {env : BuilderModel.Env} {b : Builder} {g : Font} (h : ReadBack env b g)
    (hne : b.glyphRules ≠ []) (hl : b.glyphRules.length ≤ 254) (hu : SetsUsable b)
    (hv : ∀ r ∈ b.glyphRules, 0 < r.output.length ∧ r.output.length ≤ r.bodyLen)
    (ht : (∀ r ∈ b.glyphRules, r.tailLen = 0) ∨ ∀ r ∈ b.glyphRules, r.headLen = 0 ∧ r.tailLen ≤ 1) :
    ∃ R : List RuleCode, R.length = b.glyphRules.length ∧
      (∀ i (hi : i < R.length), g.getGlyphRule i = .ok (R[i].bytes word16)) ∧
      ∃ s₀, SettingsCache.new g = .ok s₀ ∧ ∀ (E : TesterModel.Env) options s w, E.font = g →
        E.sets = TreeModel.glyphSets g → 255 ≤ E.junk.length → setOptions options s₀ = .ok s →
        ∃ W out, World.run glyphV word16 E (R.map .add ++ [.seq w]) { s := s } = .ok (W, [out]) ∧
          Rewritten ((glyphReplacements b).map Replacement.halved) (glyphsOnly w) out := by
  obtain ⟨b', hb, _⟩ := C53.same h
  obtain ⟨R, h1, h2, h3, hw, h4⟩ := built_glyph_codes h.made hb hv
  obtain ⟨s₀, hs⟩ := built_settings h.made hb
  refine ⟨R, h1, h2, s₀, hs, fun E options s w hE hS hj ho => ?_⟩
  subst hE
  have hR : R ≠ [] := by
    intro e
    rw [e] at h1
    exact hne (List.eq_nil_of_length_eq_zero h1.symm)
  obtain ⟨W, out, r1, r2⟩ := C35.actual_glyph (E := E) (w := w) (R := R) (S := setsOf b) hj hs ho hR (by omega)
    (hS ▸ hw hu) (fun r hr => (h4 r hr).2.2.2 _ _ rfl) (fun r hr _ => by
      obtain ⟨_, ⟨q, hq, _, e2⟩, hz, _⟩ := h4 r hr
      rcases ht with ht | ht
      · exact .inl (hz.2 (e2.trans (ht q hq)))
      · have := (ht q hq).2
        by_cases h0 : blockSize r.tail = 0
        · exact .inl (hz.2 h0)
        · refine .inr ⟨by omega, fun r' hr' => ?_⟩
          obtain ⟨_, ⟨q', hq', e1', _⟩, hz', _⟩ := h4 r' hr'
          exact hz'.1 (e1'.trans (ht q' hq').1))
  refine ⟨W, out, r1, ?_⟩
  have := r2.rewritten (by omega) fun r hr => (h4 r hr).1
  rwa [does_halved, h3, (C35.accepted_elements w).1] at this

/-- With one output, these are the replacements that were added. Missing: rules with sets that
may start as others, other tails, or other than one output (`outputs_violated`, `C32.sharing_violated`), and more than 253
elements (or ranges) over all rules. -/
theorem glyphs_partial {env : BuilderModel.Env} {b : Builder} {g : Font} (h : ReadBack env b g)
    (hne : b.glyphRules ≠ []) (hl : b.glyphRules.length ≤ 254) (hu : SetsUsable b)
    (hv : ∀ r ∈ b.glyphRules, r.output.length = 1)
    (ht : (∀ r ∈ b.glyphRules, r.tailLen = 0) ∨ ∀ r ∈ b.glyphRules, r.headLen = 0 ∧ r.tailLen ≤ 1) :
    ∃ R : List RuleCode, R.length = b.glyphRules.length ∧
      (∀ i (hi : i < R.length), g.getGlyphRule i = .ok (R[i].bytes word16)) ∧
      ∃ s₀, SettingsCache.new g = .ok s₀ ∧ ∀ (E : TesterModel.Env) options s w, E.font = g →
        E.sets = TreeModel.glyphSets g → 255 ≤ E.junk.length → setOptions options s₀ = .ok s →
        ∃ W out, World.run glyphV word16 E (R.map .add ++ [.seq w]) { s := s } = .ok (W, [out]) ∧
          Rewritten (glyphReplacements b) (glyphsOnly w) out := by
  have hh : (glyphReplacements b).map Replacement.halved = glyphReplacements b := by
    conv => rhs; rw [← List.map_id (glyphReplacements b)]
    refine List.map_congr_left fun r hr => ?_
    obtain ⟨q, hq, hd⟩ := List.mem_flatMap.1 hr
    obtain ⟨p, _, rfl⟩ := List.mem_map.1 hd
    simp [Replacement.halved, hv q hq, List.take_of_length_le]
  have := glyphs_actual h hne hl hu (fun r hr => by
    obtain ⟨b', hb, _⟩ := C53.same h
    have := (Builder.build_needs h.made hb).bodies r hr
    have := hv r hr
    exact ⟨by omega, by omega⟩) ht
  rwa [hh] at this

/-- From the calls to the output: texts are rewritten with the replacements that the calls of
`AddSimpleUtf8RewriteRule` ask for. Missing: as in `text_partial`. -/
theorem text_calls_partial {rolls : List UInt64} {today : DateModel.Date} {l : List Method} {e : EditionModel.Editor}
    {env : BuilderModel.Env} {g : Font} (hh : History rolls today l e) (h : ReadBack env e.builder g)
    (hne : all Method.textRule? l ≠ []) (hl : (all Method.textRule? l).length ≤ 254)
    (hsum : ((all Method.textRule? l).map fun r => r.input.length).sum ≤ 253)
    (hv : ∀ r ∈ all Method.textRule? l, ∀ c ∈ r.input, c ≠ 65533 ∧ c < 2147483647) :
    ∃ R : List RuleCode, R.length = (all Method.textRule? l).length ∧
      (∀ i (hi : i < R.length), g.getUtf8Rule i = .ok (R[i].bytes word32)) ∧
      ∃ s₀, SettingsCache.new g = .ok s₀ ∧ ∀ (E : TesterModel.Env) options s w, E.font = g → 255 ≤ E.junk.length →
        setOptions options s₀ = .ok s →
        ∃ W out, World.run utf8V word32 E (R.map .add ++ [.seq w]) { s := s } = .ok (W, [out]) ∧
          Rewritten (all Method.textRule? l) (runesOnly w) out := by
  have ht := hh.lists.texts
  have hlen : (all Method.textRule? l).length = e.builder.utf8Rules.length := by
    rw [← ht, textRules, List.length_map]
  rw [← ht] at hsum hv ⊢
  rw [ht, hlen, ← ht]
  exact text_partial h (fun h0 => hne (List.eq_nil_of_length_eq_zero (by rw [hlen, h0]; rfl))) (by omega) hsum hv

/-- From the calls to the output: glyphs are rewritten with the replacements that the calls of `AddGlyphRewriteRule` ask
for. Missing: sets, and as in `glyphs_partial`. -/
theorem glyphs_calls_partial {rolls : List UInt64} {today : DateModel.Date} {l : List Method} {e : EditionModel.Editor}
    {env : BuilderModel.Env} {g : Font} (hh : History rolls today l e) (h : ReadBack env e.builder g)
    (hs : ∀ m ∈ l, m.createdSet? = none) (hne : all Method.glyphRule? l ≠ [])
    (hl : (all Method.glyphRule? l).length ≤ 254)
    (hsum : ((all Method.glyphRule? l).map fun c => c.2.2.2.1.length).sum ≤ 253)
    (hv : ∀ c ∈ all Method.glyphRule? l, c.2.2.2.2.length = 1)
    (ht : (∀ c ∈ all Method.glyphRule? l, c.2.2.1 = 0) ∨ ∀ c ∈ all Method.glyphRule? l, c.1 = 0 ∧ c.2.2.1 ≤ 1) :
    ∃ R : List RuleCode, R.length = (all Method.glyphRule? l).length ∧
      (∀ i (hi : i < R.length), g.getGlyphRule i = .ok (R[i].bytes word16)) ∧
      ∃ s₀, SettingsCache.new g = .ok s₀ ∧ ∀ (E : TesterModel.Env) options s w, E.font = g →
        E.sets = TreeModel.glyphSets g → 255 ≤ E.junk.length → setOptions options s₀ = .ok s →
        ∃ W out, World.run glyphV word16 E (R.map .add ++ [.seq w]) { s := s } = .ok (W, [out]) ∧
          Rewritten ((all Method.glyphRule? l).map (saidRule e.builder.glyphOrder)) (glyphsOnly w) out := by
  rw [← hh.replacements hs]
  have hg := hh.lists.glyphs
  rw [← hg] at hne hl hsum hv ht ⊢
  simp only [List.length_map, List.map_map, Function.comp_def, List.mem_map, forall_exists_index, and_imp,
    forall_apply_eq_imp_iff₂] at hl hsum hv ht ⊢
  exact glyphs_partial h (fun h0 => hne (by rw [h0]; rfl)) hl (usable_ones (hh.ones hs) hsum) hv ht

/-- The hypotheses are met by a builder with two ligatures and a replacement of glyphs. -/
theorem ligatures_read : ReadBack Sample.env Sample.ligatures (Sample.result Sample.ligatures).2 := by
  have hr : Reachable Sample.ligatures := by
    have e : (do
        let b ← Sample.mapped.addSimpleUtf8Rule 64257 [102, 105]
        let b ← b.addSimpleUtf8Rule 64259 [102, 102, 105]
        b.addGlyphRule 1 2 0 [1001, 1002, 1003] [1004]) = .ok Sample.ligatures := by decide +kernel
    simp only [Res.bind_eq_ok] at e
    obtain ⟨b1, e1, b2, e2, e3⟩ := e
    exact ((mapped_reachable.call (.addSimpleUtf8RewriteRule (by decide) (by decide) e1)).call
      (.addSimpleUtf8RewriteRule (by decide) (by decide) e2)).call (.addGlyphRewriteRule e3)
  exact C53.readable env_fair (fun _ => .refl _) env_zero hr (b' := (Sample.result Sample.ligatures).1)
    (by decide +kernel) (fits_of (by decide +kernel))
    ⟨by decide +kernel, by decide +kernel, by decide +kernel, by decide +kernel, by decide +kernel,
      by decide +kernel, by decide +kernel, by decide +kernel, by decide +kernel, by decide +kernel,
      by decide +kernel, by decide +kernel, by decide +kernel⟩

example : textRules Sample.ligatures = [⟨0, [102, 105], [64257], 0⟩, ⟨0, [102, 102, 105], [64259], 0⟩] ∧
    glyphReplacements Sample.ligatures = [⟨1, [0, 1, 2], [3], 0⟩] ∧
    (∀ r ∈ Sample.ligatures.glyphRules, r.inGroups = [] ∧ r.output.length = 1 ∧ r.tailLen = 0) ∧
    Sample.typed utf8V word32 (Sample.result Sample.ligatures).2
      [Sample.plainRule 255 [64257] [] [102, 105] [], Sample.plainRule 255 [64259] [] [102, 102, 105] []]
      [97, 102, 102, 105, 102, 105, 102] = .ok [[97, 64259, 64257, 102]] ∧
    Sample.typed glyphV word16 (Sample.result Sample.ligatures).2 [Sample.plainRule 255 [3] [0] [1, 2] []]
      [0, 0, 1, 2, 1] = .ok [[0, 0, 3, 1]] := by decide +kernel

/-- A replacement before a glyph that is kept. -/
example : glyphReplacements Sample.before = [⟨0, [0, 1, 2], [3], 1⟩] ∧
    (∀ r ∈ Sample.before.glyphRules, r.inGroups = [] ∧ r.output.length = 1 ∧ r.headLen = 0 ∧ r.tailLen ≤ 1) ∧
    (Sample.result Sample.before).2.getGlyphRule 0 = .ok ((Sample.plainRule 255 [3] [] [0, 1] [2]).bytes word16) ∧
    Sample.typed glyphV word16 (Sample.result Sample.before).2 [Sample.plainRule 255 [3] [] [0, 1] [2]]
      [0, 0, 1, 2, 1] = .ok [[0, 3, 2, 1]] := by decide +kernel

/-- A replacement with a set at its end. -/
theorem setAtEnd_read : ReadBack Sample.env Sample.setAtEnd (Sample.result Sample.setAtEnd).2 := by
  have hr : Reachable Sample.setAtEnd := by
    have e : (do
        let (b, u) ← Sample.mapped.createGlyphSet 500
        let b ← b.addGlyphSetListGlyph u 1003
        let b ← b.addGlyphSetRange u 1002 1002
        b.addGlyphRule 0 2 0 [1001, u] [1004]) = .ok Sample.setAtEnd := by decide +kernel
    simp only [Res.bind_eq_ok] at e
    obtain ⟨⟨b1, u⟩, e1, b2, e2, b3, e3, e4⟩ := e
    exact (((mapped_reachable.call (.createGlyphSet e1)).call (.addGlyphSetListGlyph e2)).call
      (.addGlyphSetRange e3)).call (.addGlyphRewriteRule e4)
  exact C53.readable env_fair (fun _ => .refl _) env_zero hr (b' := (Sample.result Sample.setAtEnd).1)
    (by decide +kernel) (fits_of (by decide +kernel))
    ⟨by decide +kernel, by decide +kernel, by decide +kernel, by decide +kernel, by decide +kernel,
      by decide +kernel, by decide +kernel, by decide +kernel, by decide +kernel, by decide +kernel,
      by decide +kernel, by decide +kernel, by decide +kernel⟩

example : (∀ r ∈ Sample.setAtEnd.glyphRules, SetsAtEnd Sample.setAtEnd r ∧ r.output.length = 1 ∧ r.tailLen = 0) ∧
    (Sample.setAtEnd.glyphRules.map (inputSize Sample.setAtEnd)).sum = 3 ∧
    glyphReplacements Sample.setAtEnd = [⟨0, [0, 1], [3], 0⟩, ⟨0, [0, 2], [3], 0⟩] ∧
    (Sample.result Sample.setAtEnd).2.getGlyphRule 0 = .ok (RuleCode.bytes word16 ⟨255, [3], [], [⟨[], [0]⟩, ⟨[0], []⟩], []⟩) ∧
    Sample.typed glyphV word16 (Sample.result Sample.setAtEnd).2 [⟨255, [3], [], [⟨[], [0]⟩, ⟨[0], []⟩], []⟩]
      [0, 0, 1, 2, 0, 2, 0] = .ok [[0, 3, 2, 3, 0]] := by
  refine ⟨?_, by decide +kernel, by decide +kernel, by decide +kernel, by decide +kernel⟩
  have e : Sample.setAtEnd.glyphRules.map (fun r => (pattern r, r.output.length, r.tailLen)) =
    [([.one 1001, .set 500], 1, 0)] := by decide +kernel
  intro r hr
  have hm := List.mem_map_of_mem (f := fun r => (pattern r, r.output.length, r.tailLen)) hr
  rw [e] at hm
  simp only [List.mem_singleton, Prod.mk.injEq] at hm
  obtain ⟨h1, h2, h3⟩ := hm
  refine ⟨fun u hu => ?_, h2, h3⟩
  rw [h1] at hu
  obtain rfl : u = 500 := by simpa using hu
  rw [h1]
  exact ⟨by decide, ⟨[(1002, 1002)], [1003]⟩, by decide +kernel, by decide, by decide⟩

/-- Replacements with a set at their start, and in the middle. -/
theorem setsInside_read : ReadBack Sample.env Sample.setsInside (Sample.result Sample.setsInside).2 := by
  have hr : Reachable Sample.setsInside := by
    have e : (do
        let (b, u) ← Sample.mapped.createGlyphSet 500
        let b ← b.addGlyphSetRange u 1001 1002
        let b ← b.addGlyphRule 0 2 0 [u, 1003] [1004]
        b.addGlyphRule 1 3 0 [1003, u, u, 1003] [1004]) = .ok Sample.setsInside := by decide +kernel
    simp only [Res.bind_eq_ok] at e
    obtain ⟨⟨b1, u⟩, e1, b2, e2, b3, e3, e4⟩ := e
    exact (((mapped_reachable.call (.createGlyphSet e1)).call (.addGlyphSetRange e2)).call
      (.addGlyphRewriteRule e3)).call (.addGlyphRewriteRule e4)
  exact C53.readable env_fair (fun _ => .refl _) env_zero hr (b' := (Sample.result Sample.setsInside).1)
    (by decide +kernel) (fits_of (by decide +kernel))
    ⟨by decide +kernel, by decide +kernel, by decide +kernel, by decide +kernel, by decide +kernel,
      by decide +kernel, by decide +kernel, by decide +kernel, by decide +kernel, by decide +kernel,
      by decide +kernel, by decide +kernel, by decide +kernel⟩

example : SetsUsable Sample.setsInside ∧
    (∀ r ∈ Sample.setsInside.glyphRules, r.output.length = 1 ∧ r.tailLen = 0) ∧
    (glyphReplacements Sample.setsInside).map (fun r => r.input) =
      [[0, 2], [1, 2], [2, 0, 0, 2], [2, 0, 1, 2], [2, 1, 0, 2], [2, 1, 1, 2]] ∧
    Sample.typed glyphV word16 (Sample.result Sample.setsInside).2
      [⟨255, [3], [], [⟨[0], [2]⟩], []⟩, ⟨255, [3], [⟨[], [2]⟩], [⟨[0, 0], [2]⟩], []⟩]
      [1, 2, 2, 1, 0, 2, 3, 0, 2, 0] = .ok [[3, 2, 3, 3, 3, 0]] := by
  have e : Sample.setsInside.glyphRules.map pattern =
      [[.set 500, .one 1003], [.one 1003, .set 500, .set 500, .one 1003]] := by decide +kernel
  refine ⟨.inr ⟨?_, by decide +kernel, by decide +kernel⟩, by decide +kernel, by decide +kernel, by decide +kernel⟩
  intro r hr u hu
  have hm := List.mem_map_of_mem (f := pattern) hr
  rw [e] at hm
  have : u = 500 := by
    simp only [List.mem_cons, List.not_mem_nil, or_false] at hm
    rcases hm with h | h
    all_goals
      rw [h] at hu
      simpa using hu
  subst this
  exact ⟨by decide +kernel, by decide +kernel, by decide +kernel⟩

/-- A replacement of two glyphs by two glyphs, added with the public methods and read from the file: only the first one
of the two is put out. -/
theorem outputs_violated : ∃ b g r w out, ReadBack Sample.env b g ∧ g.getGlyphRule 0 = .ok (r.bytes word16) ∧
    glyphReplacements b = [⟨0, [0, 1], [2, 3], 0⟩] ∧ Sample.typed glyphV word16 g [r] w = .ok [out] ∧
    ¬ Rewritten (glyphReplacements b) (glyphsOnly w) out := by
  have hr : Reachable Sample.twoForTwo := mapped_reachable.call
    (.addGlyphRewriteRule (headLen := 0) (bodyLen := 2) (tailLen := 0) (input := [1001, 1002]) (out := [1003, 1004])
      (by decide +kernel))
  refine ⟨Sample.twoForTwo, (Sample.result Sample.twoForTwo).2, Sample.plainRule 255 [2, 3] [] [0, 1] [], [0, 1], [2],
    ?_, by decide +kernel, by decide +kernel, by decide +kernel, ?_⟩
  · exact C53.readable env_fair (fun _ => .refl _) env_zero hr (b' := (Sample.result Sample.twoForTwo).1)
      (by decide +kernel) (fits_of (by decide +kernel))
      ⟨by decide +kernel, by decide +kernel, by decide +kernel, by decide +kernel, by decide +kernel,
        by decide +kernel, by decide +kernel, by decide +kernel, by decide +kernel, by decide +kernel,
        by decide +kernel, by decide +kernel, by decide +kernel⟩
  · rw [show glyphReplacements Sample.twoForTwo = [⟨0, [0, 1], [2, 3], 0⟩] by decide +kernel]
    intro h
    have h' : Rewritten [⟨0, [0, 1], [2, 3], 0⟩] (glyphsOnly [0, 1]) ([0, 1].take 0 ++ [2, 3] ++ [] ++ []) := by
      exact Rewritten.rewrite (r := ⟨0, [0, 1], [2, 3], 0⟩) ⟨[], [], rfl, by decide, by simp, by simp⟩ .nil
    have := determined (by decide) h h'
    revert this
    decide

/-- With a replacement of a text with U+FFFD, which builders take, no text at all can be processed with the rules of the
font read from the file, whatever the other ones, the settings and the state of the compiler. -/
theorem refused_violated {env : BuilderModel.Env} {b : Builder} {g : Font} (h : ReadBack env b g)
    (hl : b.utf8Rules.length ≤ 254) {r : Replacement} (hr : r ∈ textRules b) (hc : 65533 ∈ r.input) :
    ∃ R : List RuleCode, R.length = b.utf8Rules.length ∧
      (∀ i (hi : i < R.length), g.getUtf8Rule i = .ok (R[i].bytes word32)) ∧
      ∀ (E : TesterModel.Env) c s w out, World.run utf8V word32 E (R.map .add ++ [.seq w]) { c := c, s := s } ≠ .ok out := by
  obtain ⟨b', hb, _⟩ := C53.same h
  obtain ⟨R, h1, h2, h3, h4⟩ := built_utf8_wide h.made hb
  refine ⟨R, h1, h2, fun E c s w out => ?_⟩
  rw [← h3] at hr
  obtain ⟨x, hx, rfl⟩ := List.mem_map.1 hr
  obtain ⟨⟨k, e⟩, he, h5⟩ := List.mem_filterMap.1 (show 65533 ∈ x.singles from hc)
  cases e with
  | set i => cases h5
  | one v =>
    cases h5
    exact C35.refused_runes_violated (by omega) (fun y hy => (h4 y hy).2.2) hx he c s w out

/-- The same from the calls. -/
theorem refused_calls_violated {rolls : List UInt64} {today : DateModel.Date} {l : List Method} {e : EditionModel.Editor}
    {env : BuilderModel.Env} {g : Font} (hh : History rolls today l e) (h : ReadBack env e.builder g)
    (hl : (all Method.textRule? l).length ≤ 254) {r : Replacement} (hr : r ∈ all Method.textRule? l)
    (hc : 65533 ∈ r.input) :
    ∃ R : List RuleCode, R.length = (all Method.textRule? l).length ∧
      (∀ i (hi : i < R.length), g.getUtf8Rule i = .ok (R[i].bytes word32)) ∧
      ∀ (E : TesterModel.Env) c s w out, World.run utf8V word32 E (R.map .add ++ [.seq w]) { c := c, s := s } ≠ .ok out := by
  have ht := hh.lists.texts
  have hlen : (all Method.textRule? l).length = e.builder.utf8Rules.length := by
    rw [← ht, textRules, List.length_map]
  rw [hlen]
  exact refused_violated h (by omega) (by rw [ht]; exact hr) hc

/-- A builder with a ligature that is usable and one with U+FFFD. -/
example : ReadBack Sample.env Sample.refusedText (Sample.result Sample.refusedText).2 ∧
    textRules Sample.refusedText = [⟨0, [102, 105], [64257], 0⟩, ⟨0, [102, 65533], [63], 0⟩] ∧
    Sample.typed utf8V word32 (Sample.result Sample.refusedText).2 [Sample.plainRule 255 [64257] [] [102, 105] []]
      [102, 105] = .ok [[64257]] ∧
    Sample.typed utf8V word32 (Sample.result Sample.refusedText).2 [Sample.plainRule 255 [64257] [] [102, 105] [],
      Sample.plainRule 255 [63] [] [102, 65533] []] [102, 105] = .err ScannerModel.invalidRule := by
  have hr : Reachable Sample.refusedText := by
    have e : (do
        let b ← Sample.mapped.addSimpleUtf8Rule 64257 [102, 105]
        b.addSimpleUtf8Rule 63 [102, 65533]) = .ok Sample.refusedText := by decide +kernel
    simp only [Res.bind_eq_ok] at e
    obtain ⟨b1, e1, e2⟩ := e
    exact (mapped_reachable.call (.addSimpleUtf8RewriteRule (by decide) (by decide) e1)).call
      (.addSimpleUtf8RewriteRule (by decide) (by decide) e2)
  refine ⟨C53.readable env_fair (fun _ => .refl _) env_zero hr (b' := (Sample.result Sample.refusedText).1)
    (by decide +kernel) (fits_of (by decide +kernel))
    ⟨by decide +kernel, by decide +kernel, by decide +kernel, by decide +kernel, by decide +kernel,
      by decide +kernel, by decide +kernel, by decide +kernel, by decide +kernel, by decide +kernel,
      by decide +kernel, by decide +kernel, by decide +kernel⟩, by decide +kernel, by decide +kernel, by decide +kernel⟩

/-- With a replacement of glyphs without output, or with more outputs than elements in its body, which builders take, no
sequence of glyphs at all can be processed. -/
theorem outputs_refused_violated {env : BuilderModel.Env} {b : Builder} {g : Font} (h : ReadBack env b g)
    (hl : b.glyphRules.length ≤ 254) {r : Rule} (hr : r ∈ b.glyphRules)
    (ho : r.output.length = 0 ∨ r.bodyLen < r.output.length) :
    ∃ R : List RuleCode, R.length = b.glyphRules.length ∧
      (∀ i (hi : i < R.length), g.getGlyphRule i = .ok (R[i].bytes word16)) ∧
      ∀ (E : TesterModel.Env) c s w out, World.run glyphV word16 E (R.map .add ++ [.seq w]) { c := c, s := s } ≠ .ok out := by
  obtain ⟨b', hb, _⟩ := C53.same h
  obtain ⟨R, h1, h2, h3, h4⟩ := built_glyph_wide h.made hb
  refine ⟨R, h1, h2, fun E c s w out => ?_⟩
  obtain ⟨i, hi, rfl⟩ := List.getElem_of_mem hr
  obtain ⟨h5, h6⟩ := h3 i (by omega) hi
  have h7 := h4 _ (List.getElem_mem (by omega : i < R.length))
  have h8 := (Builder.build_needs h.made hb).outputs _ hr
  exact unscanned_never (v := glyphV) h4 (by omega) (List.getElem_mem (by omega : i < R.length))
    (ScannerModel.scanRule_outs (by omega) (by omega)) c s w out

/-- The same from the calls. -/
theorem outputs_refused_calls_violated {rolls : List UInt64} {today : DateModel.Date} {l : List Method}
    {e : EditionModel.Editor} {env : BuilderModel.Env} {g : Font} (hh : History rolls today l e)
    (h : ReadBack env e.builder g) (hl : (all Method.glyphRule? l).length ≤ 254) {hd bd tl : Nat} {input out : List Nat}
    (hr : (hd, bd, tl, input, out) ∈ all Method.glyphRule? l) (ho : out.length = 0 ∨ bd < out.length) :
    ∃ R : List RuleCode, R.length = (all Method.glyphRule? l).length ∧
      (∀ i (hi : i < R.length), g.getGlyphRule i = .ok (R[i].bytes word16)) ∧
      ∀ (E : TesterModel.Env) c s w out, World.run glyphV word16 E (R.map .add ++ [.seq w]) { c := c, s := s } ≠ .ok out := by
  rw [← hh.lists.glyphs] at hl hr ⊢
  rw [List.length_map] at hl ⊢
  obtain ⟨r, hm, he⟩ := List.mem_map.1 hr
  cases he
  exact outputs_refused_violated h hl hm ho

/-- A builder with a replacement of a glyph that is usable, one of a glyph by two and one of a glyph by none. -/
example : ReadBack Sample.env Sample.refusedOutputs (Sample.result Sample.refusedOutputs).2 ∧
    Sample.refusedOutputs.glyphRules.map (fun r => (r.bodyLen, r.output.length)) = [(1, 1), (1, 2), (1, 0)] ∧
    Sample.typed glyphV word16 (Sample.result Sample.refusedOutputs).2 [Sample.plainRule 255 [1] [] [0] []] [0] =
      .ok [[1]] ∧
    Sample.typed glyphV word16 (Sample.result Sample.refusedOutputs).2 [Sample.plainRule 255 [1] [] [0] [],
      Sample.plainRule 255 [2, 3] [] [1] []] [0] = .err ScannerModel.invalidRule := by
  have hr : Reachable Sample.refusedOutputs := by
    have e : (do
        let b ← Sample.mapped.addGlyphRule 0 1 0 [1001] [1002]
        let b ← b.addGlyphRule 0 1 0 [1002] [1003, 1004]
        b.addGlyphRule 0 1 0 [1003] []) = .ok Sample.refusedOutputs := by decide +kernel
    simp only [Res.bind_eq_ok] at e
    obtain ⟨b1, e1, b2, e2, e3⟩ := e
    exact ((mapped_reachable.call (.addGlyphRewriteRule e1)).call (.addGlyphRewriteRule e2)).call (.addGlyphRewriteRule e3)
  refine ⟨C53.readable env_fair (fun _ => .refl _) env_zero hr (b' := (Sample.result Sample.refusedOutputs).1)
    (by decide +kernel) (fits_of (by decide +kernel))
    ⟨by decide +kernel, by decide +kernel, by decide +kernel, by decide +kernel, by decide +kernel,
      by decide +kernel, by decide +kernel, by decide +kernel, by decide +kernel, by decide +kernel,
      by decide +kernel, by decide +kernel, by decide +kernel⟩, by decide +kernel, by decide +kernel, by decide +kernel⟩

/-- Three replacements, added with the public methods and read from the file: two that may not start with the same glyph,
as above, and one of a glyph of the set with which the first one begins. With all of them no sequence of glyphs can be
processed, whatever the settings and the state of the compiler. -/
theorem inside_violated : ∃ b g, ∃ R : List RuleCode, ReadBack Sample.env b g ∧ R.length = b.glyphRules.length ∧
    (∀ i (hi : i < R.length), g.getGlyphRule i = .ok (R[i].bytes word16)) ∧
    (glyphReplacements b).map (fun r => (r.input, r.output)) = [([0, 2], [3]), ([1, 2], [3]), ([2, 0, 0, 2], [3]),
      ([2, 0, 1, 2], [3]), ([2, 1, 0, 2], [3]), ([2, 1, 1, 2], [3]), ([1], [2])] ∧
    ∀ (E : TesterModel.Env) c s w out, E.sets = TreeModel.glyphSets g →
      World.run glyphV word16 E (R.map .add ++ [.seq w]) { c := c, s := s } ≠ .ok out := by
  have hr : Reachable Sample.beginsInside := setsInside_read.made.call
    (.addGlyphRewriteRule (headLen := 0) (bodyLen := 1) (tailLen := 0) (input := [1002]) (out := [1003]) (by decide +kernel))
  refine ⟨Sample.beginsInside, (Sample.result Sample.beginsInside).2, Sample.beginsInsideRules, ?_, by decide +kernel,
    by decide +kernel, by decide +kernel, ?_⟩
  · exact C53.readable env_fair (fun _ => .refl _) env_zero hr (b' := (Sample.result Sample.beginsInside).1)
      (by decide +kernel) (fits_of (by decide +kernel))
      ⟨by decide +kernel, by decide +kernel, by decide +kernel, by decide +kernel, by decide +kernel,
        by decide +kernel, by decide +kernel, by decide +kernel, by decide +kernel, by decide +kernel,
        by decide +kernel, by decide +kernel, by decide +kernel⟩
  · intro E c s w out hE
    have hs : E.sets 0 = .ok ([(0, 1)], []) := by rw [hE]; decide +kernel
    refine C35.inside_violated (Q := fun _ => [(0, 1)]) (R := Sample.beginsInsideRules)
      (r := Sample.plainRule 255 [2] [] [1] []) (L := Sample.beginsInsideRules.take 2) (L' := []) (by decide) ?_ rfl ?_
      (by decide) (y := ⟨255, [3], [], [⟨[0], [2]⟩], []⟩) (by simp [Sample.beginsInsideRules]) (b := 1) (i := 0) (by decide)
      (p := (0, 1)) (by simp) (by decide) (blk := 1) (x := 1) (by decide) (by decide) (by decide) (by decide) c s w out
    · intro x hx
      simp only [Sample.beginsInsideRules, List.mem_cons, List.not_mem_nil, or_false] at hx
      rcases hx with rfl | rfl | rfl
      all_goals
        refine ⟨?_, ?_, ?_, by decide, by decide, by decide⟩
        all_goals
          intro f hf
          first
            | exact absurd hf List.not_mem_nil
            | (rw [List.mem_singleton.1 hf]; exact ⟨by decide, by decide, by decide, by decide, by decide⟩)
    · intro x hx
      simp only [Sample.beginsInsideRules, List.take_succ_cons, List.take_zero, List.mem_cons, List.not_mem_nil,
        or_false] at hx
      rcases hx with rfl | rfl
      all_goals
        intro b i h
        simp [RuleCode.elems, blockElems, Fragment.elems] at h
        obtain ⟨_, rfl⟩ := h
        exact ⟨by decide, by decide, ⟨[(0, 1)], [], hs, rfl⟩, by decide, by decide⟩

/-- Calls that meet the hypotheses, and the replacements that they ask for. -/
example : ∃ e, History [0x9E3779B97F4A7C15] Sample.day Sample.ruleCalls e ∧
    ReadBack Sample.env e.builder (Sample.result Sample.callRules).2 ∧
    (∀ m ∈ Sample.ruleCalls, m.createdSet? = none) ∧
    all Method.textRule? Sample.ruleCalls = [⟨0, [65, 66], [67], 0⟩] ∧
    (all Method.glyphRule? Sample.ruleCalls).map (saidRule e.builder.glyphOrder) = [⟨0, [0, 1], [0], 0⟩] := by
  have h : History [0x9E3779B97F4A7C15] Sample.day Sample.ruleCalls ⟨Sample.callRules, [], [], []⟩ := by
    refine runAll_history (by decide +kernel) ?_
    simp only [Sample.ruleCalls, List.mem_cons, List.not_mem_nil, or_false, forall_eq_or_imp, forall_eq, Method.InRange]
    decide
  refine ⟨_, h, C53.readable env_fair (fun _ => .refl _) env_zero ⟨_, h.edits, rfl⟩
    (b' := (Sample.result Sample.callRules).1) (by decide +kernel) (fits_of (by decide +kernel))
    ⟨by decide +kernel, by decide +kernel, by decide +kernel, by decide +kernel, by decide +kernel,
      by decide +kernel, by decide +kernel, by decide +kernel, by decide +kernel, by decide +kernel,
      by decide +kernel, by decide +kernel, by decide +kernel⟩, by decide, by decide +kernel, by decide +kernel⟩

end C54
