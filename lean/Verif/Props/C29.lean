import Verif.Lemmas.BuiltRewrites
import Verif.Spec.SampleRules

/-!
# C29: rewrite rule accessors return the encoded rule

The lengths and the condition are right. The iteration over the output stops after as many bytes as
there are elements, and for code points it also moves by two bytes instead of four: it is right exactly
for at most one output element.
-/

namespace C29
open Go Spec FontModel BuilderModel

/-- Condition and lengths of every rule over glyphs. -/
theorem glyph_parts (r : EncRule) (ho : r.outs.length ≤ 255) :
    Rule.condition r.glyphBytes = .ok r.condition.toNat ∧ Rule.headLen r.glyphBytes = .ok r.head.toNat ∧
    Rule.bodyLen r.glyphBytes = .ok r.body.toNat ∧ Rule.tailLen r.glyphBytes = .ok r.tail.toNat ∧
    Rule.outLen r.glyphBytes = .ok r.outs.length := by
  obtain ⟨h0, h1, h2, h3, h4, _⟩ := rule_at (r.outs.flatMap word16 ++ r.fragments) r.condition r.head r.body
    r.tail (UInt8.ofNat r.outs.length)
  refine ⟨h0.rd8, h1.rd8, h2.rd8, h3.rd8, ?_⟩
  have := h4.rd8
  rw [show (UInt8.ofNat r.outs.length).toNat = r.outs.length by simp; omega] at this
  exact this

/-- The same for rules over code points. -/
theorem utf8_parts (r : EncRule) (ho : r.outs.length ≤ 255) :
    Rule.condition r.utf8Bytes = .ok r.condition.toNat ∧ Rule.headLen r.utf8Bytes = .ok r.head.toNat ∧
    Rule.bodyLen r.utf8Bytes = .ok r.body.toNat ∧ Rule.tailLen r.utf8Bytes = .ok r.tail.toNat ∧
    Rule.outLen r.utf8Bytes = .ok r.outs.length := by
  obtain ⟨h0, h1, h2, h3, h4, _⟩ := rule_at (r.outs.flatMap word32 ++ r.fragments) r.condition r.head r.body
    r.tail (UInt8.ofNat r.outs.length)
  refine ⟨h0.rd8, h1.rd8, h2.rd8, h3.rd8, ?_⟩
  have := h4.rd8
  rw [show (UInt8.ofNat r.outs.length).toNat = r.outs.length by simp; omega] at this
  exact this

/-- The number of input elements, which the specification limits to 255. -/
theorem in_len (r : EncRule) (h : r.head.toNat + r.body.toNat + r.tail.toNat ≤ 255) :
    Rule.inLen r.glyphBytes = .ok (r.head.toNat + r.body.toNat + r.tail.toNat) ∧
    Rule.inLen r.utf8Bytes = .ok (r.head.toNat + r.body.toNat + r.tail.toNat) := by
  have key : ∀ x, Rule.inLen ([r.condition, r.head, r.body, r.tail, UInt8.ofNat r.outs.length] ++ x) =
      .ok (r.head.toNat + r.body.toNat + r.tail.toNat) := by
    intro x
    obtain ⟨_, h1, h2, h3, _, _⟩ := rule_at x r.condition r.head r.body r.tail (UInt8.ofNat r.outs.length)
    rw [Rule.inLen, h1.rd8, Res.ok_bind, h2.rd8, Res.ok_bind, h3.rd8, Res.ok_bind, Res.pure_eq, u8, u8]
    congr 1
    omega
  exact ⟨key _, key _⟩

/-- Iterating the output of a rule over glyphs visits the first half of the elements. -/
theorem glyph_out (r : EncRule) (ho : r.outs.length ≤ 255) (hb : ∀ g ∈ r.outs, g < 65536) :
    Rule.glyphOut r.glyphBytes = .ok (r.outs.take ((r.outs.length + 1) / 2)) := by
  obtain ⟨_, _, _, _, h4, h5⟩ := rule_at (r.outs.flatMap word16 ++ r.fragments) r.condition r.head r.body
    r.tail (UInt8.ofNat r.outs.length)
  have := h4.rd8
  rw [show (UInt8.ofNat r.outs.length).toNat = r.outs.length by simp; omega] at this
  rw [Rule.glyphOut, EncRule.glyphBytes, this, Res.ok_bind]
  exact outLoop16 _ _ _ h5.left (by omega) hb

/-- So it is right exactly for rules with at most one output element. -/
theorem glyph_out_iff (r : EncRule) (ho : r.outs.length ≤ 255) (hb : ∀ g ∈ r.outs, g < 65536) :
    Rule.glyphOut r.glyphBytes = .ok r.outs ↔ r.outs.length ≤ 1 := by
  rw [glyph_out r ho hb]
  simp only [Res.ok.injEq]
  constructor
  · intro h
    have := congrArg List.length h
    rw [List.length_take] at this
    omega
  · intro h
    rw [List.take_of_length_le (by omega)]

/-- The property for outputs of at most one element. -/
theorem glyph_out_partial (r : EncRule) (ho : r.outs.length ≤ 1) (hb : ∀ g ∈ r.outs, g < 65536) :
    Rule.glyphOut r.glyphBytes = .ok r.outs := (glyph_out_iff r (by omega) hb).2 ho

/-- Rules over code points: the iteration never panics, it visits half as many values as there are
elements, those at even places are the first elements and those between them are made of the upper half
of one element and the lower half of the next. -/
theorem utf8_out (r : EncRule) (ho : r.outs.length ≤ 255) (hb : ∀ c ∈ r.outs, c < 4294967296) :
    ∃ l, Rule.utf8Out r.utf8Bytes = .ok l ∧ l.length = (r.outs.length + 1) / 2 ∧
      (∀ j, 2 * j < l.length → l[2 * j]? = r.outs[j]?) ∧
      (∀ j a b, 2 * j + 1 < l.length → r.outs[j]? = some a → r.outs[j + 1]? = some b →
        l[2 * j + 1]? = some (a / 65536 + b % 65536 * 65536)) := by
  obtain ⟨_, _, _, _, h4, h5⟩ := rule_at (r.outs.flatMap word32 ++ r.fragments) r.condition r.head r.body
    r.tail (UInt8.ofNat r.outs.length)
  have h6 := h4.rd8
  rw [show (UInt8.ofNat r.outs.length).toNat = r.outs.length by simp; omega] at h6
  have h7 := h5.left
  have h8 := h7.len
  rw [flat32_length] at h8
  simp only [Rule.utf8Out, EncRule.utf8Bytes]
  generalize [r.condition, r.head, r.body, r.tail, UInt8.ofNat r.outs.length] ++
    (r.outs.flatMap word32 ++ r.fragments) = D at *
  rw [h6, Res.ok_bind]
  by_cases hz : r.outs.length = 0
  · rw [hz]
    refine ⟨[], rfl, rfl, by simp, by simp⟩
  obtain ⟨l, e1, e2, e3⟩ := outLoop32 (D := D) r.outs.length 5 (by omega)
  refine ⟨l, e1, e2, ?_, ?_⟩
  · intro j hj
    have hj' : j < r.outs.length := by omega
    rw [e3 (2 * j) (by omega), show 5 + 2 * (2 * j) = 5 + 4 * j by omega, u32At_w32 (flat32_get h7 j hj'),
      List.getElem?_eq_getElem hj', Nat.mod_eq_of_lt (hb _ (List.getElem_mem hj'))]
  · intro j a b hj ha hb'
    obtain ⟨ja, rfl⟩ := List.getElem?_eq_some_iff.1 ha
    obtain ⟨jb, rfl⟩ := List.getElem?_eq_some_iff.1 hb'
    have ba := hb _ (List.getElem_mem ja)
    have a1 := flat32_get h7 j ja
    have a2 := flat32_get h7 (j + 1) jb
    rw [e3 (2 * j + 1) (by omega)]
    rw [u32At_halves a1 (At_cast a2 (by omega)) (by omega) ba]

/-- So it is right exactly for rules with at most one output element. -/
theorem utf8_out_iff (r : EncRule) (ho : r.outs.length ≤ 255) (hb : ∀ c ∈ r.outs, c < 4294967296) :
    Rule.utf8Out r.utf8Bytes = .ok r.outs ↔ r.outs.length ≤ 1 := by
  obtain ⟨l, h1, h2, h3, _⟩ := utf8_out r ho hb
  rw [h1, Res.ok.injEq]
  constructor
  · rintro rfl; omega
  · intro h
    apply List.ext_getElem?
    intro i
    by_cases hi : i = 0
    · subst hi
      by_cases hz : r.outs.length = 0
      · have : l.length = 0 := by omega
        rw [List.length_eq_zero_iff.1 this, List.length_eq_zero_iff.1 hz]
      · exact h3 0 (by omega)
    · rw [List.getElem?_eq_none (by omega), List.getElem?_eq_none (by omega)]

/-- The property for outputs of at most one element. -/
theorem utf8_out_partial (r : EncRule) (ho : r.outs.length ≤ 1) (hb : ∀ c ∈ r.outs, c < 4294967296) :
    Rule.utf8Out r.utf8Bytes = .ok r.outs := (utf8_out_iff r (by omega) hb).2 ho

/-- `Equals` is equality of the encodings. -/
theorem equals_iff (a b : Bytes) : Rule.equals a b = true ↔ a = b := by
  rw [Rule.equals]
  by_cases h : a.length = b.length
  · rw [if_neg (by simp [h])]; exact equals_go a b h
  · rw [if_pos h]
    simp only [Bool.false_eq_true, false_iff]
    rintro rfl
    exact h rfl

/-- The rules of a built font have the condition and the lengths that were given, and the outputs are
stored as the indices of the glyphs that were given. -/
theorem built_glyph_rule (env : Env) (b b' : Builder) (f : Font) (h : b.build env = .ok (b', f))
    (hn : b.glyphOrder.Nodup) {i : Nat} (hi : i < b.glyphRules.length) :
    ∃ r : EncRule, f.getGlyphRule i = .ok r.glyphBytes ∧
      r.condition = UInt8.ofNat b.glyphRules[i].condition ∧ r.head = UInt8.ofNat b.glyphRules[i].headLen ∧
      r.body = UInt8.ofNat b.glyphRules[i].bodyLen ∧ r.tail = UInt8.ofNat b.glyphRules[i].tailLen ∧
      r.outs.map (b.glyphOrder[·]?) = b.glyphRules[i].output.map some ∧ r.outs.length ≤ 255 ∧
      ∀ g ∈ r.outs, g < 65536 := by
  obtain ⟨s, w, bi, hB⟩ := build_parts h
  have e1 : b'.glyphRules = b.glyphRules := by rw [hB.b'_eq]
  have e2 : b'.glyphOrder = b.glyphOrder := by rw [hB.b'_eq]
  obtain ⟨bytes, h1, h2⟩ := built_rule hB.atGlyphRules hB.glyphRules (i := i) (by rw [e1]; exact hi)
  obtain ⟨h3, out, fr, h4, h5⟩ := ruleBytes_parts h1
  obtain ⟨is, h6, h7⟩ := glyphElem_outs h4
  have hl : b'.glyphOrder.length ≤ 65536 := by
    have := hB.count; have := hB.order
    rw [FontModel.maxGlyphs] at *; rw [e2]; omega
  obtain ⟨h8, h9, h10⟩ := mapRes_indices (by rw [e2]; exact hn) hl h6
  simp only [e1, e2] at h3 h4 h5 h8 h10
  refine ⟨⟨UInt8.ofNat b.glyphRules[i].condition, UInt8.ofNat b.glyphRules[i].headLen,
    UInt8.ofNat b.glyphRules[i].bodyLen, UInt8.ofNat b.glyphRules[i].tailLen, is, fr⟩, ?_, rfl, rfl, rfl, rfl, h10, by simp only; omega, h9⟩
  rw [Font.getGlyphRule, h2, h5, h7, EncRule.glyphBytes]
  simp only [byte_ofNat, h8]

/-- The same for rules over code points. -/
theorem built_utf8_rule (env : Env) (b b' : Builder) (f : Font) (h : b.build env = .ok (b', f))
    {i : Nat} (hi : i < b.utf8Rules.length) :
    ∃ r : EncRule, f.getUtf8Rule i = .ok r.utf8Bytes ∧
      r.condition = UInt8.ofNat b.utf8Rules[i].condition ∧ r.head = UInt8.ofNat b.utf8Rules[i].headLen ∧
      r.body = UInt8.ofNat b.utf8Rules[i].bodyLen ∧ r.tail = UInt8.ofNat b.utf8Rules[i].tailLen ∧
      r.outs = b.utf8Rules[i].output ∧ r.outs.length ≤ 255 := by
  obtain ⟨s, w, bi, hB⟩ := build_parts h
  have e1 : b'.utf8Rules = b.utf8Rules := by rw [hB.b'_eq]
  obtain ⟨bytes, h1, h2⟩ := built_rule hB.atUtf8Rules hB.utf8Rules (i := i) (by rw [e1]; exact hi)
  obtain ⟨h3, out, fr, h4, h5⟩ := ruleBytes_parts h1
  have h7 := runeElem_outs h4
  simp only [e1] at h3 h4 h5 h7
  refine ⟨⟨UInt8.ofNat b.utf8Rules[i].condition, UInt8.ofNat b.utf8Rules[i].headLen,
    UInt8.ofNat b.utf8Rules[i].bodyLen, UInt8.ofNat b.utf8Rules[i].tailLen, b.utf8Rules[i].output, fr⟩, ?_, rfl, rfl, rfl, rfl, rfl, h3⟩
  rw [Font.getUtf8Rule, h2, h5, h7, EncRule.utf8Bytes]
  simp only [byte_ofNat]

/-- A rule with three output elements. -/
example : Rule.glyphOut (EncRule.glyphBytes ⟨255, 0, 3, 1, [5, 300, 7], [3, 1, 0, 2, 0, 3, 0, 1, 9, 0]⟩) =
    .ok [5, 300] ∧
    Rule.utf8Out (EncRule.utf8Bytes ⟨255, 0, 3, 1, [5, 300, 7], [3, 1, 0, 0, 0]⟩) = .ok [5, 300 * 65536] := by
  decide +kernel

/-- A built font with a rule of one output element. -/
example : ∃ b' f, Sample.ruled.build Sample.env = .ok (b', f) ∧
    f.getGlyphRule 0 = .ok [255, 1, 1, 0, 1, 3, 0, 16, 0, 1, 1, 0, 0] ∧
    Rule.glyphOut [255, 1, 1, 0, 1, 3, 0, 16, 0, 1, 1, 0, 0] = .ok [3] := by
  refine ⟨(Sample.result Sample.ruled).1, (Sample.result Sample.ruled).2, ?_⟩
  decide +kernel

end C29
