import Verif.Lemmas.Calls
import Verif.Lemmas.Exported
import Verif.Spec.Buildable

/-! # A builder that can be built, and tables without limits -/

namespace Sample
open Go BuilderModel Spec

instance (m : Mask.Img) : Decidable (SmallMask m) :=
  decidable_of_iff (m.rect.x0 ≤ m.rect.x1 ∧ m.rect.y0 ≤ m.rect.y1 ∧ m.stride = m.rect.x1 - m.rect.x0 ∧
    (m.rect.x1 - m.rect.x0) * (m.rect.y1 - m.rect.y0) ≤ m.pix.length ∧
    max m.rect.x1 0 - min m.rect.x0 0 ≤ 128 ∧ max m.rect.y1 0 - min m.rect.y0 0 ≤ 128)
    ⟨fun ⟨a, b, c, d, e, f⟩ => ⟨a, b, c, d, e, f⟩, fun ⟨a, b, c, d, e, f⟩ => ⟨a, b, c, d, e, f⟩⟩

theorem mapped_buildable : Buildable mapped :=
  ⟨⟨by decide +kernel, by decide +kernel, by decide +kernel, by decide +kernel, by decide +kernel, by decide +kernel,
    by decide +kernel, by decide +kernel, by decide +kernel, by decide +kernel, by decide +kernel, by decide +kernel,
    by decide +kernel, by decide +kernel, by decide +kernel, by decide +kernel⟩, fun u g h =>
    (show ∀ e ∈ mapped.glyphData, SmallMask e.2.mask by decide +kernel) _ (GoMap.mem_of_get h)⟩

end Sample

namespace Spec
open Go BuilderModel

theorem GoMap.length_set_new {K V : Type} [DecidableEq K] : ∀ {m : GoMap K V} {k : K} (v : V), (∀ e ∈ m, e.1 ≠ k) →
    (m.set k v).length = m.length + 1
  | [], _, _, _ => rfl
  | (k', v') :: m, k, v, h => by
    rw [GoMap.set, if_neg (h (k', v') (by simp)), List.length_cons, List.length_cons,
      GoMap.length_set_new v fun e he => h e (by simp [he])]

theorem many_utf8Rules : ∀ n, ∃ b, Reachable b ∧ b.utf8Rules.length = n
  | 0 => ⟨_, fresh_reachable, rfl⟩
  | n + 1 => by
    obtain ⟨b, hb, hn⟩ := many_utf8Rules n
    have e : ∃ b', b.addSimpleUtf8Rule 65 [66] = .ok b' ∧ b'.utf8Rules.length = n + 1 :=
      ⟨_, rfl, by simp [hn]⟩
    obtain ⟨b', h1, h2⟩ := e
    exact ⟨b', hb.call (.addSimpleUtf8RewriteRule (by decide) (by simp) h1), h2⟩

theorem many_glyphRules (n : Nat) : ∃ b, Reachable b ∧ b.glyphRules.length = n ∧ ∀ r ∈ b.glyphRules, r.bodyLen = 1 := by
  have key : ∀ n, ∃ b, Reachable b ∧ b.glyphData = Sample.oneGlyph.glyphData ∧ b.glyphRules.length = n ∧
      ∀ r ∈ b.glyphRules, r.bodyLen = 1 := by
    intro n
    induction n with
    | zero => exact ⟨_, oneGlyph_reachable, rfl, rfl, fun r hr => by cases hr⟩
    | succ n ih =>
      obtain ⟨b, hb, hg, hn, hl⟩ := ih
      have hr : b.ruleInputs [1001] ⟨0, []⟩ [] [] = Sample.oneGlyph.ruleInputs [1001] ⟨0, []⟩ [] [] := by
        rw [Builder.ruleInputs, hg]; rfl
      obtain ⟨l, hi⟩ : ∃ l, Sample.oneGlyph.ruleInputs [1001] ⟨0, []⟩ [] [] = .ok (l, [1001], []) := ⟨_, rfl⟩
      have e : b.addGlyphRule 0 1 0 [1001] [] =
          .ok { b with glyphRules := b.glyphRules ++ [⟨255, 0, 1, 0, l, [1001], [], []⟩] } := by
        rw [Builder.addGlyphRule, hr, hi]; rfl
      refine ⟨_, hb.call (.addGlyphRewriteRule e), hg, by simp [hn], ?_⟩
      intro r hr
      rcases List.mem_append.1 hr with hr | hr
      · exact hl r hr
      · rw [List.mem_singleton.1 hr]
  obtain ⟨b, h1, _, h2⟩ := key n
  exact ⟨b, h1, h2⟩

theorem many_mapped {n : Nat} (h : n + 32 ≤ 2147483648) : ∃ b, Reachable b ∧ b.runeMapping.length = n := by
  have key : ∀ n, n + 32 ≤ 2147483648 → ∃ b, Reachable b ∧ b.glyphData = Sample.oneGlyph.glyphData ∧
      b.runeMapping.length = n ∧ ∀ e ∈ b.runeMapping, e.1 < 32 + n := by
    intro n
    induction n with
    | zero => exact fun _ => ⟨_, oneGlyph_reachable, rfl, rfl, fun r hr => by cases hr⟩
    | succ n ih =>
      intro hn'
      obtain ⟨b, hb, hg, hn, hl⟩ := ih (by omega)
      have e : b.map (32 + n) 1001 = .ok { b with runeMapping := b.runeMapping.set (32 + n) ⟨255, [⟨[1001], 0⟩]⟩ } := by
        rw [Builder.map, if_neg (by omega), hg, if_neg (by decide +kernel)]
      refine ⟨_, hb.call (.map (by omega) e), hg, ?_, ?_⟩
      · simp only
        rw [GoMap.length_set_new _ fun e he => by have := hl e he; omega, hn]
      · intro e he
        rcases GoMap.mem_set he with he | rfl
        · have := hl e he; omega
        · simp only; omega
  obtain ⟨b, h1, _, h2, _⟩ := key n h
  exact ⟨b, h1, h2⟩

theorem many_pairs (n : Nat) : ∃ b, Reachable b ∧ b.horzKern.length = n ∧ ∀ e ∈ b.horzKern, e.1.1 = 0 ∧ e.1.2 < n := by
  induction n with
  | zero => exact ⟨_, fresh_reachable, rfl, fun r hr => by cases hr⟩
  | succ n ih =>
    obtain ⟨b, hb, hn, hl⟩ := ih
    refine ⟨_, hb.call (.setKerningPair 0 n (kerning := 1) ⟨by decide, by decide⟩), ?_, ?_⟩
    · rw [Builder.setKerningPair, if_neg (by decide)]
      simp only
      rw [GoMap.length_set_new _ fun e he h => by have := (hl e he).2; rw [h] at this; simp at this, hn]
    · rw [Builder.setKerningPair, if_neg (by decide)]
      intro e he
      rcases GoMap.mem_set he with he | rfl
      · have := hl e he; omega
      · simp

end Spec
