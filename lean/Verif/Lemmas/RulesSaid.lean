import Verif.Spec.RulesSaid
import Verif.Lemmas.History

/-! # Rules of builders without sets -/

namespace Spec
open Go FontModel BuilderModel EditionModel

/-- The inputs of rules are glyphs or sets. -/
theorem ruleInputs_known {b : Builder} : ∀ {us : List Nat} {l : Helpers.BoolList} {es gs : List Nat}
    {x : Helpers.BoolList × List Nat × List Nat}, b.ruleInputs us l es gs = .ok x →
    ∀ u ∈ us, (b.glyphData.get u).isSome ∨ (b.glyphSets.get u).isSome
  | [], _, _, _, _, _, _, hu => by simp at hu
  | u :: us, l, es, gs, x, h, v, hv => by
    rw [Builder.ruleInputs] at h
    split at h
    · rename_i hs
      obtain ⟨l', _, h⟩ := Res.bind_eq_ok.1 h
      rcases List.mem_cons.1 hv with rfl | hv
      · exact .inl hs
      · exact ruleInputs_known h v hv
    · split at h
      · cases h
      · rename_i hs
        obtain ⟨l', _, h⟩ := Res.bind_eq_ok.1 h
        rcases List.mem_cons.1 hv with rfl | hv
        · exact .inr (by cases e : b.glyphSets.get v <;> simp_all)
        · exact ruleInputs_known h v hv

theorem addGlyphRule_ones {b b' : Builder} {hl bl tl : UInt8} {input out : List Nat}
    (h : b.addGlyphRule hl bl tl input out = .ok b') (hs : ∀ u, b.glyphSets.get u = none) :
    ∃ r, b' = { b with glyphRules := b.glyphRules ++ [r] } ∧ pattern r = input.map .one := by
  obtain ⟨r, bits, h1, a1, _, _, _, _, _, a7⟩ := Builder.addGlyphRule_ok h
  refine ⟨r, h1, ?_⟩
  rw [pattern_eq a1, a7]
  rw [Builder.addGlyphRule] at h
  simp only [ite_err, Res.bind_eq_ok] at h
  obtain ⟨_, _, _, x, hx, _⟩ := h
  refine List.map_congr_left fun u hu => ?_
  rcases ruleInputs_known hx u hu with h | h
  · rw [Builder.inElem, if_pos h]
  · rw [hs] at h; cases h

theorem setOf_none {l : List Method} (h : ∀ m ∈ l, m.createdSet? = none) (u : Nat) : setOf u l = none := by
  induction l with
  | nil => rfl
  | cons m l ih =>
    have ih := ih fun m hm => h m (List.mem_cons_of_mem _ hm)
    have hm := h m (List.mem_cons_self ..)
    cases m <;> simp_all [setOf, Method.createdSet?]

/-- Without sets, the inputs of rules are glyphs. -/
theorem History.ones {rolls : List UInt64} {today : DateModel.Date} {l : List Method} {e : Editor}
    (h : History rolls today l e) (hs : ∀ m ∈ l, m.createdSet? = none) :
    ∀ r ∈ e.builder.glyphRules, ∃ us : List Nat, pattern r = us.map .one := by
  induction h with
  | new h =>
    obtain ⟨id, _, rfl⟩ := find_new h
    intro r hr
    cases hr
  | @call l e e' m h0 hm h ih =>
    have hs' := fun m hm => hs m (List.mem_cons_of_mem _ hm)
    have ih := ih hs'
    have he := Method.effect h0.edits h
    cases m with
    | addGlyphRewriteRule hl bl tl input out =>
      obtain ⟨b', h1, h2⟩ := Res.bind_eq_ok.1 h
      cases h2
      obtain ⟨r, rfl, hp⟩ := addGlyphRule_ones h1 fun u => (h0.sets u).trans (setOf_none hs' u)
      intro q hq
      rcases List.mem_append.1 hq with hq | hq
      · exact ih q hq
      · rw [List.mem_singleton.1 hq]; exact ⟨_, hp⟩
    | addGlyph => obtain ⟨u, _, _, h⟩ := he; rw [h]; exact ih
    | setGlyphPlacement => obtain ⟨g, _, h⟩ := he; rw [h]; exact ih
    | setGlyphName => obtain ⟨g, _, h⟩ := he; rw [h]; exact ih
    | setKerningPair p n k =>
      rw [show e'.builder = _ from he]
      unfold Builder.setKerningPair
      split <;> exact ih
    | createGlyphSet => obtain ⟨_, h⟩ := he; rw [h]; exact ih
    | addGlyphSetRange => obtain ⟨g, _, h⟩ := he; rw [h]; exact ih
    | addGlyphSetListGlyph => obtain ⟨g, _, h⟩ := he; rw [h]; exact ih
    | removeGlyphSetRange => rcases he with h | ⟨s, _, h⟩ <;> rw [h] <;> exact ih
    | removeGlyphSetListGlyph => rcases he with h | ⟨s, _, h⟩ <;> rw [h] <;> exact ih
    | createRuneSet => exact he.elim
    | addRuneSetRange => exact he.elim
    | addRuneSetListRune => exact he.elim
    | addSimpleUtf8RewriteRule => obtain ⟨r, h, _⟩ := he; rw [h]; exact ih
    | parseEditionData => obtain ⟨cl, hp, vp, h, hv⟩ := he; rw [h]; exact ih
    | _ => rw [show e'.builder = _ from he]; exact ih

theorem picks_glyphs (b : Builder) : ∀ us : List Nat,
    RuleCode.picks ((us.map InElem.one).map (meant b)) = [us.map b.glyphOrder.idxOf]
  | [] => rfl
  | u :: us => by
    rw [List.map_cons, List.map_cons, RuleCode.picks, picks_glyphs b us]
    rfl

/-- Without sets, the replacements of a builder are those of the calls. -/
theorem History.replacements {rolls : List UInt64} {today : DateModel.Date} {l : List Method} {e : Editor}
    (h : History rolls today l e) (hs : ∀ m ∈ l, m.createdSet? = none) :
    glyphReplacements e.builder = (all Method.glyphRule? l).map (saidRule e.builder.glyphOrder) := by
  rw [← h.lists.glyphs, List.map_map, glyphReplacements]
  have ho := h.ones hs
  generalize e.builder.glyphRules = R at ho ⊢
  induction R with
  | nil => rfl
  | cons r R ih =>
    obtain ⟨us, hu⟩ := ho r (List.mem_cons_self ..)
    rw [List.flatMap_cons, List.map_cons, ih fun r hr => ho r (List.mem_cons_of_mem _ hr), Spec.replacements, hu, picks_glyphs]
    simp only [Function.comp, saidRule, hu, List.map_map]
    simp [InElem.uid, Function.comp_def]

theorem usable_ones {b : Builder} (ho : ∀ r ∈ b.glyphRules, ∃ us : List Nat, pattern r = us.map .one)
    (hsum : (b.glyphRules.map fun r => (pattern r).length).sum ≤ 253) : SetsUsable b := by
  refine .inl ⟨fun r hr u hu => ?_, ?_⟩
  · obtain ⟨us, he⟩ := ho r hr
    rw [he] at hu
    simp at hu
  · have : b.glyphRules.map (inputSize b) = b.glyphRules.map fun r => (pattern r).length := by
      refine List.map_congr_left fun r hr => ?_
      obtain ⟨us, he⟩ := ho r hr
      rw [inputSize, he]
      clear he
      induction us with
      | nil => rfl
      | cons u us ih =>
        simp only [List.map_cons, List.sum_cons, List.length_cons, ih]
        simp [meant]; omega
    rw [this]; exact hsum

end Spec
