import Verif.Lemmas.Reproducible
import Verif.Props.C40
import Verif.Spec.SampleBuilder
import Verif.Spec.SampleWords

/-!
# C58: building is reproducible

Calling `Build` again gives the same font, and the font does not depend on the order in which Go happens to iterate the
maps of the builder. It does when two options of settings are not predefined words.
-/

namespace C58
open Go Spec FontModel BuilderModel

/-- `Build` adds nothing to the builder but the main dye, and only when there are no colors. -/
theorem unchanged {env : Env} {b b' : Builder} {f : Font} (h : b.build env = .ok (b', f)) :
    ((b.dyes ≠ [] ∨ b.palettes ≠ []) → b' = b) ∧
    (b.dyes = [] → b.palettes = [] → b' = { b with dyes := [⟨ascii "main", [255]⟩] }) := by
  obtain ⟨s, w, bi, h⟩ := build_parts h
  have e := Builder.main_eq h.main
  constructor
  · intro hc
    rw [if_neg (by rintro ⟨h1, h2⟩; exact hc.elim (· h1) (· h2))] at e
    exact e
  · intro h1 h2
    rw [if_pos ⟨h1, h2⟩] at e
    exact e

/-- Calling it again gives the same font and leaves the builder as it is. -/
theorem again {env : Env} {b b' : Builder} {f : Font} (h : b.build env = .ok (b', f)) : b'.build env = .ok (b', f) := by
  obtain ⟨s, w, bi, h⟩ := build_parts h
  exact h.again.build

example : Sample.oneGlyph.dyes = [] ∧ Sample.oneGlyph.palettes = [] ∧ (Sample.oneGlyph.build Sample.env).isOk = true ∧
    (Sample.result Sample.oneGlyph).1 ≠ Sample.oneGlyph := by decide +kernel

example : Sample.colored.dyes ≠ [] ∧ (Sample.colored.build Sample.env).isOk = true := by decide +kernel

/-- The order in which the entries of the maps of glyphs, code points, sets and kerning pairs come does not matter. -/
theorem maps {env : Env} {b c b' : Builder} {f : Font} (hc : SameContent b c) (h : b.build env = .ok (b', f)) :
    ∃ c', SameContent b' c' ∧ c.build env = .ok (c', f) := by
  obtain ⟨s, w, bi, h⟩ := build_parts h
  have h' := h.withMaps hc.glyphData hc.runeMapping hc.glyphSets hc.runeSets hc.horzKern hc.vertKern
  rw [Builder.withMaps, ← hc.rest] at h'
  refine ⟨_, ?_, h'.build⟩
  have e := h.b'_eq
  exact ⟨rfl, by rw [e]; exact hc.glyphData, by rw [e]; exact hc.runeMapping, by rw [e]; exact hc.glyphSets,
    by rw [e]; exact hc.runeSets, by rw [e]; exact hc.horzKern, by rw [e]; exact hc.vertKern⟩

example : SameContent Sample.kerned
      { Sample.kerned with glyphData := Sample.kerned.glyphData.reverse, horzKern := Sample.kerned.horzKern.reverse } ∧
    Sample.kerned.horzKern.reverse ≠ Sample.kerned.horzKern ∧ (Sample.kerned.build Sample.env).isOk = true :=
  ⟨⟨rfl, ⟨by decide +kernel, (List.reverse_perm _).symm⟩, ⟨by decide +kernel, .refl _⟩, ⟨by decide +kernel, .refl _⟩,
    ⟨by decide +kernel, .refl _⟩, ⟨by decide +kernel, (List.reverse_perm _).symm⟩, ⟨by decide +kernel, .refl _⟩⟩,
    by decide +kernel, by decide +kernel⟩

/-- Nor do the orders in which `Build` iterates the map of words, when at most one option is not a predefined word
(`C40.real_words` for the second hypothesis). Missing: more of them (`orders_violated`). -/
theorem orders_partial {env env' : Env} (hf : Fair env) (hz : ∃ k, 0 < k ∧ k < 256 ∧ env.predef k = env.predef 0)
    (hf' : Fair env') (hp : env'.predef = env.predef) (hm : env'.fragOrder = env.fragOrder) {b : Builder}
    (hone : ∀ v w, IsOption b v → IsOption b w → ¬ Predefined env.predef v → ¬ Predefined env.predef w → v = w)
    {r : Builder × Font} : b.build env = .ok r ↔ b.build env' = .ok r := by
  constructor
  · intro h
    obtain ⟨s, w, bi, h⟩ := build_parts h
    exact (h.orders hf hf' hp hm hz hone).build
  · intro h
    obtain ⟨s, w, bi, h⟩ := build_parts h
    exact (h.orders hf' hf hp.symm hm.symm (by rw [hp]; exact hz) (by rw [hp]; exact hone)).build

example : ∃ env', Fair env' ∧ env'.predef = Sample.realEnv.predef ∧ env'.fragOrder = Sample.realEnv.fragOrder ∧
    env'.organizeOrder 0 ≠ Sample.realEnv.organizeOrder 0 ∧ Sample.oneWord.build env' = Sample.oneWord.build Sample.realEnv ∧
    (Sample.oneWord.build env').isOk = true := by
  refine ⟨⟨id, fun _ => List.reverse, List.reverse, List.reverse, predefWord⟩,
    ⟨fun _ => List.reverse_perm, List.reverse_perm, List.reverse_perm⟩, rfl, rfl,
    fun h => absurd (congrFun h [[], [1]]) (by decide +kernel), ?_⟩
  rw [Sample.realEnv, predefWord_bytes]
  exact ⟨by decide +kernel, by decide +kernel⟩

/-- With two options that are not predefined words, the same builder always gives different fonts for some orders: in one
of them an option has the name of another one. -/
theorem orders_violated {env : Env} (hf : Fair env) (hz : ∃ k, 0 < k ∧ k < 256 ∧ env.predef k = env.predef 0)
    {b b' : Builder} {f : Font} (hs : SettingsOk b.settings) {v x : Bytes} (hv : IsOption b v) (hx : IsOption b x)
    (hvx : v ≠ x) (hv' : ¬ Predefined env.predef v) (hx' : ¬ Predefined env.predef x)
    (h : b.build env = .ok (b', f)) :
    ∃ o o' f' f'', Fair (withOrder env o) ∧ Fair (withOrder env o') ∧ b.build (withOrder env o) = .ok (b', f') ∧
      b.build (withOrder env o') = .ok (b', f'') ∧ f' ≠ f'' := by
  obtain ⟨o, f', h1, h2, h3⟩ := C40.good_order hf hz hs h
  obtain ⟨o', f'', h4, h5, k, hk, j, hj, y, _, h6, h7⟩ := C40.order_violated hf hz hs hv hx hvx hv' hx' h
  refine ⟨o, o', f', f'', h1, h4, h2, h5, ?_⟩
  rintro rfl
  have := (h3 k hk j hj).symm.trans h7
  rw [Res.ok.injEq] at this
  exact h6 this.symm

example : IsOption Sample.twoWords (ascii "slashed-zero") ∧ IsOption Sample.twoWords (ascii "dotted-zero") ∧
    ¬ Predefined predefWord (ascii "slashed-zero") ∧ ¬ Predefined predefWord (ascii "dotted-zero") ∧
    (Sample.twoWords.build Sample.realEnv).isOk = true := by
  refine ⟨⟨Sample.twoWords.settings[0], List.getElem_mem _, by decide +kernel⟩,
    ⟨Sample.twoWords.settings[0], List.getElem_mem _, by decide +kernel⟩, ?_⟩
  rw [Sample.realEnv, predefWord_bytes]
  decide +kernel

end C58
