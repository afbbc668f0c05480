import Verif.Lemmas.Grows
import Verif.Lemmas.RuleCode

/-! # The rules of builders made with the public methods -/

namespace Spec
open Go BuilderModel EditionModel

/-- A rule for a sequence of code points. -/
def MadeUtf8 (r : Rule) : Prop := ∃ (c : Nat) (seq : List Nat) (bits : List Bool), c < 4294967296 ∧ (∀ x ∈ seq, x < 4294967296) ∧ Builder.RuleOk r bits ∧
  r.headLen = 0 ∧ r.bodyLen = seq.length ∧ r.tailLen = 0 ∧ r.output = [c] ∧ r.condition = 255 ∧ 0 < seq.length ∧
  merge bits r.inGroups r.inElems = seq.map .one

/-- A rule for glyphs. -/
def MadeGlyph (r : Rule) : Prop := ∃ bits, Builder.RuleOk r bits ∧ r.condition = 255

def MadeRules (b : Builder) : Prop := (∀ r ∈ b.utf8Rules, MadeUtf8 r) ∧ ∀ r ∈ b.glyphRules, MadeGlyph r

theorem Call.madeRules {b b' : Builder} (h : Calls b) (hm : MadeRules b) (hc : Call b b') : MadeRules b' := by
  cases hc with
  | setFirstVerDate hc => obtain rfl := isValid_ok (b := b) hc; exact hm
  | setMajorVerDate hc => obtain rfl := isValid_ok (b := b) hc; exact hm
  | setMinorVerDate hc => obtain rfl := isValid_ok (b := b) hc; exact hm
  | raiseMajorVersion => exact hm
  | raiseMinorVersion => exact hm
  | setVersion => exact hm
  | setName hc =>
    simp only [Builder.setName, ite_err, Res.bind_eq_ok, Res.pure_eq, Res.ok.injEq] at hc
    obtain ⟨hl, _, _, rfl⟩ := hc
    exact hm
  | setFamily hc =>
    simp only [Builder.setFamily, ite_err, Res.bind_eq_ok, Res.pure_eq, Res.ok.injEq] at hc
    obtain ⟨hl, _, _, rfl⟩ := hc
    exact hm
  | setAuthor hc =>
    simp only [Builder.setAuthor, ite_err, Res.bind_eq_ok, Res.pure_eq, Res.ok.injEq] at hc
    obtain ⟨hl, _, _, rfl⟩ := hc
    exact hm
  | setAbout hc =>
    simp only [Builder.setAbout, ite_err, Res.bind_eq_ok, Res.pure_eq, Res.ok.injEq] at hc
    obtain ⟨hl, _, _, rfl⟩ := hc
    exact hm
  | setVertLayoutUsed => exact hm
  | setMonoWidth => exact hm
  | setAscent => exact hm
  | setExtraAscent => exact hm
  | setDescent => exact hm
  | setExtraDescent => exact hm
  | setMidlineAscent => exact hm
  | setUppercaseAscent => exact hm
  | setHorzInterspacing => exact hm
  | setVertInterspacing => exact hm
  | setLineGap => exact hm
  | setVertLineWidth hc =>
    simp only [Builder.setVertLineWidth, ite_err, Res.ok.injEq] at hc
    obtain ⟨_, _, rfl⟩ := hc; exact hm
  | setVertLineGap hc =>
    simp only [Builder.setVertLineGap, ite_err, Res.ok.injEq] at hc
    obtain ⟨_, rfl⟩ := hc; exact hm
  | addGlyph hc =>
    simp only [Builder.addGlyph, Res.bind_eq_ok, ite_err] at hc
    obtain ⟨_, _, _, hc⟩ := hc
    split at hc
    · cases hc
    · simp only [Res.pure_eq, Res.ok.injEq, Prod.mk.injEq] at hc
      obtain ⟨rfl, _⟩ := hc
      exact hm
  | setGlyphPlacement hc =>
    rw [Builder.setGlyphPlacement] at hc
    split at hc
    · cases hc
    · rename_i g hg
      rw [← Res.ok.inj hc]
      exact hm
  | setGlyphName hc =>
    rw [Builder.setGlyphName] at hc
    split at hc
    · cases hc
    · rename_i g hg
      simp only [Res.bind_eq_ok, Res.pure_eq, Res.ok.injEq] at hc
      obtain ⟨_, hv, rfl⟩ := hc
      exact hm
  | setKerningPair prev next hv => unfold Builder.setKerningPair; split <;> exact hm
  | addDye hc =>
    simp only [Builder.addDye, ite_err, Res.bind_eq_ok, Res.pure_eq, Res.ok.injEq] at hc
    obtain ⟨_, _, _, rfl⟩ := hc
    exact hm
  | addPalette hc =>
    simp only [Builder.addPalette, ite_err, Res.bind_eq_ok, Res.pure_eq, Res.ok.injEq] at hc
    obtain ⟨_, _, _, rfl⟩ := hc
    exact hm
  | addSetting hc =>
    simp only [Builder.addSetting, ite_err, Res.bind_eq_ok, Res.pure_eq, Res.ok.injEq, Prod.mk.injEq] at hc
    obtain ⟨_, _, _, _, _, _, _, rfl, _⟩ := hc
    exact hm
  | addSwitch hc =>
    simp only [Builder.addSwitch, ite_err, Res.bind_eq_ok, Res.pure_eq, Res.ok.injEq, Prod.mk.injEq] at hc
    obtain ⟨_, hl, _, hs, rfl, _⟩ := hc
    exact hm
  | map hr hc =>
    simp only [Builder.map, ite_err, Res.ok.injEq] at hc
    obtain ⟨h1, _, rfl⟩ := hc
    exact hm
  | mapGroup hr hc =>
    simp only [Builder.mapGroup, ite_err, Res.ok.injEq] at hc
    obtain ⟨h1, h2, _, _, rfl⟩ := hc
    exact hm
  | mapWithSwitchSingles hr hc =>
    simp only [Builder.mapWithSwitchSingles, ite_err, ite_panic, Res.bind_eq_ok, Res.pure_eq, Res.ok.injEq] at hc
    obtain ⟨h1, h2, _, n, h4, h5, rfl⟩ := hc
    exact hm
  | mapWithSwitch hr hc =>
    simp only [Builder.mapWithSwitch, ite_err, ite_panic, Res.bind_eq_ok, Res.pure_eq, Res.ok.injEq] at hc
    obtain ⟨h1, h2, _, n, h4, h5, ⟨_, _⟩, h6, hc⟩ := hc
    simp only [ite_err, Res.bind_eq_ok, Res.pure_eq, Res.ok.injEq] at hc
    obtain ⟨_, cases, h7, rfl⟩ := hc
    exact hm
  | createGlyphSet hc =>
    simp only [Builder.createGlyphSet, ite_err, Res.ok.injEq, Prod.mk.injEq] at hc
    obtain ⟨hl, _, rfl, _⟩ := hc
    exact hm
  | removeGlyphSet uid =>
    unfold Builder.removeGlyphSet
    split
    · exact hm
    · exact hm
  | addGlyphSetRange hc =>
    rw [Builder.addGlyphSetRange] at hc
    split at hc
    · cases hc
    · rename_i gs hg
      simp only [ite_err, Res.ok.injEq] at hc
      obtain ⟨_, _, _, _, rfl⟩ := hc
      exact hm
  | removeGlyphSetRange uid first last =>
    unfold Builder.removeGlyphSetRange
    split
    · exact hm
    · rename_i gs hg
      split
      · exact hm
      · exact hm
  | addGlyphSetListGlyph hc =>
    rw [Builder.addGlyphSetListGlyph] at hc
    split at hc
    · cases hc
    · rename_i gs hg
      simp only [ite_err, Res.ok.injEq] at hc
      obtain ⟨_, _, _, rfl⟩ := hc
      exact hm
  | removeGlyphSetListGlyph uid g =>
    unfold Builder.removeGlyphSetListGlyph
    split
    · exact hm
    · rename_i gs hg
      split
      · exact hm
      · exact hm
  | createRuneSet hc =>
    simp only [Builder.createRuneSet, ite_err] at hc
    cases hc.2.2
  | removeRuneSet uid =>
    rw [Builder.removeRuneSet, h.runeSets]; exact hm
  | addRuneSetRange hc =>
    rw [Builder.addRuneSetRange, h.runeSets] at hc
    cases hc
  | removeRuneSetRange uid first last =>
    rw [Builder.removeRuneSetRange, h.runeSets]; exact hm
  | addRuneSetListRune hc =>
    rw [Builder.addRuneSetListRune, h.runeSets] at hc
    cases hc
  | removeRuneSetListRune uid c =>
    rw [Builder.removeRuneSetListRune, h.runeSets]; exact hm
  | addSimpleUtf8RewriteRule h1 h2 hc =>
    obtain ⟨r, bits, rfl, a1, a2, a3, a4, a5, a6, a7, a8⟩ := Builder.addSimpleUtf8Rule_ok hc
    refine ⟨fun x hx => ?_, hm.2⟩
    rcases List.mem_append.1 hx with hx | hx
    · exact hm.1 x hx
    · obtain rfl := List.mem_singleton.1 hx
      exact ⟨_, _, bits, h1, h2, a1, a2, a3, a4, a5, a6, a7, a8⟩
  | addGlyphRewriteRule hc =>
    obtain ⟨r, bits, rfl, a1, _, _, _, _, a2, _⟩ := Builder.addGlyphRule_ok hc
    refine ⟨hm.1, fun x hx => ?_⟩
    rcases List.mem_append.1 hx with hx | hx
    · exact hm.2 x hx
    · obtain rfl := List.mem_singleton.1 hx
      exact ⟨bits, a1, a2⟩
  | build hc =>
    obtain ⟨s, w, bi, hb⟩ := build_parts hc
    have hd := hb.main
    split at hd
    · simp only [Builder.addDye, ite_err, Res.bind_eq_ok, Res.pure_eq, Res.ok.injEq] at hd
      obtain ⟨_, _, _, rfl⟩ := hd
      exact hm
    · rw [← Res.ok.inj hd]; exact hm

theorem Edits.madeRules {e : Editor} (he : Edits e) : MadeRules e.builder := by
  induction he with
  | new h =>
    obtain ⟨id, _, rfl⟩ := find_new h
    exact ⟨by simp, by simp⟩
  | call he hc ih => exact hc.madeRules he.calls ih
  | clear _ ih => exact ih
  | parse _ hp ih =>
    refine parseEditionData_keeps (I := fun e' => MadeRules e'.builder) (fun _ h => h) ?_ ih hp
    exact editionBody_keeps (fun _ _ h => h) (fun _ _ h => h) (fun _ _ _ h => h) (fun _ h => h)
      (fun _ _ _ h _ _ => h) (fun _ _ _ _ h _ _ => h) (fun _ _ _ _ h _ _ => h)

theorem Reachable.madeRules {b : Builder} (h : Reachable b) : MadeRules b := by
  obtain ⟨e, he, rfl⟩ := h
  exact he.madeRules

end Spec
