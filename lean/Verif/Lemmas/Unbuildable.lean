import Verif.Lemmas.Exported
import Verif.Lemmas.SampleEdition
import Verif.Spec.SampleUnbuildable

/-! # The samples can be reached -/

namespace Sample
open Go BuilderModel EditionModel Spec

theorem val_eq {α : Type} {d : α} {x : Res α} (h : x.isOk = true) : x = .ok (val d x) := by
  cases x <;> first | rfl | cases h

theorem manyDyes_reachable : Reachable manyDyes :=
  Reachable.fold (step := fun b i => b.addDye [byte i] []) (fun _ _ _ h => .addDye h) (l := List.range 256)
    (val_eq (by decide +kernel)) oneGlyph_reachable

theorem switched_reachable : Reachable switched := by
  have g : ∀ {b b' : Builder} {u : Nat}, Reachable b → b.addGlyph [u] dot = .ok (b', u) → Reachable b' :=
    fun h e => h.call (.addGlyph e)
  have h2 : Reachable twoGlyphs := g (u := 1002) oneGlyph_reachable (by decide +kernel)
  have h3 : Reachable (val (fresh, 0) (twoGlyphs.addGlyph [1003] dot)).1 := g (u := 1003) h2 (by decide +kernel)
  have h4 : Reachable fourGlyphs := g (u := 1004) h3 (by decide +kernel)
  have h5 := h4.call (.addSetting (name := ascii "style") (options := [ascii "off", ascii "on"])
    (b' := (val (fresh, 0) (fourGlyphs.addSetting (ascii "style") [ascii "off", ascii "on"])).1)
    (key := 0) (by decide +kernel))
  exact h5.call (.addSwitch (settings := [0]) (i := 0) (by decide +kernel))

theorem strayGlyph_reachable : Reachable strayGlyph :=
  switched_reachable.call (.mapWithSwitchSingles (c := 65) (sw := 0) (uids := [1003, 9999]) (by decide)
    (val_eq (by decide +kernel)))

theorem wideGroup_reachable : Reachable wideGroup :=
  switched_reachable.call (.mapWithSwitch (c := 65) (sw := 0) (groups := [List.replicate 129 1001, [1002, 1003]])
    (flags := [0, 0]) (by decide) (val_eq (by decide +kernel)))

theorem emptySet_reachable : Reachable (val (fresh, 0) (oneGlyph.createGlyphSet 5)).1 :=
  oneGlyph_reachable.call (.createGlyphSet (uid := 5) (i := 5) (by decide +kernel))

theorem removedSet_reachable : Reachable removedSet := emptySet_reachable.call (.removeGlyphSet 5)

theorem glyphs_reachable {n : Nat} {b : Builder} (h : glyphs n = .ok b) : Reachable b := by
  refine Reachable.fold (step := fun b i => do return (← b.addGlyph [2000 + i] dot).1) ?_ h oneGlyph_reachable
  intro b i b' h
  obtain ⟨⟨b1, u⟩, h1, h2⟩ := Res.bind_eq_ok.1 h
  obtain rfl := Res.ok.inj h2
  exact .addGlyph h1

theorem manyRanges_reachable : Reachable manyRanges := by
  have e : addRanges = .ok manyRanges := val_eq (by decide +kernel)
  obtain ⟨b, hb, e⟩ := Res.bind_eq_ok.1 e
  obtain ⟨⟨c, u⟩, hc, e⟩ := Res.bind_eq_ok.1 e
  exact Reachable.fold (step := fun b i => b.addGlyphSetRange 5 (2000 + i / 16) (2000 + i % 16))
    (fun _ _ _ h => .addGlyphSetRange h) e ((glyphs_reachable hb).call (.createGlyphSet hc))

theorem longList_reachable : Reachable longList := by
  have e : addList = .ok longList := val_eq (by decide +kernel)
  obtain ⟨b, hb, e⟩ := Res.bind_eq_ok.1 e
  obtain ⟨⟨c, u⟩, hc, e⟩ := Res.bind_eq_ok.1 e
  exact Reachable.fold (step := fun b i => b.addGlyphSetListGlyph 5 (2000 + i))
    (fun _ _ _ h => .addGlyphSetListGlyph h) e ((glyphs_reachable hb).call (.createGlyphSet hc))

theorem emptyBody_reachable : Reachable emptyBody :=
  oneGlyph_reachable.call (.addGlyphRewriteRule (headLen := 1) (bodyLen := 0) (tailLen := 0) (input := [1001])
    (out := [1001]) (val_eq (by decide +kernel)))

theorem longOutput_reachable : Reachable longOutput :=
  oneGlyph_reachable.call (.addGlyphRewriteRule (headLen := 0) (bodyLen := 1) (tailLen := 0) (input := [1001])
    (out := List.replicate 256 1001) (val_eq (by decide +kernel)))

theorem strayKerning_reachable : Reachable strayKerning :=
  oneGlyph_reachable.call (.setKerningPair 1001 9999 ⟨by decide, by decide⟩)

theorem farGlyph_reachable : Reachable farGlyph :=
  fresh_reachable.call (.addGlyph (rolls := [1001]) (mask := farDot) (uid := 1001) (by decide +kernel))

theorem loaded_reachable : Reachable loaded :=
  ⟨{ builder := loaded, categories := [(ascii "All letters", 2)], classNames := [ascii "tight", ascii "wide"] },
    .parse (junk := fun _ => 0) (sig := ⟨editionSignature, .nil⟩) (gz := .ok (atOnce editionData.bytes)) (err := none)
      kernedEditor_edits (by decide +kernel), rfl⟩

theorem misclassed_reachable : Reachable misclassed :=
  ⟨{ builder := misclassed, categories := [(ascii "All letters", 2)], classNames := [ascii "tight", ascii "wide"] },
    .parse (junk := fun _ => 0) (sig := ⟨editionSignature, .nil⟩) (gz := .ok (atOnce wrongClass.bytes)) (err := none)
      kernedEditor_edits (by decide +kernel), rfl⟩

end Sample
