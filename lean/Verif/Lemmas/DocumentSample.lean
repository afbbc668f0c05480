import Verif.Lemmas.BuiltParse
import Verif.Lemmas.RealWords
import Verif.Lemmas.SampleEdition
import Verif.Spec.SampleDocument

/-! # The builders of `Spec/SampleDocument.lean` can be reached -/

namespace Sample
open Go BuilderModel Spec EditionModel

/-- `Build` succeeds, and sizes fit. -/
def Fits (env : Env) (b : Builder) : Prop :=
  b.build env = .ok (resultIn env b) ∧ ((resultIn env b).1.dyes.map fun d => d.name.length).sum ≤ 65535 ∧
    ((resultIn env b).1.palettes.map fun p => p.name.length).sum ≤ 65535 ∧
    (resultIn env b).2.offWords ≤ (resultIn env b).2.offGlyphMasks + 3 * (resultIn env b).1.glyphOrder.length + 16777215 ∧
    (resultIn env b).2.offConditions ≤
      (resultIn env b).2.offMapping + (2 + 7 * (resultIn env b).1.runeMapping.length) + 16777215

instance (env : Env) (b : Builder) : Decidable (Fits env b) := by unfold Fits; infer_instance

theorem Fits.built {env : Env} {b : Builder} (h : Fits env b) :
    b.build env = .ok ((resultIn env b).1, (resultIn env b).2) ∧ SizesFit (resultIn env b).1 (resultIn env b).2 :=
  ⟨h.1, fits_of h.2⟩

theorem noName_reachable : Reachable noName :=
  oneGlyph_reachable.call (.setName (valid := fun _ => true) (name := []) (by decide +kernel))

theorem interspaced_reachable : Reachable interspaced := oneGlyph_reachable.call (.setVertInterspacing 1)

theorem unvertical_reachable : Reachable unvertical :=
  (((((oneGlyph_reachable.call (.setAscent 12)).call (.setExtraAscent 3)).call (.setVertLayoutUsed true)).call
    (.setVertLineWidth (v := 7) (b' := val fresh
      ((((oneGlyph.setAscent 12).setExtraAscent 3).setVertLayoutUsed true).setVertLineWidth 7)) (by decide +kernel))).call
    (.setVertLineGap (v := 2) (b' := vertical) (by decide +kernel))).call (.setVertLayoutUsed false)

theorem digitGlyph_reachable : Reachable digitGlyph :=
  oneGlyph_reachable.call (.setGlyphName (uid := 1001) (name := ascii "1a") (by decide +kernel))

theorem digitWord_reachable : Reachable digitWord :=
  oneGlyph_reachable.call (.addSetting (name := ascii "zero") (options := [ascii "1a"]) (key := 0) (by decide +kernel))

theorem digitSetting_reachable : Reachable digitSetting :=
  oneGlyph_reachable.call (.addSetting (name := ascii "1a") (options := [ascii "on"]) (key := 0) (by decide +kernel))

theorem hundred_reachable : Reachable hundred :=
  oneGlyph_reachable.call (.addSetting (name := ascii "scale") (options := [ascii "100"]) (key := 0) (by decide +kernel))

theorem manyCases_reachable : Reachable manyCases :=
  ((oneGlyph_reachable.call (.addSetting (name := ascii "style") (options := List.replicate 17 (ascii "on"))
      (b' := (val (fresh, 0) (oneGlyph.addSetting (ascii "style") (List.replicate 17 (ascii "on")))).1) (key := 0)
      (by decide +kernel))).call
    (.addSetting (name := ascii "shape") (options := List.replicate 17 (ascii "on"))
      (b' := (val (fresh, 0) ((val (fresh, 0) (oneGlyph.addSetting (ascii "style")
        (List.replicate 17 (ascii "on")))).1.addSetting (ascii "shape") (List.replicate 17 (ascii "on")))).1) (key := 1)
      (by decide +kernel))).call (.addSwitch (settings := [0, 1]) (i := 0) (by decide +kernel))

theorem doubling_reachable : Reachable doubling :=
  oneGlyph_reachable.call (.addGlyphRewriteRule (headLen := 0) (bodyLen := 1) (tailLen := 0) (input := [1001])
    (out := [1001, 1001]) (by decide +kernel))

theorem kernedTwice_reachable : Reachable kernedTwice :=
  ⟨{ builder := kernedTwice, categories := [(ascii "All letters", 2)], classNames := [ascii "tight", ascii "wide"] },
    .parse (junk := fun _ => 0) (sig := ⟨editionSignature, .nil⟩) (gz := .ok (atOnce twicePaired.bytes)) (err := none)
      kernedEditor_edits (by decide +kernel), rfl⟩

end Sample
