import Verif.Lemmas.EditionFlat
import Verif.Lemmas.Exported
import Verif.Spec.SampleEdition

/-! # The sample of edition data -/

namespace Sample
open Go ParseBuf BuilderModel EditionModel Spec

theorem kernedEditor_edits : Edits kernedEditor := by
  have h0 : Edits ⟨fresh, [], [], []⟩ := .new (rolls := [0x9E3779B97F4A7C15]) (today := day) (by decide +kernel)
  have h1 : Edits ⟨oneGlyph, [], [], []⟩ :=
    h0.call (.addGlyph (rolls := [1001]) (mask := dot) (uid := 1001) (by decide +kernel))
  have h2 : Edits ⟨twoGlyphs, [], [], []⟩ :=
    h1.call (.addGlyph (rolls := [1002]) (mask := dot) (uid := 1002) (by decide +kernel))
  exact h2.call (.setKerningPair 1001 1002 ⟨by decide, by decide⟩)

theorem atOnce_serves {D : Bytes} (h : D ≠ []) (hl : D.length ≤ 1024) : (atOnce D).Serves D :=
  ⟨by simpa [atOnce] using hl, rfl, ⟨[], by simp, rfl⟩, Or.inr ⟨by simp [h], trivial⟩⟩

theorem names_valid {l : List (Bytes × Int)} (h : ∀ c ∈ l, Names.validateBasicSpacedName c.1 = .ok () ∧ -128 ≤ c.2 ∧ c.2 ≤ 127) :
    ∀ c ∈ l, SpacedName c.1 ∧ -128 ≤ c.2 ∧ c.2 ≤ 127 := fun c hc => ⟨(spacedName_iff _).1 (h c hc).1, (h c hc).2⟩

theorem categories_valid {l : List (Bytes × Nat)} (h : ∀ c ∈ l, Names.validateBasicSpacedName c.1 = .ok () ∧ c.2 < 65536) :
    ∀ c ∈ l, SpacedName c.1 ∧ c.2 < 65536 := fun c hc => ⟨(spacedName_iff _).1 (h c hc).1, (h c hc).2⟩

instance (p : PairClass) (n : Nat) : Decidable (p.Valid n) := by unfold PairClass.Valid PairClass.Fits; infer_instance
instance (b : Builder) (t : List PairClass) : Decidable (ValidTable b t) := by unfold ValidTable; infer_instance

theorem editionData_valid : editionData.Valid kernedEditor.builder :=
  ⟨⟨by decide +kernel, by decide +kernel, categories_valid (by decide +kernel), by decide +kernel,
    names_valid (by decide +kernel)⟩, by decide +kernel, by decide +kernel, by decide +kernel, by simp [editionData]⟩

theorem editionData_conforms : editionData.Conforms kernedEditor.builder :=
  ⟨by decide +kernel, by decide +kernel, by decide +kernel⟩

end Sample
