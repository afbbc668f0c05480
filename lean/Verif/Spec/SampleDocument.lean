import Verif.Spec.SampleEdition
import Verif.Spec.SampleRejected
import Verif.Spec.SampleWords

/-! # Builders whose fonts are not what the format specification says, for one reason each -/

namespace Sample
open Go BuilderModel EditionModel

/-- The result of `Build` in any environment. -/
def resultIn (env : Env) (b : Builder) : Builder × FontModel.Font :=
  val (b, ⟨[], 0, 0, 0, 0, 0, 0, 0, 0, 0, 0, 0, 0, 0, 0, 0, 0, 0⟩) (b.build env)

/-- Vertical layout that is not used any more. -/
def unvertical : Builder := vertical.setVertLayoutUsed false

/-- A glyph name that starts with a digit. -/
def digitGlyph : Builder := val fresh (oneGlyph.setGlyphName 1001 (ascii "1a"))

/-- The same for a word, a setting, and an option that is the last of the predefined words. -/
def digitWord : Builder := withSettings [("zero", ["1a"])]
def digitSetting : Builder := withSettings [("1a", ["on"])]
def hundred : Builder := withSettings [("scale", ["100"])]

/-- A rule with more output than input. -/
def doubling : Builder := val fresh (oneGlyph.addGlyphRule 0 1 0 [1001] [1001, 1001])

/-- Edition data with the same pair twice. -/
def twicePaired : Spec.EditionData := { editionData with horz := [⟨0, 1, 1⟩], vert := [⟨0, 1, 2⟩] }

/-- After loading it. -/
def kernedTwice : Builder :=
  { twoGlyphs with
    kernClasses := [-3, 4]
    horzKern := [((1001, 1002), ⟨1, -2⟩)]
    vertKern := [((1001, 1002), ⟨2, 0⟩)] }

end Sample
