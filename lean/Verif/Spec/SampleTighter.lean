import Verif.Spec.SampleEdition

/-! # Edition data for the example with calls -/

namespace Sample
open Spec BuilderModel

/-- A class with another value than the pair has. -/
def tighter : EditionData := { editionData with classes := [(ascii "tight", -9), (ascii "wide", 4)] }

end Sample
