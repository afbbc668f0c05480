import Verif.Spec.SampleBuilder

/-! # A dye and a palette that are stored in the same way, for the examples -/

namespace Sample
open Go BuilderModel

/-- The builder with the dye `main` and one palette. -/
def trueColors (b : Builder) (filler : Bytes) : Builder :=
  { b with dyes := [⟨ascii "main", [255]⟩], palettes := [⟨filler ++ [0], [⟨200, 0, 0, 255⟩]⟩] }

/-- The builder with a dye that has a long name. -/
def longDye (b : Builder) (filler : Bytes) : Builder :=
  { b with dyes := [⟨ascii "main" ++ [1, 1, 200, 0, 0, 255, 249, 255] ++ filler, [255]⟩] }

end Sample
