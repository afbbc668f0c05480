import Verif.Spec.SampleFont

/-! # A font with an empty dye -/

namespace Spec

/-- Two dyes, the second without alphas. -/
def emptySecond : Bytes := tinyFont.take 49 ++ [2, 2, 2, 255, 128, 1, 0, 2, 0, 97, 98] ++ tinyFont.drop 50

end Spec
