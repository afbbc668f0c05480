import Verif.Spec.Layout
import Verif.Spec.Reader
import Verif.Model.Parse

/-! # Data that is exactly one font -/

namespace Spec
open FontModel ParseModel ParseBuf

/-- `D` is exactly one font: some reader for it is accepted, and the font ends with the data. -/
def Whole (D : Bytes) (f : Font) : Prop :=
  D.length ≤ maxFontDataSize ∧ (∃ r junk, Reader.Serves r D ∧ parseStream junk r = .ok f) ∧
    f.offVertKern + kernSize D f.offVertKern = D.length

/-- Fonts that `Parse` returns. -/
def Accepted (f : Font) : Prop :=
  ∃ D r junk, D.length ≤ maxFontDataSize ∧ Reader.Serves r D ∧ parseStream junk r = .ok f

end Spec
