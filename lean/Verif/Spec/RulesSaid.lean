import Verif.Spec.History
import Verif.Spec.TextRules

/-! # Replacements, from the calls -/

namespace Spec
open BuilderModel

/-- The replacement that a call of `AddGlyphRewriteRule` without sets asks for; `order` gives the glyphs their indices. -/
def saidRule (order : List Nat) (c : Nat × Nat × Nat × List Nat × List Nat) : Replacement :=
  ⟨c.1, c.2.2.2.1.map order.idxOf, c.2.2.2.2.map order.idxOf, c.2.2.1⟩

end Spec
