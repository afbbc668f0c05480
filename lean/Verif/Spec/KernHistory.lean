import Verif.Spec.History
import Verif.Spec.Edition

/-! # Kerning, from the calls and the edition data -/

namespace Spec
open BuilderModel EditionModel

/-- The calls that concern edition data. -/
def Method.edition : Method → Bool
  | clearEditionData => true
  | parseEditionData _ _ _ => true
  | _ => false

/-- The kerning of a pair when `x` was loaded after the calls `before` and followed by the calls `since`: a value that
was set since then; otherwise that of the class; otherwise the value from before. -/
def kernSince (since before : List Method) (order : List Nat) (x : EditionData) (pair : Nat × Nat) : Int :=
  match since.findSome? (Method.kerning? pair) with
  | some k => k
  | none =>
    match classIn order x.horz pair with
    | 0 => latest (Method.kerning? pair) 0 before
    | c + 1 => ((x.classes.map (·.2))[c]?).getD 0

end Spec
