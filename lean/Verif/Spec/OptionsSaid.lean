import Verif.Spec.History

/-! # Options of settings, from the calls -/

namespace Spec

/-- The number of options of the `j`-th setting that was added. -/
def optionsSaid (l : List Method) (j : Nat) : Nat := (((all Method.setting? l)[j]?).map fun s => s.options.length).getD 0

end Spec
