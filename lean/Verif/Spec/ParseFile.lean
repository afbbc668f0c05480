import Verif.Model.ParseFile

/-!
# Files are closed
-/

namespace Spec
open ParseFile

/-- The run closes the file once, after everything else, if it was opened. -/
def Closes (run : Run) (opened : Prop) : Prop :=
  (opened → ∃ l, run.calls = l ++ [.close] ∧ Call.close ∉ l) ∧ (¬ opened → Call.close ∉ run.calls)

end Spec
