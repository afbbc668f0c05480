import Verif.Spec.SampleHistory

/-! # One more call, with a switch -/

namespace Sample
open Spec BuilderModel

def switchedCalls : List Method := .mapWithSwitchSingles 97 0 [1001, 1002] :: calls

def switchedCalled : Builder :=
  { called with runeMapping := called.runeMapping ++ [(97, ⟨0, [⟨[1001], 0⟩, ⟨[1002], 0⟩]⟩)] }

end Sample
