import Verif.Model.BuilderExport

/-! # What exporting should do -/

namespace Spec
open Go FontModel

/-- The file signature, `specification.md:9`. -/
def fileSignature : Bytes := [116, 103, 103, 102, 110, 116]

/-- A writer takes all the bytes and reports no error. -/
def Takes (w : Bytes → Written) (x : Bytes) : Prop := (w x).err = none ∧ (w x).n = x.length

/-- The contract of `io.Writer`: an error is reported when fewer bytes are taken. -/
def Contract (w : Bytes → Written) : Prop := ∀ x, (w x).n ≤ x.length ∧ ((w x).n < x.length → (w x).err ≠ none)

/-- A writer that takes everything, and one that stops after `n` bytes. -/
def willing : Bytes → Written := fun x => ⟨x.length, none⟩
def full (n : Nat) : Bytes → Written := fun x => if x.length ≤ n then ⟨x.length, none⟩ else ⟨n, some "no space left on device"⟩

end Spec
