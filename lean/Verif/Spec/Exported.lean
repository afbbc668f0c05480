import Verif.Model.Export
import Verif.Model.Parse
import Verif.Spec.Reader
import Verif.Spec.Reachable
import Verif.Spec.Acceptable
import Verif.Spec.SampleBuilder

/-!
# Exported fonts

`gzip` is trusted to give back what was written. The data may arrive in any chunks.
-/

namespace Spec
open Go FontModel ParseBuf

/-- A file with the signature `sig` and the compressed data `data`, as `Parse` reads it: the first read gets
the signature, the decompressed rest is served by a reader. -/
structure FileWith (sig data : Bytes) (first : Ev) (gz : Res Reader) : Prop where
  sig : first = ⟨sig, .nil⟩
  rest : ∃ r : Reader, gz = .ok r ∧ r.Serves data

/-- What `Parse` reads from a file made by `Export`: what was handed to the two writers. -/
def Exported (f : Font) (first : Ev) (gz : Res Reader) : Prop :=
  ∃ raw zip close, (f.export raw zip close).1 = none ∧
    FileWith (f.export raw zip close).2.1 (f.export raw zip close).2.2 first gz

/-- The builder makes a font that `Parse` rejects: the data fits, but `P` fails. -/
def Rejected (b : BuilderModel.Builder) (P : BuilderModel.Builder → Font → Prop) : Prop :=
  Reachable b ∧ ∃ b' f, b.build Sample.env = .ok (b', f) ∧ SizesFit b' f ∧ ¬ P b' f ∧
    (∃ first gz, Exported f first gz) ∧
    ∀ first gz junk, Exported f first gz → ∃ m, ParseModel.parse junk first gz = .err m

end Spec
