import Verif.Spec.Exported
import Verif.Spec.Words

/-!
# From the builder to the file and back
-/

namespace Spec
open Go BuilderModel FontModel ParseBuf

/-- `g` was read from a file exported from a font built from `b`, which was made with the public methods. The data of
the font fits its end offsets. -/
structure ReadBack (env : Env) (b : Builder) (g : Font) : Prop where
  fair : Fair env
  fragments : ∀ l, (env.fragOrder l).Perm l
  words : ∃ k, 0 < k ∧ k < 256 ∧ env.predef k = env.predef 0
  made : Reachable b
  read : ∃ b' f first gz junk, b.build env = .ok (b', f) ∧ SizesFit b' f ∧ Exported f first gz ∧
    ParseModel.parse junk first gz = .ok g

/-- A value of the Go type. -/
def DateFits (d : DateModel.Date) : Prop := d.year < 65536 ∧ d.month < 256 ∧ d.day < 256

/-- The dyes of the font: one is added when there are no colors. -/
def fontDyes (b : Builder) : List Dye :=
  if b.dyes = [] ∧ b.palettes = [] then [⟨ascii "main", [255]⟩] else b.dyes

end Spec
