import Verif.Spec.RuleCode
import Verif.Model.Build
import Verif.Model.Scanner

/-!
# What scanning a rule must yield

`pair` is the convention of `Next`: single elements come with no set, sets with no element. The builder
keeps the input of a rule as flags and two lists (`RuleOk`, `merge`), with identifiers instead of indices
(`glyphBack`).
-/

namespace ScannerModel
open Spec

/-- What the code returns for an element. -/
def pair (k : Kind) : Nat × InElem → Nat × Nat × Nat
  | (b, .set i) => (b, k.none, i)
  | (b, .one v) => (b, v, setNone)

/-- The states a scanner goes through. -/
inductive Reached (k : Kind) (rule : Bytes) : Scanner → Prop
  | start {s : Scanner} : start k rule = .ok s → Reached k rule s
  | next {s s' : Scanner} {x : Nat × Nat} : Reached k rule s → next k s = .ok (s', x) → Reached k rule s'

end ScannerModel

namespace BuilderModel.Builder
open Spec

/-- A rule of the builder keeps its input elements as flags and two lists. -/
structure RuleOk (r : Rule) (bits : List Bool) : Prop where
  rep : ∀ i (h : i < bits.length), r.isGroup.get i = .ok bits[i]
  len : bits.length = r.headLen + r.bodyLen + r.tailLen
  le : bits.length ≤ 255
  groups : r.inGroups.length = bits.count true
  elems : r.inElems.length = bits.count false

/-- The element that an identifier stands for: glyphs come before sets. -/
def inElem (b : Builder) (u : Nat) : InElem := if (b.glyphData.get u).isSome then .one u else .set u

/-- What a scanned element of a glyph rule stands for. -/
def glyphBack (b : Builder) : InElem → Option InElem
  | .set i => b.glyphSetsOrder[i]?.map .set
  | .one v => b.glyphOrder[v]?.map .one

/-- The blocks of the input elements of a rule. -/
def blocks (r : Rule) : List Nat :=
  List.replicate r.headLen 0 ++ List.replicate r.bodyLen 1 ++ List.replicate r.tailLen 2

end BuilderModel.Builder
