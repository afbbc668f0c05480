import Verif.Go
import Verif.Spec.Bytes

/-!
# Layout of rewrite rules and rewrite sets (`specification.md:255-300`)
-/

namespace Spec
open Go

/-- Two bytes, the lower one first. -/
def word16 (v : Nat) : Bytes := [UInt8.ofNat v, UInt8.ofNat (v / 256)]
/-- Four bytes, the lowest one first. -/
def word32 (v : Nat) : Bytes :=
  [UInt8.ofNat v, UInt8.ofNat (v / 256), UInt8.ofNat (v / 65536), UInt8.ofNat (v / 16777216)]

/-- The parts of an encoded rule that do not depend on the kind of the elements. -/
structure EncRule where
  condition : UInt8
  head : UInt8
  body : UInt8
  tail : UInt8
  outs : List Nat
  fragments : Bytes

/-- A rule over glyphs: outputs have two bytes. -/
def EncRule.glyphBytes (r : EncRule) : Bytes :=
  [r.condition, r.head, r.body, r.tail, UInt8.ofNat r.outs.length] ++ (r.outs.flatMap word16 ++ r.fragments)

/-- A rule over code points: outputs have four bytes. -/
def EncRule.utf8Bytes (r : EncRule) : Bytes :=
  [r.condition, r.head, r.body, r.tail, UInt8.ofNat r.outs.length] ++ (r.outs.flatMap word32 ++ r.fragments)

/-- An encoded set: ranges are given by their first element and the number of further elements. -/
structure EncSet where
  ranges : List (Nat × Nat)
  list : List Nat

def EncSet.glyphBytes (s : EncSet) : Bytes :=
  [UInt8.ofNat s.ranges.length] ++ (s.ranges.flatMap (fun r => word16 r.1 ++ [UInt8.ofNat r.2]) ++
    ([UInt8.ofNat s.list.length] ++ s.list.flatMap word16))

def EncSet.utf8Bytes (s : EncSet) : Bytes :=
  [UInt8.ofNat s.ranges.length] ++ (s.ranges.flatMap (fun r => word32 r.1 ++ [UInt8.ofNat r.2]) ++
    ([UInt8.ofNat s.list.length] ++ s.list.flatMap word32))

/-- Counts and sizes have one byte, elements are below `bound`, also the last ones of ranges. -/
structure EncSet.Ok (s : EncSet) (bound : Nat) : Prop where
  numRanges : s.ranges.length ≤ 255
  numList : s.list.length ≤ 255
  ranges : ∀ r ∈ s.ranges, r.2 ≤ 255 ∧ r.1 + r.2 < bound
  list : ∀ g ∈ s.list, g < bound

end Spec
