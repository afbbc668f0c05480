import Verif.Spec.Rules

/-!
# The fragments of encoded rewrite rules (`specification.md`, rewrite rules)

The input of a rule has three blocks (head, body, tail). A block is a sequence of fragments; a fragment is
a control byte (the number of sets in the upper half, the number of single elements in the lower half), the
sets and the elements. A block without elements is a single control byte zero.
-/

namespace Spec
open Go

/-- An input element: a set, given by its index, or a single glyph or code point. -/
inductive InElem where
  | set (i : Nat)
  | one (v : Nat)
deriving DecidableEq, Repr

structure Fragment where
  sets : List Nat
  ones : List Nat

namespace Fragment

def elems (f : Fragment) : List InElem := f.sets.map .set ++ f.ones.map .one

def size (f : Fragment) : Nat := f.sets.length + f.ones.length

def bytes (word : Nat → Bytes) (f : Fragment) : Bytes :=
  [UInt8.ofNat (16 * f.sets.length + f.ones.length)] ++ (f.sets.map UInt8.ofNat ++ f.ones.flatMap word)

/-- Both counts fit in half a byte and are not both zero; sets have one byte, elements are allowed. -/
structure Ok (ok : Nat → Prop) (f : Fragment) : Prop where
  sets : f.sets.length ≤ 15
  ones : f.ones.length ≤ 15
  pos : 0 < f.size
  set : ∀ g ∈ f.sets, g < 256
  one : ∀ v ∈ f.ones, ok v

end Fragment

/-- The bytes of a block. -/
def blockBytes (word : Nat → Bytes) : List Fragment → Bytes
  | [] => [0]
  | fs => fs.flatMap (Fragment.bytes word)

def blockSize (fs : List Fragment) : Nat := (fs.map Fragment.size).sum

def blockElems (fs : List Fragment) : List InElem := fs.flatMap Fragment.elems

/-- A rule with its input in fragments. -/
structure RuleCode where
  condition : UInt8
  outs : List Nat
  head : List Fragment
  body : List Fragment
  tail : List Fragment

/-- Input elements kept as flags (for sets) with the sets and the single elements apart. -/
def merge : List Bool → (sets ones : List Nat) → List InElem
  | true :: bs, g :: sets, ones => .set g :: merge bs sets ones
  | false :: bs, sets, v :: ones => .one v :: merge bs sets ones
  | _, _, _ => []

namespace RuleCode

def bytes (word : Nat → Bytes) (r : RuleCode) : Bytes :=
  [r.condition, UInt8.ofNat (blockSize r.head), UInt8.ofNat (blockSize r.body), UInt8.ofNat (blockSize r.tail),
    UInt8.ofNat r.outs.length] ++
  (r.outs.flatMap word ++ (blockBytes word r.head ++ (blockBytes word r.body ++ blockBytes word r.tail)))

/-- The input elements with their block: 0 for the head, 1 for the body and 2 for the tail. -/
def elems (r : RuleCode) : List (Nat × InElem) :=
  (blockElems r.head).map (0, ·) ++ (blockElems r.body).map (1, ·) ++ (blockElems r.tail).map (2, ·)

/-- Rules that scan: at most 255 input elements, a body, at least one output element and not more than
elements in the body. -/
structure Ok (ok : Nat → Prop) (r : RuleCode) : Prop where
  head : ∀ f ∈ r.head, f.Ok ok
  body : ∀ f ∈ r.body, f.Ok ok
  tail : ∀ f ∈ r.tail, f.Ok ok
  total : blockSize r.head + blockSize r.body + blockSize r.tail ≤ 255
  outPos : 0 < r.outs.length
  outLe : r.outs.length ≤ blockSize r.body

end RuleCode

end Spec
