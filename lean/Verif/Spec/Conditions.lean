import Verif.Model.Font

/-!
# Rewrite conditions, from `specification.md:304-312`

Boolean expressions, what they mean, and their bytes.
-/

namespace Spec
open Go

inductive Comparison where
  | eq | ne | lt | gt | le | ge
deriving DecidableEq, Repr

namespace Comparison

def holds : Comparison → Nat → Nat → Bool
  | eq, a, b => a == b
  | ne, a, b => a != b
  | lt, a, b => decide (a < b)
  | gt, a, b => decide (b < a)
  | le, a, b => decide (a ≤ b)
  | ge, a, b => decide (b ≤ a)

/-- The operator bits. -/
def code : Comparison → Nat
  | eq => 0 | ne => 1 | lt => 2 | gt => 3 | le => 4 | ge => 5

end Comparison

/-- Settings and constants are bytes; `quick` has `==`, `!=`, `<` or `>` and a constant under 32. -/
inductive Cond where
  | or (terms : List Cond)
  | and (terms : List Cond)
  | settings (op : Comparison) (a b : UInt8)
  | const (op : Comparison) (a c : UInt8)
  | quick (op : Comparison) (a : UInt8) (c : Nat)

namespace Cond

mutual

/-- The meaning. -/
def holds (v : List Nat) : Cond → Bool
  | or ts => anyHolds v ts
  | and ts => allHold v ts
  | settings op a b => op.holds (v.getD a.toNat 0) (v.getD b.toNat 0)
  | const op a c => op.holds (v.getD a.toNat 0) c.toNat
  | quick op a c => op.holds (v.getD a.toNat 0) c

def anyHolds (v : List Nat) : List Cond → Bool
  | [] => false
  | t :: ts => holds v t || anyHolds v ts

def allHold (v : List Nat) : List Cond → Bool
  | [] => true
  | t :: ts => holds v t && allHold v ts

end

mutual

/-- The bytes. -/
def bytes : Cond → Bytes
  | or ts => UInt8.ofNat ts.length :: allBytes ts
  | and ts => UInt8.ofNat (32 + ts.length) :: allBytes ts
  | settings op a b => [UInt8.ofNat (64 + op.code), a, b]
  | const op a c => [UInt8.ofNat (64 + 16 + op.code), a, c]
  | quick op a c => [UInt8.ofNat (96 + 32 * op.code + c), a]

def allBytes : List Cond → Bytes
  | [] => []
  | t :: ts => bytes t ++ allBytes ts

end

mutual

/-- Groups have 2 to 31 terms, quick comparisons are in range, and the settings exist. -/
def Ok (numSettings : Nat) : Cond → Prop
  | or ts => 2 ≤ ts.length ∧ ts.length ≤ 31 ∧ AllOk numSettings ts
  | and ts => 2 ≤ ts.length ∧ ts.length ≤ 31 ∧ AllOk numSettings ts
  | settings _ a b => a.toNat < numSettings ∧ b.toNat < numSettings
  | const _ a _ => a.toNat < numSettings
  | quick op a c => a.toNat < numSettings ∧ c < 32 ∧ op.code < 4

def AllOk (numSettings : Nat) : List Cond → Prop
  | [] => True
  | t :: ts => Ok numSettings t ∧ AllOk numSettings ts

end

mutual

/-- Only quick comparisons, and no group is decided before its end: the terms of `or` are all false
and those of `and` all true. -/
def Quiet (v : List Nat) : Cond → Prop
  | or ts => AllQuiet v false ts
  | and ts => AllQuiet v true ts
  | settings _ _ _ => False
  | const _ _ _ => False
  | quick _ _ _ => True

def AllQuiet (v : List Nat) (b : Bool) : List Cond → Prop
  | [] => True
  | t :: ts => Quiet v t ∧ holds v t = b ∧ AllQuiet v b ts

end

mutual

/-- The value that the code computes: in comparisons of the second and third kind it looks at the index of the first
setting, instead of its value. -/
def seen (v : List Nat) : Cond → Bool
  | or ts => anySeen v ts
  | and ts => allSeen v ts
  | settings op a b => op.holds a.toNat (v.getD b.toNat 0)
  | const op a c => op.holds a.toNat c.toNat
  | quick op a c => op.holds (v.getD a.toNat 0) c

def anySeen (v : List Nat) : List Cond → Bool
  | [] => false
  | t :: ts => seen v t || anySeen v ts

def allSeen (v : List Nat) : List Cond → Bool
  | [] => true
  | t :: ts => seen v t && allSeen v ts

end

mutual

/-- With these values, no group is decided before its end. -/
def Calm (v : List Nat) : Cond → Prop
  | or ts => AllCalm v false ts
  | and ts => AllCalm v true ts
  | settings _ _ _ => True
  | const _ _ _ => True
  | quick _ _ _ => True

def AllCalm (v : List Nat) (b : Bool) : List Cond → Prop
  | [] => True
  | t :: ts => Calm v t ∧ seen v t = b ∧ AllCalm v b ts

end

end Cond

/-- The conditions section of the font starts with the given block, and has `n` conditions: number of
conditions, end offsets (the first one is the length of the block), blocks. -/
structure FirstCondition (f : FontModel.Font) (n : Nat) (block : Bytes) : Prop where
  data : ∃ pre offsets post, f.data = pre ++ ([UInt8.ofNat n] ++
    ([UInt8.ofNat (block.length % 256), UInt8.ofNat (block.length / 256)] ++
      (offsets ++ (block ++ post)))) ∧ offsets.length = 2 * (n - 1) ∧ f.offConditions = pre.length
  count : 1 ≤ n ∧ n ≤ 254
  small : block.length < 65536

/-- The conditions section of the font has the given end offsets, all of them under 256, as those of conditions
that take fewer than 256 bytes together. -/
structure ShortConditions (f : FontModel.Font) (ends : List Nat) : Prop where
  data : ∃ pre post, f.data = pre ++ (UInt8.ofNat ends.length :: (ends.flatMap fun e => [UInt8.ofNat e, 0]) ++ post) ∧
    f.offConditions = pre.length
  count : ends.length ≤ 254
  short : ∀ e ∈ ends, 0 < e ∧ e < 256

end Spec
