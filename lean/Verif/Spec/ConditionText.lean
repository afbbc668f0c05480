import Verif.Spec.Conditions

/-!
# The text of rewrite conditions, from the grammar of `builder/font_builder_rewrite_condition.go:142-150`

What a condition looks like when it is printed, and what a comparison written by hand means.
-/

namespace Spec

/-- Decimal digits as ASCII bytes. -/
def decimal (n : Nat) : Bytes := (Nat.toDigits 10 n).map fun c => UInt8.ofNat c.toNat

/-- The bytes of an ASCII string. -/
def chars (s : String) : Bytes := s.toList.map fun c => UInt8.ofNat c.toNat

def spaces (n : Nat) : Bytes := List.replicate n 32

namespace Comparison

def symbol : Comparison → Bytes
  | eq => [61, 61]
  | ne => [33, 61]
  | lt => [60]
  | gt => [62]
  | le => [60, 61]
  | ge => [62, 61]

end Comparison

namespace Cond

/-- `#A OP ` -/
def leftText (op : Comparison) (a : UInt8) : Bytes := [35] ++ decimal a.toNat ++ [32] ++ op.symbol ++ [32]

mutual

/-- The text of a term: groups are in parentheses. -/
def sub : Cond → Bytes
  | or ts => [40] ++ joined [32, 79, 82, 32] ts ++ [41]
  | and ts => [40] ++ joined [32, 65, 78, 68, 32] ts ++ [41]
  | settings op a b => leftText op a ++ [35] ++ decimal b.toNat
  | const op a c => leftText op a ++ decimal c.toNat
  | quick op a c => leftText op a ++ decimal c

/-- The texts of terms with something between them. -/
def joined (sep : Bytes) : List Cond → Bytes
  | [] => []
  | t :: ts => sub t ++ (if ts = [] then [] else sep) ++ joined sep ts

end

/-- The text of a whole condition: the outermost group has no parentheses. -/
def text : Cond → Bytes
  | or ts => joined [32, 79, 82, 32] ts
  | and ts => joined [32, 65, 78, 68, 32] ts
  | c => sub c

end Cond

/-- The number that digits stand for. -/
def number (digits : Bytes) : Nat := digits.foldl (fun n c => 10 * n + (c.toNat - 48)) 0

/-- A comparison as somebody writes it: with any number of spaces around the operator, and digits that
may begin with zeros. -/
structure Written where
  left : Bytes
  gap1 : Nat
  op : Comparison
  gap2 : Nat
  hash : Bool
  right : Bytes
deriving Repr

namespace Written

def Digits (l : Bytes) : Prop := l ≠ [] ∧ ∀ c ∈ l, 48 ≤ c ∧ c ≤ 57

instance (l : Bytes) : Decidable (Digits l) := by unfold Digits; infer_instance

structure Ok (w : Written) : Prop where
  left : Digits w.left
  right : Digits w.right

def text (w : Written) : Bytes :=
  [35] ++ w.left ++ spaces w.gap1 ++ w.op.symbol ++ spaces w.gap2 ++ (if w.hash then [35] else []) ++ w.right

/-- Settings go up to 254 and constants up to 255. -/
def InRange (w : Written) : Prop :=
  number w.left ≤ 254 ∧ number w.right ≤ if w.hash then 254 else 255

instance (w : Written) : Decidable w.InRange := by unfold InRange; infer_instance

/-- It has a short form. -/
def Quick (w : Written) : Prop := w.hash = false ∧ number w.right < 32 ∧ w.op.code < 4

instance (w : Written) : Decidable w.Quick := by unfold Quick; infer_instance

/-- The condition meant. -/
def cond (w : Written) : Cond :=
  if w.hash then .settings w.op (UInt8.ofNat (number w.left)) (UInt8.ofNat (number w.right))
  else if number w.right < 32 ∧ w.op.code < 4 then
    .quick w.op (UInt8.ofNat (number w.left)) (number w.right)
  else .const w.op (UInt8.ofNat (number w.left)) (UInt8.ofNat (number w.right))

end Written

end Spec
