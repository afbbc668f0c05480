/-!
# Specification: `basic-name-regexp` of `specification.md`

`[a-zA-Z](-?[A-Za-z0-9]+)*`, at most 32 characters.
-/

namespace Spec.Names

/-- `[a-zA-Z]` -/
def Letter (c : UInt8) : Prop := ('a'.toNat ≤ c.toNat ∧ c.toNat ≤ 'z'.toNat) ∨
  ('A'.toNat ≤ c.toNat ∧ c.toNat ≤ 'Z'.toNat)

/-- `[A-Za-z0-9]` -/
def Alnum (c : UInt8) : Prop := Letter c ∨ ('0'.toNat ≤ c.toNat ∧ c.toNat ≤ '9'.toNat)

/-- `-?[A-Za-z0-9]+` -/
def Part (p : List UInt8) : Prop :=
  ∃ h w, p = h ++ w ∧ (h = [] ∨ h = [UInt8.ofNat '-'.toNat]) ∧ w ≠ [] ∧ ∀ c ∈ w, Alnum c

/-- `[a-zA-Z](-?[A-Za-z0-9]+)*` with at most 32 characters. -/
def BasicName (s : List UInt8) : Prop :=
  s.length ≤ 32 ∧ ∃ c parts, s = c :: List.flatten parts ∧ Letter c ∧ ∀ p ∈ parts, Part p

end Spec.Names
