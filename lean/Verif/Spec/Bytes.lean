/-!
# Specification of byte-level encodings (independent of the models)
-/

namespace Spec

/-- Value of a little-endian byte string: `Σ byte_i * 256^i`. -/
def leValue : List UInt8 → Nat
  | [] => 0
  | b :: bs => b.toNat + 256 * leValue bs

end Spec
