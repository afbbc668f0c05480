import Verif.Lemmas.Entropy
import Verif.Lemmas.Bytes
import Verif.Lemmas.Header
import Mathlib.Tactic.Linarith

/-!
# C42: entropy check of font identifiers
-/

namespace C42
open Go Helpers

/-- **C42, range.** The entropy estimate of every identifier is between 0 and 1. -/
theorem entropy_range (v : Nat) : 0 ≤ lazyEntropyUint64 v ∧ lazyEntropyUint64 v ≤ 1 := by
  have h : ((entropyDist v : Nat) : Rat) ≤ 48 := by exact_mod_cast dist_le v
  have h0 : (0 : Rat) ≤ ((entropyDist v : Nat) : Rat) := by exact_mod_cast Nat.zero_le _
  unfold lazyEntropyUint64
  constructor <;> linarith

/-- The extremes are reached: an all-zero identifier has entropy 0. -/
example : lazyEntropyUint64 0 = 0 := by
  have : entropyDist 0 = 48 := by decide
  unfold lazyEntropyUint64; rw [this]; norm_num

/-- The estimate depends only on the low 33 bits of the identifier. -/
theorem entropy_low_bits (v : Nat) : lazyEntropyUint64 (v % 2 ^ 33) = lazyEntropyUint64 v := by
  unfold lazyEntropyUint64 entropyDist
  rw [patterns_low 32 v 33 _ (by omega)]

/-- **C42, violated part.** "The estimate takes the whole identifier into account" is false: the
pattern loop shifts by one bit per iteration (`value >>= 1`) but only runs 32 times, so for every
identifier the upper 31 bits can be replaced by anything (in particular by zeros) without changing
the estimate. -/
theorem whole_identifier_violated :
    ∀ v < 2 ^ 64, ∀ high < 2 ^ 31, lazyEntropyUint64 (v % 2 ^ 33 + 2 ^ 33 * high) = lazyEntropyUint64 v := by
  intro v _ high _
  rw [← entropy_low_bits (v % 2 ^ 33 + 2 ^ 33 * high)]
  rw [Nat.add_mul_mod_self_left, Nat.mod_mod, entropy_low_bits]

/-- A maximal-entropy identifier whose upper 31 bits are all zero. -/
example : entropyDist 0x6A1D8B339 = entropyDist (0x6A1D8B339 % 2 ^ 33) := by decide

/-- **C42, random identifiers.** The eight random bytes are the digits of the identifier: it is below 2^64,
different bytes give different identifiers, and every identifier is reached. With uniformly random bytes the
identifier is therefore uniformly random. -/
theorem random_value :
    (∀ bs : Bytes, bs.length = 8 → cryptoRandUint64 bs = Spec.leValue bs ∧ cryptoRandUint64 bs < 2 ^ 64) ∧
    (∀ bs bs' : Bytes, bs.length = 8 → bs'.length = 8 → cryptoRandUint64 bs = cryptoRandUint64 bs' → bs = bs') ∧
    (∀ v < 2 ^ 64, ∃ bs : Bytes, bs.length = 8 ∧ cryptoRandUint64 bs = v) := by
  have key : ∀ bs : Bytes, bs.length = 8 → cryptoRandUint64 bs = Spec.leValue bs := by
    intro bs h
    have h1 := decodeUint64LE_eq (b := bs) (by omega)
    rw [List.take_of_length_le (by omega)] at h1
    match bs, h with
    | [b0, b1, b2, b3, b4, b5, b6, b7], _ =>
      rw [← Res.ok.inj h1]
      simp [cryptoRandUint64, List.range_succ]
  refine ⟨fun bs h => ⟨key bs h, ?_⟩, fun bs bs' h h' e => ?_, fun v hv => ⟨Spec.le 8 v, BuilderModel.le_length 8 v, ?_⟩⟩
  · rw [key bs h]
    match bs, h with
    | [b0, b1, b2, b3, b4, b5, b6, b7], _ =>
      have h0 := toNat_lt b0; have h1 := toNat_lt b1; have h2 := toNat_lt b2
      have h3 := toNat_lt b3; have h4 := toNat_lt b4; have h5 := toNat_lt b5
      have h6 := toNat_lt b6; have h7 := toNat_lt b7
      simp [Spec.leValue]; omega
  · rw [key bs h, key bs' h'] at e
    match bs, bs', h, h' with
    | [b0, b1, b2, b3, b4, b5, b6, b7], [c0, c1, c2, c3, c4, c5, c6, c7], _, _ =>
      have h0 := toNat_lt b0; have h1 := toNat_lt b1; have h2 := toNat_lt b2
      have h3 := toNat_lt b3; have h4 := toNat_lt b4; have h5 := toNat_lt b5
      have h6 := toNat_lt b6; have h7 := toNat_lt b7
      have g0 := toNat_lt c0; have g1 := toNat_lt c1; have g2 := toNat_lt c2
      have g3 := toNat_lt c3; have g4 := toNat_lt c4; have g5 := toNat_lt c5
      have g6 := toNat_lt c6; have g7 := toNat_lt c7
      simp only [Spec.leValue] at e
      simp only [List.cons.injEq, ← UInt8.toNat_inj, and_true]
      omega
  · rw [key _ (BuilderModel.le_length 8 v), BuilderModel.le_value]
    omega

example : cryptoRandUint64 [1, 2, 3, 4, 5, 6, 7, 8] = 0x0807060504030201 := by decide

end C42
