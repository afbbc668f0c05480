import Verif.Lemmas.ParseSafe
import Verif.Spec.Layout

/-! # Successful runs on complete data -/

namespace ParseBuf
namespace Prog
open Go FontModel Spec Helpers
variable {α β : Type} {D : Bytes} {i d i' d' : Nat}

theorem flat_bind_ok {p : Prog α} {f : α → Prog β} {r : β × Nat × Nat} :
    (p >>= f).flat D i d = .ok r ↔
      ∃ a i1 d1, p.flat D i d = .ok (a, i1, d1) ∧ (f a).flat D i1 d1 = .ok r := by
  rw [flat_bind, Res.bind_eq_ok]
  constructor
  · rintro ⟨⟨a, i1, d1⟩, h1, h2⟩; exact ⟨a, i1, d1, h1, h2⟩
  · rintro ⟨a, i1, d1, h1, h2⟩; exact ⟨(a, i1, d1), h1, h2⟩

theorem flat_ret {a : α} {r : α × Nat × Nat} : (ret a).flat D i d = .ok r ↔ r = (a, i, d) := by
  simp only [flat, Res.ok.injEq]; exact eq_comm
theorem flat_pure {a : α} {r : α × Nat × Nat} :
    (pure a : Prog α).flat D i d = .ok r ↔ r = (a, i, d) := flat_ret
theorem flat_fail {m : String} {r : α × Nat × Nat} : ¬ (fail m : Prog α).flat D i d = .ok r := by
  simp [flat]

theorem flat_advance {n : Nat} {u : Unit} :
    (advanceBytes n).flat D i d = .ok (u, i', d') ↔
      (n = 0 ∨ i + n ≤ D.length) ∧ i' = i + n ∧ d' = d := by
  unfold advanceBytes
  split
  · rename_i h; subst h
    simp only [flat, Res.ok.injEq, Prod.mk.injEq, true_and, Nat.add_zero, true_or]
    constructor <;> rintro ⟨rfl, rfl⟩ <;> exact ⟨rfl, rfl⟩
  · simp only [flat]
    split
    · simp only [Res.ok.injEq, Prod.mk.injEq, true_and]
      constructor
      · rintro ⟨rfl, rfl⟩; exact ⟨Or.inr ‹_›, rfl, rfl⟩
      · rintro ⟨_, rfl, rfl⟩; exact ⟨rfl, rfl⟩
    · constructor
      · intro h; simp at h
      · rintro ⟨h, _⟩; omega

theorem flat_read {n : Nat} {b : Bytes} :
    (read n).flat D i d = .ok (b, i', d') ↔
      i + n ≤ D.length ∧ b = (D.take (i + n)).drop i ∧ i' = i + n ∧ d' = d := by
  simp only [Prog.read, flat]
  split
  · simp only [Res.ok.injEq, Prod.mk.injEq]
    constructor
    · rintro ⟨rfl, rfl, rfl⟩; exact ⟨‹_›, rfl, rfl, rfl⟩
    · rintro ⟨_, rfl, rfl, rfl⟩; exact ⟨rfl, rfl, rfl⟩
  · constructor
    · intro h; simp at h
    · rintro ⟨h, _⟩; omega

theorem flat_ofRes {x : Res α} {a b : α} (hx : x = .ok a) :
    (ofRes x).flat D i d = .ok (b, i', d') ↔ b = a ∧ i' = i ∧ d' = d := by
  subst hx
  simp only [ofRes, flat, Res.ok.injEq, Prod.mk.injEq]
  constructor <;> rintro ⟨rfl, rfl, rfl⟩ <;> exact ⟨rfl, rfl, rfl⟩

theorem slice_len {n : Nat} (h : i + n ≤ D.length) : ((D.take (i + n)).drop i).length = n := by
  simp; omega

theorem flat_decode {n : Nat} {dec : Bytes → Res Nat} {at' : Bytes → Nat → Nat} {v : Nat}
    (hdec : ∀ b, b.length = n → dec b = .ok (at' b 0))
    (hat : i + n ≤ D.length → at' ((D.take (i + n)).drop i) 0 = at' D i) :
    (read n >>= fun b => ofRes (dec b)).flat D i d = .ok (v, i', d') ↔
      i + n ≤ D.length ∧ v = at' D i ∧ i' = i + n ∧ d' = d := by
  rw [flat_bind_ok]
  constructor
  · rintro ⟨b, i1, d1, h1, h2⟩
    rw [flat_read] at h1
    obtain ⟨hle, rfl, rfl, rfl⟩ := h1
    rw [flat_ofRes (hdec _ (slice_len hle))] at h2
    exact ⟨hle, h2.1.trans (hat hle), h2.2.1, h2.2.2⟩
  · rintro ⟨hle, rfl, rfl, rfl⟩
    refine ⟨_, _, _, flat_read.2 ⟨hle, rfl, rfl, rfl⟩, ?_⟩
    rw [flat_ofRes (hdec _ (slice_len hle))]
    exact ⟨(hat hle).symm, rfl, rfl⟩

theorem flat_readUint8 {v : Nat} : readUint8.flat D i d = .ok (v, i', d') ↔
    i + 1 ≤ D.length ∧ v = byteAt D i ∧ i' = i + 1 ∧ d' = d :=
  flat_decode (dec := fun b => rd8 b 0) (fun b hb => rd8_eq (by omega)) fun h => by
    rw [byteAt_drop, byteAt_take (by omega), Nat.add_zero]

theorem flat_readUint16 {v : Nat} : readUint16.flat D i d = .ok (v, i', d') ↔
    i + 2 ≤ D.length ∧ v = u16At D i ∧ i' = i + 2 ∧ d' = d :=
  flat_decode (fun b hb => decode16 (by omega)) fun h => by
    rw [u16At_drop, u16At_take (by omega), Nat.add_zero]

theorem flat_readUint24 {v : Nat} : readUint24.flat D i d = .ok (v, i', d') ↔
    i + 3 ≤ D.length ∧ v = u24At D i ∧ i' = i + 3 ∧ d' = d :=
  flat_decode (fun b hb => decode24 (by omega)) fun h => by
    rw [u24At_drop, u24At_take (by omega), Nat.add_zero]

theorem flat_readUint32 {v : Nat} : readUint32.flat D i d = .ok (v, i', d') ↔
    i + 4 ≤ D.length ∧ v = u32At D i ∧ i' = i + 4 ∧ d' = d :=
  flat_decode (fun b hb => decode32 (by omega)) fun h => by
    rw [u32At_drop, u32At_take (by omega), Nat.add_zero]

theorem flat_readUint24Ig {v : Nat} : readUint24IgnoringError.flat D i d = .ok (v, i', d') ↔
    (i + 3 ≤ D.length ∧ v = u24At D i ∧ i' = i + 3 ∧ d' = d) ∨
    (D.length < i + 3 ∧ v = 0 ∧ i' = i ∧ d' = d) := by
  simp only [readUint24IgnoringError, flat]
  split
  · rename_i hle
    rw [flat_ofRes (decode24 (by rw [slice_len hle]; exact Nat.le_refl _)), u24At_drop, u24At_take (by omega),
      Nat.add_zero]
    constructor
    · intro h; exact Or.inl ⟨hle, h⟩
    · rintro (h | h)
      · exact h.2
      · omega
  · simp only [Res.ok.injEq, Prod.mk.injEq]
    constructor
    · rintro ⟨rfl, rfl, rfl⟩; exact Or.inr ⟨by omega, rfl, rfl, rfl⟩
    · rintro (h | ⟨_, rfl, rfl, rfl⟩)
      · omega
      · exact ⟨rfl, rfl, rfl⟩

theorem flat_here {v : Nat} : ParseModel.here.flat D i d = .ok (v, i', d') ↔
    v = u32 i ∧ i = i' ∧ d = d' := by
  simp only [ParseModel.here, flat, Res.ok.injEq, Prod.mk.injEq]
  constructor <;> rintro ⟨rfl, rfl, rfl⟩ <;> exact ⟨rfl, rfl, rfl⟩

theorem flat_sync {u : Unit} : ParseModel.syncData.flat D i d = .ok (u, i', d') ↔
    i = i' ∧ d' = i := by
  simp only [ParseModel.syncData, flat, Res.ok.injEq, Prod.mk.injEq, true_and]
  constructor <;> rintro ⟨rfl, rfl⟩ <;> exact ⟨rfl, rfl⟩

theorem flat_onFont {f : Font} {v : Font → Res β} {b : β} :
    (ParseModel.onFont f v).flat D i d = .ok (b, i', d') ↔
      v { f with data := D.take d } = .ok b ∧ i = i' ∧ d = d' := by
  simp only [ParseModel.onFont, flat]
  cases v { f with data := D.take d } with
  | ok a =>
    simp only [Res.ok.injEq, Prod.mk.injEq]
  | err m => simp
  | panic m => simp

end Prog
end ParseBuf
