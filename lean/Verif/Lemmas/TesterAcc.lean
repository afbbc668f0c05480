import Verif.Lemmas.Circular
import Verif.Model.Tester

/-!
# The accumulator of testers, whatever its peeks
-/

namespace TesterModel
open Go Circular Spec.Deque

/-- The accumulator keeps `l`. -/
def Holds (b : Buf Nat) (l : List Nat) (cap : Nat) : Prop := ∃ fr, Rep b.discardPeeks ⟨l, cap, 0, fr⟩

theorem rep_discard {b : Buf Nat} {d : State Nat} (r : Rep b d) : Rep b.discardPeeks { d with peeks := 0 } :=
  ⟨r.cap, r.len, r.capLe, r.num, r.numLe, rfl, Or.inl rfl, r.headLt, r.fresh, r.items⟩

theorem holds_of_rep {b : Buf Nat} {d : State Nat} (r : Rep b d) : Holds b d.items d.cap := ⟨d.fresh, rep_discard r⟩

theorem Holds.num {b : Buf Nat} {l : List Nat} {cap : Nat} (h : Holds b l cap) : b.numElements = l.length := by
  obtain ⟨_, r⟩ := h; exact r.num

theorem Holds.isEmpty {b : Buf Nat} {l : List Nat} {cap : Nat} (h : Holds b l cap) :
    b.isEmpty = true ↔ l = [] := by
  unfold Buf.isEmpty
  rw [h.num, beq_iff_eq, List.length_eq_zero_iff]

theorem Holds.cap {b : Buf Nat} {l : List Nat} {cap : Nat} (h : Holds b l cap) : b.capacity = cap := by
  obtain ⟨_, r⟩ := h; exact r.cap

theorem push_peeks (b : Buf Nat) (a : Nat) :
    b.push a = (b.discardPeeks.push a).bind fun b' => .ok { b' with numPeeks := b.numPeeks } := by
  unfold Buf.push Buf.discardPeeks
  simp only
  by_cases h : b.numElements ≥ b.capacity
  · rw [if_pos h, if_pos h]; rfl
  · rw [if_neg h, if_neg h]
    simp only [Buf.lastElemIndex]
    cases setAt b.buffer _ a <;> rfl

theorem push_holds {b : Buf Nat} {l : List Nat} {cap : Nat} (h : Holds b l cap) (a : Nat) (hl : l.length < cap) :
    ∃ b', b.push a = .ok b' ∧ Holds b' (l ++ [a]) cap := by
  obtain ⟨fr, r⟩ := h
  obtain ⟨b', h1, h2⟩ := push_rep r a hl
  refine ⟨_, by rw [push_peeks, h1]; rfl, fr, ?_⟩
  exact ⟨h2.cap, h2.len, h2.capLe, h2.num, h2.numLe, rfl, Or.inl rfl, h2.headLt, h2.fresh, h2.items⟩

theorem pop_peeks (b : Buf Nat) :
    b.popHead = b.discardPeeks.popHead.bind fun x => .ok (x.1, { x.2 with numPeeks := b.numPeeks }) := by
  unfold Buf.popHead Buf.discardPeeks Buf.isEmpty
  simp only
  split
  · rfl
  · cases idx b.buffer b.headIndex with
    | err e => rfl
    | panic e => rfl
    | ok x =>
      simp only [Res.ok_bind, Res.pure_eq]
      split <;> rfl

theorem pop_holds {b : Buf Nat} {x : Nat} {l : List Nat} {cap : Nat} (h : Holds b (x :: l) cap) :
    ∃ b', b.popHead = .ok (x, b') ∧ Holds b' l cap := by
  obtain ⟨fr, r⟩ := h
  obtain ⟨b', h1, h2⟩ := popHead_rep r rfl rfl
  refine ⟨_, by rw [pop_peeks, h1]; rfl, false, ?_⟩
  exact ⟨h2.cap, h2.len, h2.capLe, h2.num, h2.numLe, rfl, Or.inl rfl, h2.headLt, h2.fresh, h2.items⟩

theorem head_holds {b : Buf Nat} {x : Nat} {l : List Nat} {cap : Nat} (h : Holds b (x :: l) cap) :
    b.head = .ok x := by
  obtain ⟨b', h1, _⟩ := pop_holds h
  unfold Buf.popHead at h1
  unfold Buf.head
  split at h1
  · cases h1
  · rename_i he
    rw [if_neg he]
    obtain ⟨y, h2, h3⟩ := Res.bind_eq_ok.1 h1
    simp only [Res.pure_eq, Res.ok.injEq, Prod.mk.injEq] at h3
    rw [h2, h3.1]

theorem dropBody_holds : ∀ {n : Nat} {b : Buf Nat} {l : List Nat} {cap : Nat}, Holds b l cap → n ≤ l.length →
    ∃ b', Tester.dropBody n b = .ok b' ∧ Holds b' (l.drop n) cap
  | 0, b, l, cap, h, _ => ⟨b, rfl, by simpa using h⟩
  | n + 1, b, [], cap, h, hn => absurd hn (by simp)
  | n + 1, b, x :: l, cap, h, hn => by
    obtain ⟨b1, h1, h2⟩ := pop_holds h
    obtain ⟨b2, h3, h4⟩ := dropBody_holds h2 (n := n) (by simpa using hn)
    refine ⟨b2, ?_, by simpa using h4⟩
    rw [Tester.dropBody, h1, Res.ok_bind]
    exact h3

theorem reportHead_holds : ∀ {n : Nat} {b : Buf Nat} {l : List Nat} {cap : Nat}, Holds b l cap → n ≤ l.length →
    ∃ b', Tester.reportHead n 0 b = .ok (0, b', l.take n) ∧ Holds b' (l.drop n) cap
  | 0, b, l, cap, h, _ => ⟨b, rfl, by simpa using h⟩
  | n + 1, b, [], cap, h, hn => absurd hn (by simp)
  | n + 1, b, x :: l, cap, h, hn => by
    obtain ⟨b1, h1, h2⟩ := pop_holds h
    obtain ⟨b2, h3, h4⟩ := reportHead_holds h2 (n := n) (by simpa using hn)
    refine ⟨b2, ?_, by simpa using h4⟩
    rw [Tester.reportHead, if_neg (by omega), h1, Res.ok_bind]
    simp only [h3, Res.ok_bind]
    rfl

end TesterModel
