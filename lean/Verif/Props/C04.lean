import Verif.Lemmas.Circular

/-!
# C04: the circular buffer is a FIFO queue with lookahead

`Spec.Deque` is the ideal bounded queue with lookahead; `Circular.run` are the observations of a
client of the modelled buffer. What is missing from the English claim is stated as `_violated`
theorems below: capacities above 32768, and removing elements while peeks are outstanding.
-/

namespace C04
open Spec.Deque

/-- For every history of operations, including resizes up to capacity 32768, for which the ideal
queue specifies the observations, the circular buffer shows exactly these observations. -/
theorem queue_refines_partial {α : Type} (ops : List (Op α)) (obs : List (Obs α))
    (h : Spec.Deque.run 32768 ⟨[], 0, 0, true⟩ ops = some obs) :
    Circular.run Circular.Buf.zero ops = obs :=
  Circular.run_rep ops _ _ Circular.zero_rep obs h

/-- A history with wrap-around, lookahead, a full buffer and a resize. -/
example : Spec.Deque.run 32768 ⟨[], 0, 0, true⟩
    [.setCapacity 3 [0, 0, 0], .push 1, .push 2, .popHead, .push 3, .push 4, .peekAhead, .peekAhead,
     .peekAhead, .discardPeeks, .peekAhead, .confirmPeeks, .tail, .setMinCapacity 2 [],
     .setMinCapacity 5 [0, 0], .capacity, .size, .popTail, .head, .popHead, .isEmpty, .popHead] =
    some [.bool true, .unit, .unit, .elem 1, .unit, .unit, .peek (some 3) true,
     .peek (some 4) true, .peek (some 4) false, .unit, .peek (some 3) true, .unit, .elem 4,
     .bool true, .bool true, .nat 5, .nat 2, .elem 4, .elem 3, .elem 3, .bool true, .panic] := by decide

/-- Everything pushed comes out in the same order, for any capacity up to 32768 and any number of
elements that fits, wherever in the ring the head is. -/
theorem fifo {α : Type} (cap : Nat) (hcap : cap ≤ 32768) (junk : List α) (hj : junk.length = cap)
    (warm xs : List α) (hw : warm = [] ∨ 0 < cap) (hx : xs.length ≤ cap) :
    Circular.run Circular.Buf.zero
      (.setCapacity cap junk :: (warm.flatMap (fun a => [.push a, .popHead])) ++ xs.map .push
        ++ xs.map (fun _ => .popHead)) =
      .bool true :: (warm.flatMap (fun a => [.unit, .elem a])) ++ xs.map (fun _ => .unit)
        ++ xs.map .elem := by
  apply queue_refines_partial
  have pops : ∀ (xs : List α) (c : Nat) (f : Bool),
      Spec.Deque.run 32768 ⟨xs, c, 0, f⟩ (xs.map (fun _ => .popHead)) = some (xs.map .elem) := by
    intro xs c
    induction xs with
    | nil => intro f; rfl
    | cons x xs ih => intro f; simp [Spec.Deque.run, Spec.Deque.step, ih]
  have pushes : ∀ (ys xs : List α) (c : Nat) (f : Bool), xs.length + ys.length ≤ c →
      Spec.Deque.run 32768 ⟨xs, c, 0, f⟩ (ys.map .push ++ (xs ++ ys).map (fun _ => .popHead)) =
        some (ys.map (fun _ => .unit) ++ (xs ++ ys).map .elem) := by
    intro ys
    induction ys with
    | nil => intro xs c f _; simpa using pops xs c f
    | cons y ys ih =>
      intro xs c f h
      simp only [List.length_cons] at h
      have h1 := ih (xs ++ [y]) c f (by simp; omega)
      simp only [List.append_assoc, List.cons_append, List.nil_append] at h1
      simp [Spec.Deque.run, Spec.Deque.step, show xs.length < c by omega] at h1 ⊢
      exact h1
  have warms : ∀ (warm : List α) (f : Bool), (warm = [] ∨ 0 < cap) →
      Spec.Deque.run 32768 ⟨[], cap, 0, f⟩ ((warm.flatMap (fun a => [.push a, .popHead])) ++
        (xs.map .push ++ xs.map (fun _ => .popHead))) =
        some (warm.flatMap (fun a => [.unit, .elem a]) ++ (xs.map (fun _ => .unit) ++
          xs.map .elem)) := by
    intro warm
    induction warm with
    | nil => intro f _; simpa using pushes xs [] cap f (by simpa using hx)
    | cons a warm ih =>
      intro f h
      have hc : 0 < cap := by simpa using h
      have h1 := ih false (Or.inr hc)
      simp [Spec.Deque.run, Spec.Deque.step, hc] at h1 ⊢
      exact h1
  have h1 := warms warm true hw
  by_cases hc0 : cap = 0
  · subst hc0
    simp [Spec.Deque.run, Spec.Deque.step] at h1 ⊢
    exact h1
  · simp [Spec.Deque.run, Spec.Deque.step, hc0, hj, show ¬ 32768 < cap by omega] at h1 ⊢
    exact h1

example : ([7, 8] = ([] : List Nat) ∨ 0 < 3) ∧ [1, 2, 3].length ≤ 3 ∧
    Circular.run Circular.Buf.zero [.setCapacity 3 [0, 0, 0], .push 7, .popHead, .push 8, .popHead,
      .push 1, .push 2, .push 3, .popHead, .popHead, .popHead] =
    [.bool true, .unit, .elem 7, .unit, .elem 8, .unit, .unit, .unit, .elem 1, .elem 2, .elem 3] := by
  decide

/-- Peeking past the head looks at the slot it should, for every capacity, also where the sum of the head and the
peeks does not fit in 16 bits. -/
theorem peek_slot {α : Type} {b : Circular.Buf α} (hc : b.capacity < 65536) (hh : b.headIndex < b.capacity)
    (hn : b.numPeeks < b.capacity) : b.peekElemIndex = (b.headIndex + b.numPeeks) % b.capacity :=
  Circular.peekElemIndex_mod hc hh hn

/-- The sum does not fit, the slot is right. -/
example : (⟨[], 60000, 59990, 20000, 10000⟩ : Circular.Buf Nat).peekElemIndex = (59990 + 10000) % 60000 := by decide

/-- Disagreement 1, for every capacity above 32768 that the `uint16` capacity allows (so the bound
in the theorems above is the best possible): after the head has moved to the last slot, of
`65538 - cap` ones pushed only the first `65537 - cap` come out again; the last is lost and the old
content of an unused slot is returned instead. (`unsafeLastElemIndex` is off by one when the sum of
head and size overflows.) The elements fit. -/
theorem large_capacity_violated (cap : Nat) (h1 : 32768 < cap) (h2 : cap ≤ 65535) :
    65538 - cap ≤ cap ∧
    Circular.run Circular.Buf.zero
      (.setCapacity cap (List.replicate cap 0) ::
        ((List.replicate (cap - 1) [Op.push 0, Op.popHead]).flatten ++
          (List.replicate (65538 - cap) (.push 1) ++ List.replicate (65538 - cap) .popHead))) =
      .bool true :: ((List.replicate (cap - 1) [Obs.unit, Obs.elem 0]).flatten ++
        (List.replicate (65538 - cap) .unit ++
          (List.replicate (65537 - cap) (.elem 1) ++ [.elem (0 : Nat)]))) := by
  refine ⟨by omega, ?_⟩
  have hl : (List.replicate cap 0).length = cap := List.length_replicate
  have hrep : ∀ n, n < cap → (List.replicate cap 0)[n]? = some (0 : Nat) := by
    intro n hn; rw [List.getElem?_replicate, if_pos hn]
  generalize List.replicate cap 0 = b at hl hrep
  have hset : (Circular.Buf.zero : Circular.Buf Nat).setCapacity cap b =
      .ok (true, Circular.rotated cap b 0) := by
    have hs : Go.sub16 cap 0 = cap := by unfold Go.sub16; omega
    unfold Circular.Buf.setCapacity Circular.Buf.zero
    rw [if_neg (by simp; omega), if_neg (by simp), if_neg (by simp)]
    simp [Circular.rotated, hs, Go.sub16, Nat.mod_eq_of_lt (show cap < 65536 by omega),
      List.take_of_length_le (Nat.le_of_eq hl)]
  obtain ⟨b1, e1, f1⟩ := Circular.filled_first (by omega) h2 hl hrep 1
  obtain ⟨b2, f2, e2⟩ := Circular.run_fill (x := 0) (y := 1) h2
    (.push 1 :: List.replicate (65538 - cap) .popHead) (65536 - cap) 0 b1 f1 (by omega) (by omega)
  rw [Nat.zero_add] at f2 e2
  obtain ⟨b3, e3, hl3, hy, hx⟩ := Circular.filled_wrap (by omega) h2 f2
  rw [Circular.run]
  simp only [Circular.step, hset]
  rw [Circular.run_rotations h2 hl hrep _ (cap - 1) 0 (by omega), Nat.zero_add]
  congr 2
  have p1 : List.replicate (65538 - cap) (Op.push 1) =
      Op.push 1 :: (List.replicate (65536 - cap) (Op.push 1) ++ [Op.push 1]) := by
    rw [show 65538 - cap = 65536 - cap + 1 + 1 by omega, List.replicate_succ,
      List.replicate_succ']
  have p2 : List.replicate (65538 - cap) (Obs.unit : Obs Nat) =
      .unit :: (List.replicate (65536 - cap) .unit ++ [.unit]) := by
    rw [show 65538 - cap = 65536 - cap + 1 + 1 by omega, List.replicate_succ,
      List.replicate_succ']
  have p3 : List.replicate (65538 - cap) (Op.popHead : Op Nat) =
      .popHead :: (List.replicate (65536 - cap) .popHead ++ [.popHead]) := by
    rw [show 65538 - cap = 65536 - cap + 1 + 1 by omega, List.replicate_succ,
      List.replicate_succ']
  have p4 : List.replicate (65537 - cap) (Obs.elem 1) =
      .elem 1 :: List.replicate (65536 - cap) (.elem 1) := by
    rw [show 65537 - cap = 65536 - cap + 1 by omega, List.replicate_succ]
  have q1 : Circular.Buf.popHead ⟨b3, cap, cap - 1, 65538 - cap, 0⟩ =
      .ok (1, ⟨b3, cap, 0, 65536 - cap + 1, 0⟩) := by
    unfold Circular.Buf.popHead
    have hu : Go.u16 (cap - 1 + 1) = cap := by unfold Go.u16; omega
    have hs : Go.sub16 (65538 - cap) 1 = 65536 - cap + 1 := by unfold Go.sub16; omega
    rw [if_neg (by simp [Circular.Buf.isEmpty]; omega)]
    simp only [Go.idx_eq_ok.mpr (hy (cap - 1) (by omega) (Or.inl rfl)), Res.ok_bind, Res.pure_eq,
      hu, hs, if_true]
  have q2 : Circular.Buf.popHead ⟨b3, cap, 65536 - cap, 1, 0⟩ =
      .ok (0, ⟨b3, cap, 65537 - cap, 0, 0⟩) := by
    unfold Circular.Buf.popHead
    have hu : Go.u16 (65536 - cap + 1) = 65537 - cap := by unfold Go.u16; omega
    rw [if_neg (by simp [Circular.Buf.isEmpty])]
    simp only [Go.idx_eq_ok.mpr hx, Res.ok_bind, Res.pure_eq, hu, Go.sub16]
    rw [if_neg (by omega)]
  have last := Circular.run_drain (y := 1) (b := b3) 1 (by omega) [.popHead] (65536 - cap) 0
    (c := cap) (by omega) h2 (fun i _ hi => hy i (by omega) (Or.inr (by omega)))
  rw [p1, p2, p4, List.cons_append, List.append_assoc, Circular.run]
  simp only [Circular.step, e1]
  rw [List.cons_append, List.nil_append]
  rw [e2, Circular.run]
  rw [show 0 + (65536 - cap) + 1 = 65537 - cap by omega]
  simp only [Circular.step, e3]
  rw [p3, Circular.run]
  simp only [Circular.step, q1]
  rw [last, Nat.zero_add]
  simp [Circular.run, Circular.step, q2]

example : (32768 : Nat) < 32769 ∧ (65538 - 32769 : Nat) = 32769 := by decide

/-- Disagreement 2: removing elements while peeks are outstanding. After peeking twice past the
head of `1 2 3` and popping the tail, the next peek reports that there is a further element and
returns the head again. -/
theorem pop_while_peeking_violated :
    Circular.run Circular.Buf.zero
      [.setCapacity 3 [0, 0, 0], .push 1, .push 2, .push 3, .peekAhead, .peekAhead, .popTail,
       .peekAhead] =
      [.bool true, .unit, .unit, .unit, .peek (some 2) true, .peek (some 3) true, .elem 3,
       .peek (some 1) true] := by decide

end C04
