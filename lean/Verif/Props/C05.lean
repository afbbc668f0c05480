import Verif.Lemmas.Circular

/-!
# C05: resizing the circular buffer keeps its contents
-/

namespace C05
open Spec.Deque

/-- `SetCapacity` to any capacity (up to 32768) that can hold the current elements succeeds, and
all later observations are those of the ideal queue with the same contents and the new capacity,
whatever the memory exposed by growing contains. Missing from the English claim: shrinking a buffer
that was emptied by removing its elements (violated below) and capacities above 32768. -/
theorem resize_keeps_contents_partial {α : Type} (ops later : List (Op α)) (d : State α)
    (hd : final 32768 ⟨[], 0, 0, true⟩ ops = some d) (c : Nat) (junk : List α)
    (hfit : d.items.length ≤ c) (hc : c ≤ 32768) (hj : c - d.cap ≤ junk.length)
    (hne : d.items ≠ [] ∨ d.fresh = true ∨ d.cap ≤ c) (obs : List (Obs α))
    (hlater : Spec.Deque.run 32768 { d with cap := c } later = some obs) :
    ∃ before, before.length = ops.length ∧ .panic ∉ before ∧
      Circular.run Circular.Buf.zero (ops ++ .setCapacity c junk :: later) =
        before ++ .bool true :: obs := by
  have key : ∀ (ops : List (Op α)) (s : State α), final 32768 s ops = some d →
      ∃ before, before.length = ops.length ∧ .panic ∉ before ∧
        Spec.Deque.run 32768 s (ops ++ .setCapacity c junk :: later) =
          some (before ++ .bool true :: obs) := by
    intro ops
    induction ops with
    | nil =>
      intro s hs
      simp only [final, Option.some.injEq] at hs
      subst hs
      refine ⟨[], rfl, by simp, ?_⟩
      have hstep : Spec.Deque.step 32768 s (.setCapacity c junk) =
          some (.bool true, { s with cap := c }) := by
        by_cases hcc : c = s.cap
        · subst hcc
          simp only [Spec.Deque.step, if_true]
        · have hx : ¬ (s.items = [] ∧ s.fresh = false ∧ c < s.cap) := by
            rintro ⟨h1, h2, h3⟩
            rcases hne with h | h | h
            · exact h h1
            · rw [h2] at h; exact absurd h (by simp)
            · omega
          simp only [Spec.Deque.step]
          rw [if_neg hcc, if_neg (by omega), if_neg (by omega), if_neg hx]
      simp only [List.nil_append]
      unfold Spec.Deque.run
      rw [hstep]
      simp [hlater]
    | cons op ops ih =>
      intro s hs
      simp only [final] at hs
      cases hst : Spec.Deque.step 32768 s op with
      | none => rw [hst] at hs; simp at hs
      | some r =>
        obtain ⟨o, s'⟩ := r
        rw [hst] at hs
        by_cases ho : o = .panic
        · subst ho; simp at hs
        · have hs' : final 32768 s' ops = some d := by
            cases o <;> first | exact hs | exact absurd rfl ho
          obtain ⟨before, hb1, hb2, hb3⟩ := ih s' hs'
          refine ⟨o :: before, by simp [hb1], by simp [hb2]; exact fun e => ho e.symm, ?_⟩
          simp only [List.cons_append]
          unfold Spec.Deque.run
          rw [hst]
          cases o <;> first | exact absurd rfl ho | simp [hb3]
  obtain ⟨before, h1, h2, h3⟩ := key ops _ hd
  exact ⟨before, h1, h2, Circular.run_rep _ _ _ Circular.zero_rep _ h3⟩

/-- A buffer `1 2` that wraps around the end of the ring is shrunk from 4 to 2, and then grown. -/
example : final 32768 ⟨[], 0, 0, true⟩ [.setCapacity 4 [0, 0, 0, 0], .push 9, .push 9, .push 9, .popHead,
      .popHead, .popHead, .push 1, .push 2] = some ⟨[1, 2], 4, 0, false⟩ ∧
    Circular.run Circular.Buf.zero ([.setCapacity 4 [0, 0, 0, 0], .push 9, .push 9, .push 9,
      .popHead, .popHead, .popHead, .push 1, .push 2] ++ .setCapacity 2 [] ::
      [.setCapacity 3 [77], .push 3, .popHead, .popHead, .popHead]) =
    [.bool true, .unit, .unit, .unit, .elem 9, .elem 9, .elem 9, .unit, .unit, .bool true,
      .bool true, .unit, .elem 1, .elem 2, .elem 3] := by
  constructor
  · rfl
  · decide

/-- A capacity that cannot hold the elements is refused and changes nothing. -/
theorem resize_refused {α : Type} (ops later : List (Op α)) (d : State α)
    (hd : final 32768 ⟨[], 0, 0, true⟩ ops = some d) (c : Nat) (junk : List α)
    (hfit : c < d.items.length) (hcap : c ≠ d.cap) (obs : List (Obs α))
    (hlater : Spec.Deque.run 32768 d later = some obs) :
    ∃ before, before.length = ops.length ∧ .panic ∉ before ∧
      Circular.run Circular.Buf.zero (ops ++ .setCapacity c junk :: later) =
        before ++ .bool false :: obs := by
  have key : ∀ (ops : List (Op α)) (s : State α), final 32768 s ops = some d →
      ∃ before, before.length = ops.length ∧ .panic ∉ before ∧
        Spec.Deque.run 32768 s (ops ++ .setCapacity c junk :: later) =
          some (before ++ .bool false :: obs) := by
    intro ops
    induction ops with
    | nil =>
      intro s hs
      simp only [final, Option.some.injEq] at hs
      subst hs
      refine ⟨[], rfl, by simp, ?_⟩
      simp only [List.nil_append]
      unfold Spec.Deque.run
      simp [Spec.Deque.step, hcap, hfit, hlater]
    | cons op ops ih =>
      intro s hs
      simp only [final] at hs
      cases hst : Spec.Deque.step 32768 s op with
      | none => rw [hst] at hs; simp at hs
      | some r =>
        obtain ⟨o, s'⟩ := r
        rw [hst] at hs
        by_cases ho : o = .panic
        · subst ho; simp at hs
        · have hs' : final 32768 s' ops = some d := by
            cases o <;> first | exact hs | exact absurd rfl ho
          obtain ⟨before, hb1, hb2, hb3⟩ := ih s' hs'
          refine ⟨o :: before, by simp [hb1], by simp [hb2]; exact fun e => ho e.symm, ?_⟩
          simp only [List.cons_append]
          unfold Spec.Deque.run
          rw [hst]
          cases o <;> first | exact absurd rfl ho | simp [hb3]
  obtain ⟨before, h1, h2, h3⟩ := key ops _ hd
  exact ⟨before, h1, h2, Circular.run_rep _ _ _ Circular.zero_rep _ h3⟩

example : Circular.run Circular.Buf.zero [.setCapacity 3 [0, 0, 0], .push 1, .push 2,
    .setCapacity 1 [], .popHead, .popHead] =
    [.bool true, .unit, .unit, .bool false, .elem 1, .elem 2] := by decide

/-- Shrinking an emptied buffer: after every history there is at most one capacity that is a
problem. For all others `SetCapacity` succeeds and all later observations are those of the ideal
queue with the new capacity. Missing: that one capacity (violated below). -/
theorem resize_empty_partial {α : Type} (ops : List (Op α)) (d : State α)
    (hd : final 32768 ⟨[], 0, 0, true⟩ ops = some d) (he : d.items = []) :
    ∃ bad : Nat, ∀ (c : Nat) (junk : List α) (later : List (Op α)) (obs : List (Obs α)),
      c ≠ bad → c ≤ 32768 → c - d.cap ≤ junk.length →
      Spec.Deque.run 32768 { d with cap := c } later = some obs →
      ∃ before, before.length = ops.length ∧ .panic ∉ before ∧
        Circular.run Circular.Buf.zero (ops ++ .setCapacity c junk :: later) =
          before ++ .bool true :: obs := by
  obtain ⟨b, before, h1, h2, hr, h3⟩ := Circular.history_rep d ops _ _ Circular.zero_rep hd
  refine ⟨b.headIndex, fun c junk later obs hbad hc hj hl => ⟨before, h1, h2, ?_⟩⟩
  rw [h3, Circular.run]
  by_cases hcc : c = d.cap
  · have e : b.setCapacity c junk = .ok (true, b) := by
      unfold Circular.Buf.setCapacity; rw [if_pos (by rw [hr.cap, hcc])]
    simp only [Circular.step, e]
    have hd' : ({ d with cap := c } : State α) = d := by rw [hcc]
    rw [hd'] at hl
    rw [Circular.run_rep later b d hr obs hl]
  · obtain ⟨b', e, r'⟩ := Circular.setCapacity_rep hr c junk hcc (by rw [he]; simp) hc hj
      (Or.inr (Or.inr (Or.inr (fun h => hbad h.symm))))
    simp only [Circular.step, e]
    rw [Circular.run_rep later b' _ r' obs hl]

/-- Shrinking a buffer of capacity 4, emptied after one element, to 2 and to 3. -/
example : final 32768 ⟨[], 0, 0, true⟩ [.setCapacity 4 [0, 0, 0, 0], .push 9, .popHead] =
      some ⟨[], 4, 0, false⟩ ∧
    Circular.run Circular.Buf.zero [.setCapacity 4 [0, 0, 0, 0], .push 9, .popHead,
      .setCapacity 2 [], .push 1, .push 2, .popHead, .popHead] =
      [.bool true, .unit, .elem 9, .bool true, .unit, .unit, .elem 1, .elem 2] := by
  constructor
  · rfl
  · decide

/-- Disagreement, for all capacities: shrinking an emptied buffer whose head sits at the new
capacity leaves the head outside the buffer. `Push` still works but `Head` panics. -/
theorem resize_empty_violated (cap c : Nat) (h0 : 0 < c) (h1 : c < cap) (h2 : cap ≤ 65535) :
    Circular.run Circular.Buf.zero
      (.setCapacity cap (List.replicate cap 0) ::
        ((List.replicate c [Op.push 0, Op.popHead]).flatten ++
          [.setCapacity c [], .push 5, .head])) =
      .bool true :: ((List.replicate c [Obs.unit, Obs.elem (0 : Nat)]).flatten ++
        [.bool true, .unit, .panic]) ∧
    Spec.Deque.run 32768 ⟨[5], c, 0, false⟩ [Op.head] = some [.elem 5] := by
  refine ⟨?_, rfl⟩
  have hl : (List.replicate cap 0).length = cap := List.length_replicate
  have hrep : ∀ n, n < cap → (List.replicate cap 0)[n]? = some (0 : Nat) := by
    intro n hn; rw [List.getElem?_replicate, if_pos hn]
  generalize List.replicate cap 0 = b at hl hrep
  have hset : (Circular.Buf.zero : Circular.Buf Nat).setCapacity cap b =
      .ok (true, Circular.rotated cap b 0) := by
    have hs : Go.sub16 cap 0 = cap := by unfold Go.sub16; omega
    unfold Circular.Buf.setCapacity Circular.Buf.zero
    rw [if_neg (by simp; omega), if_neg (by simp), if_neg (by simp)]
    simp [Circular.rotated, Go.sub16, Nat.mod_eq_of_lt (show cap < 65536 by omega),
      List.take_of_length_le (Nat.le_of_eq hl)]
  have s1 : (Circular.rotated cap b c).setCapacity c [] =
      .ok (true, ⟨b.take c, c, c, 0, 0⟩) := by
    have hs : Go.sub16 c 0 = c := by unfold Go.sub16; omega
    unfold Circular.Buf.setCapacity Circular.rotated
    simp only [hs]
    rw [if_neg (by omega), if_neg (by omega), if_pos h1, if_neg (by omega), if_neg (by omega)]
    simp only [Res.ok_bind, Res.pure_eq]
    unfold Go.slice
    rw [if_pos ⟨by omega, by omega⟩]
    simp
  have hlen : (b.take c).length = c := by rw [List.length_take]; omega
  have e : Circular.Buf.lastElemIndex (⟨b.take c, c, c, 1, 0⟩ : Circular.Buf Nat) = 0 := by
    simp only [Circular.Buf.lastElemIndex, Go.sub16, Go.u16]
    have h1 : ((c + 1) % 65536 + 65536 - 1) % 65536 = c := by omega
    simp only [h1, Nat.lt_irrefl, if_false]
    omega
  have s2 : (⟨b.take c, c, c, 0, 0⟩ : Circular.Buf Nat).push 5 =
      .ok ⟨(b.take c).set 0 5, c, c, 1, 0⟩ := by
    have hu : Go.u16 (0 + 1) = 1 := rfl
    unfold Circular.Buf.push
    simp only [if_neg (show ¬ (0 ≥ c) by omega), hu, e, Go.setAt_lt (show 0 < (b.take c).length by omega)]
    rfl
  have s3 : ∀ x, (⟨(b.take c).set 0 5, c, c, 1, 0⟩ : Circular.Buf Nat).head ≠ .ok x := by
    intro x hx
    unfold Circular.Buf.head at hx
    rw [if_neg (by simp [Circular.Buf.isEmpty])] at hx
    have := Go.idx_eq_ok.mp hx
    rw [List.getElem?_eq_none (by rw [List.length_set, hlen]; exact Nat.le_refl _)] at this
    simp at this
  rw [Circular.run]
  simp only [Circular.step, hset]
  rw [Circular.run_rotations h2 hl hrep _ c 0 (by omega), Nat.zero_add]
  congr 2
  rw [Circular.run]
  simp only [Circular.step, s1]
  rw [Circular.run]
  simp only [Circular.step, s2]
  rw [Circular.run]
  simp only [Circular.step]

example : Circular.run Circular.Buf.zero
      [.setCapacity 3 [0, 0, 0], .push 1, .popHead, .push 2, .popHead, .setCapacity 2 [], .push 5,
       .head] =
      [.bool true, .unit, .elem 1, .unit, .elem 2, .bool true, .unit, .panic] := by decide

end C05
