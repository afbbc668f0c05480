import Verif.Model.Circular
import Verif.Spec.Deque

/-!
# Refinement of the circular buffer to the ideal queue (helper lemmas for C04, C05)
-/

namespace Circular
open Go Spec.Deque

variable {α : Type}

/-- One client operation on the model. -/
def step (b : Buf α) : Op α → Obs α × Buf α
  | .push a => match b.push a with
    | .ok b' => (.unit, b')
    | _ => (.panic, b)
  | .popHead => match b.popHead with
    | .ok (x, b') => (.elem x, b')
    | _ => (.panic, b)
  | .popTail => match b.popTail with
    | .ok (x, b') => (.elem x, b')
    | _ => (.panic, b)
  | .head => match b.head with
    | .ok x => (.elem x, b)
    | _ => (.panic, b)
  | .tail => match b.tail with
    | .ok x => (.elem x, b)
    | _ => (.panic, b)
  | .peekAhead => match b.peekAhead with
    | .ok (x, more, b') => (.peek x more, b')
    | _ => (.panic, b)
  | .discardPeeks => (.unit, b.discardPeeks)
  | .confirmPeeks => (.unit, b.confirmPeeks)
  | .clear => (.unit, b.clear)
  | .size => (.nat b.numElements, b)
  | .isEmpty => (.bool b.isEmpty, b)
  | .capacity => (.nat b.capacity, b)
  | .setCapacity c junk => match b.setCapacity c junk with
    | .ok (r, b') => (.bool r, b')
    | _ => (.panic, b)
  | .setMinCapacity c junk => match b.setMinCapacity c junk with
    | .ok (r, b') => (.bool r, b')
    | _ => (.panic, b)

/-- Observations of a history on the model (ends at a panic). -/
def run (b : Buf α) : List (Op α) → List (Obs α)
  | [] => []
  | op :: ops => match step b op with
    | (.panic, _) => [.panic]
    | (o, b') => o :: run b' ops

/-- Position in the ring. -/
def pos (cap j : Nat) : Nat := if j < cap then j else j - cap

/-- The ring buffer `b` represents the ideal queue `d`. -/
structure Rep (b : Buf α) (d : State α) : Prop where
  cap : b.capacity = d.cap
  len : b.buffer.length = d.cap
  capLe : d.cap ≤ 32768
  num : b.numElements = d.items.length
  numLe : d.items.length ≤ d.cap
  pk : b.numPeeks = d.peeks
  pkLt : d.peeks = 0 ∨ d.peeks < d.items.length
  headLt : b.headIndex < d.cap ∨ (d.cap = 0 ∧ b.headIndex = 0)
  fresh : d.fresh = true → b.headIndex = 0
  items : ∀ i, i < d.items.length → b.buffer[pos d.cap (b.headIndex + i)]? = d.items[i]?

theorem lastElemIndex_eq {b : Buf α} {cap : Nat} (hc : b.capacity = cap) (hcap : cap ≤ 32768)
    (hh : b.headIndex < cap) (h0 : 0 < b.numElements) (hn : b.numElements ≤ cap) :
    b.lastElemIndex = pos cap (b.headIndex + (b.numElements - 1)) := by
  unfold Buf.lastElemIndex pos sub16 u16
  rw [hc]
  simp only
  split <;> split <;> (try split) <;> omega

theorem peekElemIndex_eq {b : Buf α} {cap : Nat} (hc : b.capacity = cap) (hcap : cap ≤ 32768)
    (hh : b.headIndex < cap) (hn : b.numPeeks < cap) :
    b.peekElemIndex = pos cap (b.headIndex + b.numPeeks) := by
  unfold Buf.peekElemIndex pos sub16 u16
  rw [hc]
  simp only
  split <;> split <;> (try split) <;> omega

/-- Peeking looks at the right place whatever the capacity. -/
theorem peekElemIndex_mod {b : Buf α} (hc : b.capacity < 65536) (hh : b.headIndex < b.capacity)
    (hn : b.numPeeks < b.capacity) : b.peekElemIndex = (b.headIndex + b.numPeeks) % b.capacity := by
  have hm : (b.headIndex + b.numPeeks) % b.capacity = pos b.capacity (b.headIndex + b.numPeeks) := by
    unfold pos
    split
    · exact Nat.mod_eq_of_lt (by assumption)
    · rw [Nat.mod_eq_sub_mod (by omega), Nat.mod_eq_of_lt (by omega)]
  rw [hm]
  unfold Buf.peekElemIndex pos sub16 u16
  simp only
  split <;> split <;> (try split) <;> omega

theorem pos_lt {cap h i : Nat} (hh : h < cap) (hi : i < cap) : pos cap (h + i) < cap := by
  unfold pos; split <;> omega

theorem pos_inj {cap h i j : Nat} (hh : h < cap) (hi : i < cap) (hj : j < cap)
    (e : pos cap (h + i) = pos cap (h + j)) : i = j := by
  unfold pos at e; split at e <;> split at e <;> omega

theorem push_rep {b : Buf α} {d : State α} (r : Rep b d) (a : α) (hlt : d.items.length < d.cap) :
    ∃ b', b.push a = .ok b' ∧ Rep b' { d with items := d.items ++ [a] } := by
  have hc := r.cap; have hl := r.len; have hcl := r.capLe; have hn := r.num
  have hh : b.headIndex < d.cap := by have := r.headLt; omega
  unfold Buf.push
  rw [if_neg (by omega)]
  have hu : u16 (b.numElements + 1) = d.items.length + 1 := by unfold u16; omega
  simp only
  rw [lastElemIndex_eq (b := { b with numElements := u16 (b.numElements + 1) }) (cap := d.cap)
    hc hcl hh (by simp only [hu]; omega) (by simp only [hu]; omega)]
  simp only [hu, Nat.add_sub_cancel]
  have hp : pos d.cap (b.headIndex + d.items.length) < b.buffer.length := by
    rw [hl]; exact pos_lt hh hlt
  rw [setAt_lt hp]
  refine ⟨_, rfl, ?_⟩
  refine ⟨hc, by simpa using hl, hcl, by simp, by simp; omega, r.pk, ?_, Or.inl hh, r.fresh, ?_⟩
  · have := r.pkLt; simp; omega
  · intro i hi
    simp only [List.length_append, List.length_singleton] at hi
    simp only
    by_cases hil : i < d.items.length
    · rw [List.getElem?_set_ne, List.getElem?_append_left hil]
      · exact r.items i hil
      · intro e
        have := pos_inj hh hlt (by omega) e
        omega
    · have : i = d.items.length := by omega
      subst this
      rw [List.getElem?_set_self hp]
      simp

theorem popHead_rep {b : Buf α} {d : State α} (r : Rep b d) {x : α} {xs : List α}
    (hx : d.items = x :: xs) (hp : d.peeks = 0) :
    ∃ b', b.popHead = .ok (x, b') ∧ Rep b' { d with items := xs, fresh := false } := by
  have hc := r.cap; have hl := r.len; have hcl := r.capLe; have hn := r.num
  have hnl := r.numLe
  rw [hx] at hn hnl
  simp only [List.length_cons] at hn hnl
  have hh : b.headIndex < d.cap := by have := r.headLt; omega
  have h0 := r.items 0 (by simp [hx])
  rw [hx] at h0
  simp only [Nat.add_zero, List.getElem?_cons_zero] at h0
  have hp0 : pos d.cap b.headIndex = b.headIndex := by unfold pos; rw [if_pos hh]
  rw [hp0] at h0
  unfold Buf.popHead
  have he : b.isEmpty = false := by unfold Buf.isEmpty; rw [hn]; simp
  rw [if_neg (by simp [he]), idx_eq_ok.mpr h0]
  simp only [Res.ok_bind, Res.pure_eq]
  have hu : u16 (b.headIndex + 1) = b.headIndex + 1 := by unfold u16; omega
  have hs : sub16 b.numElements 1 = xs.length := by unfold sub16; omega
  rw [hu, hs]
  refine ⟨_, rfl, ?_⟩
  by_cases hw : b.headIndex + 1 = b.capacity
  · rw [if_pos hw]
    refine ⟨hc, hl, hcl, rfl, by simp only; omega, by simpa [hp] using r.pk, Or.inl hp,
      ?_, by simp, ?_⟩
    · simp only; omega
    · intro i hi
      simp only at hi ⊢
      have := r.items (i + 1) (by rw [hx]; simp; omega)
      rw [hx] at this
      simp only [List.getElem?_cons_succ] at this
      rw [← this]
      have e1 : pos d.cap (0 + i) = pos d.cap (b.headIndex + (i + 1)) := by
        unfold pos
        rw [if_pos (by omega), if_neg (by omega)]; omega
      rw [e1]
  · rw [if_neg hw]
    refine ⟨hc, hl, hcl, rfl, by simp only; omega, by simpa [hp] using r.pk, Or.inl hp,
      ?_, by simp, ?_⟩
    · simp only; omega
    · intro i hi
      simp only at hi ⊢
      have := r.items (i + 1) (by rw [hx]; simp; omega)
      rw [hx] at this
      simp only [List.getElem?_cons_succ] at this
      rw [← this]
      rw [show b.headIndex + 1 + i = b.headIndex + (i + 1) by omega]

theorem isEmpty_rep {b : Buf α} {d : State α} (r : Rep b d) :
    b.isEmpty = true ↔ d.items = [] := by
  unfold Buf.isEmpty
  rw [r.num]; simp

theorem last_rep {b : Buf α} {d : State α} (r : Rep b d) {x : α} (hx : d.items.getLast? = some x) :
    idx b.buffer b.lastElemIndex = .ok x := by
  have hne : d.items ≠ [] := by intro e; rw [e] at hx; simp at hx
  have hpos : 0 < d.items.length := List.length_pos_iff.mpr hne
  have hnl := r.numLe
  have hh : b.headIndex < d.cap := by have := r.headLt; omega
  rw [lastElemIndex_eq r.cap r.capLe hh (by rw [r.num]; exact hpos) (by rw [r.num]; exact hnl),
    r.num]
  rw [idx_eq_ok, r.items _ (by omega)]
  rw [List.getLast?_eq_getElem?] at hx
  exact hx

theorem popTail_rep {b : Buf α} {d : State α} (r : Rep b d) {x : α}
    (hx : d.items.getLast? = some x) (hp : d.peeks = 0) :
    ∃ b', b.popTail = .ok (x, b') ∧ Rep b' { d with items := d.items.dropLast } := by
  have hne : d.items ≠ [] := by intro e; rw [e] at hx; simp at hx
  have hpos : 0 < d.items.length := List.length_pos_iff.mpr hne
  have he : ¬ (b.isEmpty = true) := by rw [isEmpty_rep r]; exact hne
  have hnl := r.numLe; have hcl := r.capLe
  unfold Buf.popTail
  rw [if_neg he, last_rep r hx]
  refine ⟨_, rfl, ?_⟩
  refine ⟨r.cap, r.len, hcl, ?_, ?_, r.pk, Or.inl hp, r.headLt, r.fresh, ?_⟩
  · simp only [List.length_dropLast, r.num]; unfold sub16; omega
  · simp; omega
  · intro i hi
    simp only [List.length_dropLast] at hi
    simp only
    rw [r.items i (by omega), List.getElem?_dropLast, if_pos (by omega)]

theorem peek_rep {b : Buf α} {d : State α} (r : Rep b d) :
    (d.peeks + 1 < d.items.length → ∃ b', b.peekAhead = .ok (d.items[d.peeks + 1]?, true, b') ∧
      Rep b' { d with peeks := d.peeks + 1 }) ∧
    (¬ d.peeks + 1 < d.items.length → b.peekAhead = .ok (d.items.getLast?, false, b)) := by
  have hnl := r.numLe; have hcl := r.capLe; have hpk := r.pk; have hn := r.num
  constructor
  · intro h
    have hh : b.headIndex < d.cap := by have := r.headLt; omega
    have he : ¬ (b.isEmpty = true) := by
      rw [isEmpty_rep r]; intro e; rw [e] at h; simp at h
    unfold Buf.peekAhead
    rw [if_neg he, if_neg (by unfold sub16; omega)]
    simp only
    have hu : u16 (b.numPeeks + 1) = d.peeks + 1 := by unfold u16; omega
    rw [peekElemIndex_eq (b := { b with numPeeks := u16 (b.numPeeks + 1) }) (cap := d.cap)
      r.cap hcl hh (by simp only [hu]; omega)]
    simp only [hu]
    have hi := r.items (d.peeks + 1) h
    rw [List.getElem?_eq_getElem h] at hi ⊢
    rw [idx_eq_ok.mpr hi]
    refine ⟨_, rfl, ?_⟩
    exact ⟨r.cap, r.len, hcl, hn, hnl, rfl, Or.inr h, r.headLt, r.fresh, r.items⟩
  · intro h
    unfold Buf.peekAhead
    by_cases he : d.items = []
    · rw [if_pos ((isEmpty_rep r).mpr he), he]; rfl
    · have hpos : 0 < d.items.length := List.length_pos_iff.mpr he
      have hh : b.headIndex < d.cap := by have := r.headLt; omega
      have hp1 : d.peeks = d.items.length - 1 := by have := r.pkLt; omega
      rw [if_neg (by rw [isEmpty_rep r]; exact he), if_pos (by unfold sub16; omega)]
      rw [peekElemIndex_eq (cap := d.cap) r.cap hcl hh (by omega), hpk]
      have hi := r.items d.peeks (by omega)
      rw [hp1] at hi
      have hlt : d.items.length - 1 < d.items.length := by omega
      rw [List.getElem?_eq_getElem hlt] at hi
      rw [hp1, idx_eq_ok.mpr hi, List.getLast?_eq_getElem?, List.getElem?_eq_getElem hlt]
      rfl

theorem confirm_rep {b : Buf α} {d : State α} (r : Rep b d) :
    Rep b.confirmPeeks { d with items := d.items.drop d.peeks, peeks := 0, fresh := false } := by
  have hnl := r.numLe; have hcl := r.capLe; have hpk := r.pk; have hn := r.num
  by_cases hc0 : d.cap = 0
  · have hp : d.peeks = 0 := by have := r.pkLt; omega
    have hil : d.items.length = 0 := by omega
    have hh : b.headIndex = 0 := by have := r.headLt; omega
    have hcap := r.cap
    refine ⟨r.cap, r.len, hcl, ?_, ?_, rfl, Or.inl rfl, Or.inr ⟨hc0, ?_⟩, by simp, ?_⟩
    · simp only [Buf.confirmPeeks, List.length_drop]; unfold sub16; omega
    · simp; omega
    · simp only [Buf.confirmPeeks, Buf.peekElemIndex]; unfold u16 sub16; rw [hh, hpk, hp, hcap, hc0]; simp
    · intro i hi; simp only [List.length_drop] at hi; omega
  · have hh : b.headIndex < d.cap := by have := r.headLt; omega
    have hplt : d.peeks < d.cap := by have := r.pkLt; omega
    have hpe : b.peekElemIndex = pos d.cap (b.headIndex + d.peeks) := by
      rw [peekElemIndex_eq (cap := d.cap) r.cap hcl hh (by omega), hpk]
    refine ⟨r.cap, r.len, hcl, ?_, ?_, rfl, Or.inl rfl, Or.inl ?_, by simp, ?_⟩
    · have := r.pkLt; simp only [Buf.confirmPeeks, List.length_drop]; unfold sub16; omega
    · simp; omega
    · simp only [Buf.confirmPeeks, hpe]; exact pos_lt hh hplt
    · intro i hi
      simp only [List.length_drop] at hi
      simp only [Buf.confirmPeeks, hpe]
      rw [List.getElem?_drop, ← r.items (d.peeks + i) (by omega)]
      congr 1
      unfold pos; split <;> split <;> split <;> omega

theorem copyWithin_spec (b : List α) {dLo dHi sLo sHi : Nat} (h1 : dLo ≤ dHi) (h2 : dHi ≤ b.length)
    (h3 : sLo ≤ sHi) (h4 : sHi ≤ b.length) :
    ∃ r, Buf.copyWithin b dLo dHi sLo sHi = .ok r ∧ r.length = b.length ∧
      ∀ i, r[i]? = if dLo ≤ i ∧ i < dLo + min (dHi - dLo) (sHi - sLo) then b[sLo + (i - dLo)]?
        else b[i]? := by
  unfold Buf.copyWithin
  rw [if_pos ⟨h1, h2, h3, h4⟩]
  simp only
  refine ⟨_, rfl, ?_, ?_⟩
  · simp only [List.length_append, List.length_take, List.length_drop]; omega
  · intro i
    generalize hn : min (dHi - dLo) (sHi - sLo) = n
    have hn1 : n ≤ dHi - dLo := by omega
    have hn2 : n ≤ sHi - sLo := by omega
    rw [List.append_assoc]
    by_cases hi : i < dLo
    · rw [if_neg (by omega), List.getElem?_append_left (by simp; omega), List.getElem?_take,
        if_pos hi]
    · rw [List.getElem?_append_right (by simp; omega)]
      have hl1 : (b.take dLo).length = dLo := by simp; omega
      rw [hl1]
      by_cases hi2 : i < dLo + n
      · rw [if_pos ⟨by omega, hi2⟩, List.getElem?_append_left (by simp; omega),
          List.getElem?_take, if_pos (by omega), List.getElem?_drop]
      · rw [if_neg (by omega), List.getElem?_append_right (by simp; omega), List.getElem?_drop]
        congr 1
        simp; omega

theorem setCapacity_rep {b : Buf α} {d : State α} (r : Rep b d) (c : Nat) (junk : List α)
    (hne : c ≠ d.cap) (hge : d.items.length ≤ c) (hmax : c ≤ 32768) (hj : c - d.cap ≤ junk.length)
    (hshrink : d.items ≠ [] ∨ d.fresh = true ∨ d.cap < c ∨ b.headIndex ≠ c) :
    ∃ b', b.setCapacity c junk = .ok (true, b') ∧ Rep b' { d with cap := c } := by
  have hnl := r.numLe; have hcl := r.capLe; have hpk := r.pk; have hn := r.num
  have hcap := r.cap; have hlen := r.len; have hhl := r.headLt; have hpl := r.pkLt
  have hpos : d.items ≠ [] → 0 < d.items.length := fun h => List.length_pos_iff.mpr h
  unfold Buf.setCapacity
  rw [if_neg (by omega), if_neg (by omega)]
  by_cases hs : c < b.capacity
  · rw [if_pos hs]
    have hlr : sub16 b.capacity c = d.cap - c := by unfold sub16; omega
    have hhl' : b.headIndex < d.cap := by omega
    have hch : sub16 b.capacity b.headIndex = d.cap - b.headIndex := by unfold sub16; omega
    simp only [hlr]
    by_cases hw : b.numElements > sub16 b.capacity b.headIndex
    · rw [if_pos hw]
      rw [hch] at hw
      have hsub : sub16 b.headIndex (d.cap - c) = b.headIndex - (d.cap - c) := by unfold sub16; omega
      rw [hsub]
      obtain ⟨nb, e, hl, hget⟩ := copyWithin_spec b.buffer
        (dLo := b.headIndex - (d.cap - c)) (dHi := b.buffer.length) (sLo := b.headIndex)
        (sHi := b.buffer.length) (by omega) (Nat.le_refl _) (by omega) (Nat.le_refl _)
      rw [e]
      simp only [Res.ok_bind, Res.pure_eq]
      unfold slice
      rw [if_pos ⟨by omega, by omega⟩]
      refine ⟨_, rfl, ?_⟩
      refine ⟨rfl, by simp; omega, hmax, hn, hge, hpk, hpl, Or.inl ?_, ?_, ?_⟩
      · simp only; omega
      · intro hf; have := r.fresh hf; simp only; omega
      · intro i hi
        simp only at hi ⊢
        rw [List.drop_zero, List.getElem?_take]
        have hold := r.items i hi
        rw [if_pos (by unfold pos; split <;> omega), hget, ← hold]
        by_cases hin : b.headIndex + i < d.cap
        · have e1 : pos c (b.headIndex - (d.cap - c) + i) = b.headIndex - (d.cap - c) + i := by
            unfold pos; rw [if_pos (by omega)]
          have e2 : pos d.cap (b.headIndex + i) = b.headIndex + i := by unfold pos; rw [if_pos hin]
          rw [e1, e2, if_pos (by omega)]
          congr 1; omega
        · have e1 : pos c (b.headIndex - (d.cap - c) + i) = b.headIndex + i - d.cap := by
            unfold pos; rw [if_neg (by omega)]; omega
          have e2 : pos d.cap (b.headIndex + i) = b.headIndex + i - d.cap := by
            unfold pos; rw [if_neg hin]
          rw [e1, e2, if_neg (by omega)]
    · rw [if_neg hw]
      rw [hch] at hw
      have hsc : sub16 c b.numElements = c - d.items.length := by unfold sub16; omega
      by_cases hm : b.headIndex > sub16 c b.numElements
      · rw [if_pos hm]
        rw [hsc] at hm
        have hu : u16 (b.headIndex + b.numElements) = b.headIndex + b.numElements := by
          unfold u16; omega
        rw [hu]
        obtain ⟨nb, e, hl, hget⟩ := copyWithin_spec b.buffer
          (dLo := 0) (dHi := b.numElements) (sLo := b.headIndex)
          (sHi := b.headIndex + b.numElements) (by omega) (by omega) (by omega) (by omega)
        rw [e]
        simp only [Res.ok_bind, Res.pure_eq]
        unfold slice
        rw [if_pos ⟨by omega, by omega⟩]
        refine ⟨_, rfl, ?_⟩
        refine ⟨rfl, by simp; omega, hmax, hn, hge, hpk, hpl, ?_, ?_, ?_⟩
        · rcases Nat.eq_zero_or_pos c with h | h
          · exact Or.inr ⟨h, rfl⟩
          · exact Or.inl h
        · intro _; rfl
        · intro i hi
          simp only at hi ⊢
          rw [List.drop_zero, List.getElem?_take]
          have hold := r.items i hi
          rw [if_pos (by unfold pos; split <;> omega), hget, ← hold]
          have e1 : pos c (0 + i) = i := by unfold pos; rw [if_pos (by omega)]; omega
          have e2 : pos d.cap (b.headIndex + i) = b.headIndex + i := by
            unfold pos; rw [if_pos (by omega)]
          rw [e1, e2, if_pos (by omega)]
          simp
      · rw [if_neg hm]
        rw [hsc] at hm
        simp only [Res.ok_bind, Res.pure_eq]
        unfold slice
        rw [if_pos ⟨by omega, by omega⟩]
        refine ⟨_, rfl, ?_⟩
        refine ⟨rfl, by simp; omega, hmax, hn, hge, hpk, hpl, ?_, r.fresh, ?_⟩
        · simp only
          rcases hshrink with h | h | h | h
          · have := hpos h; omega
          · have := r.fresh h; omega
          · omega
          · omega
        · intro i hi
          simp only at hi ⊢
          rw [List.drop_zero, List.getElem?_take]
          have hold := r.items i hi
          rw [if_pos (by unfold pos; split <;> omega), ← hold]
          congr 1
          unfold pos; split <;> split <;> omega
  · rw [if_neg hs]
    have hex : sub16 c b.capacity = c - d.cap := by unfold sub16; omega
    simp only [hex]
    have hgl : (b.buffer ++ junk.take (c - d.cap)).length = c := by simp; omega
    by_cases hw : b.numElements > sub16 b.capacity b.headIndex
    · rw [if_pos hw]
      have hhl' : b.headIndex < d.cap := by
        rcases hhl with h | h
        · exact h
        · exfalso; have : sub16 b.capacity b.headIndex = 0 := by unfold sub16; omega
          omega
      have hch : sub16 b.capacity b.headIndex = d.cap - b.headIndex := by unfold sub16; omega
      rw [hch] at hw
      have hu : u16 (b.headIndex + (c - d.cap)) = b.headIndex + (c - d.cap) := by unfold u16; omega
      rw [hu]
      obtain ⟨nb, e, hl, hget⟩ := copyWithin_spec (b.buffer ++ junk.take (c - d.cap))
        (dLo := b.headIndex + (c - d.cap)) (dHi := (b.buffer ++ junk.take (c - d.cap)).length)
        (sLo := b.headIndex) (sHi := b.capacity) (by omega) (Nat.le_refl _) (by omega) (by omega)
      rw [e]
      simp only [Res.ok_bind, Res.pure_eq]
      refine ⟨_, rfl, ?_⟩
      refine ⟨rfl, by simp only; omega, hmax, hn, by simp only; omega, hpk, hpl,
        Or.inl (by simp only; omega), ?_, ?_⟩
      · intro hf; have := r.fresh hf; simp only; omega
      · intro i hi
        simp only at hi ⊢
        have hold := r.items i hi
        rw [hget, ← hold, hgl]
        by_cases hin : b.headIndex + i < d.cap
        · have e1 : pos c (b.headIndex + (c - d.cap) + i) = b.headIndex + (c - d.cap) + i := by
            unfold pos; rw [if_pos (by omega)]
          have e2 : pos d.cap (b.headIndex + i) = b.headIndex + i := by unfold pos; rw [if_pos hin]
          rw [e1, e2, if_pos (by omega), List.getElem?_append_left (by omega)]
          congr 1; omega
        · have e1 : pos c (b.headIndex + (c - d.cap) + i) = b.headIndex + i - d.cap := by
            unfold pos; rw [if_neg (by omega)]; omega
          have e2 : pos d.cap (b.headIndex + i) = b.headIndex + i - d.cap := by
            unfold pos; rw [if_neg hin]
          rw [e1, e2, if_neg (by omega), List.getElem?_append_left (by omega)]
    · rw [if_neg hw]
      simp only [Res.ok_bind, Res.pure_eq]
      refine ⟨_, rfl, ?_⟩
      refine ⟨rfl, hgl, hmax, hn, by simp only; omega, hpk, hpl, Or.inl (by simp only; omega),
        r.fresh, ?_⟩
      intro i hi
      simp only at hi ⊢
      have hold := r.items i hi
      have hhl' : b.headIndex < d.cap := by omega
      have hch : sub16 b.capacity b.headIndex = d.cap - b.headIndex := by unfold sub16; omega
      rw [hch] at hw
      have e1 : pos c (b.headIndex + i) = b.headIndex + i := by unfold pos; rw [if_pos (by omega)]
      have e2 : pos d.cap (b.headIndex + i) = b.headIndex + i := by
        unfold pos; rw [if_pos (by omega)]
      rw [e1, ← hold, e2, List.getElem?_append_left (by omega)]

theorem step_rep {b : Buf α} {d : State α} (r : Rep b d) (op : Op α) (o : Obs α) (d' : State α)
    (h : Spec.Deque.step 32768 d op = some (o, d')) :
    (step b op).1 = o ∧ (o ≠ .panic → Rep (step b op).2 d') := by
  cases op with
  | push a =>
    simp only [Spec.Deque.step] at h
    split at h
    · rename_i hlt
      simp only [Option.some.injEq, Prod.mk.injEq] at h
      obtain ⟨rfl, rfl⟩ := h
      obtain ⟨b', e, r'⟩ := push_rep r a hlt
      simp [step, e, r']
    · rename_i hlt
      simp only [Option.some.injEq, Prod.mk.injEq] at h
      obtain ⟨rfl, rfl⟩ := h
      have hn := r.num; have hc := r.cap
      have e : b.push a = .panic "can't Push() into CircularBufferU16, buffer already full" := by
        unfold Buf.push; rw [if_pos (by omega)]
      simp [step, e]
  | popHead =>
    simp only [Spec.Deque.step] at h
    split at h
    · rename_i hx
      simp only [Option.some.injEq, Prod.mk.injEq] at h
      obtain ⟨rfl, rfl⟩ := h
      have e : b.popHead = .panic "can't PopHead() on empty CircularBufferU16" := by
        unfold Buf.popHead; rw [if_pos ((isEmpty_rep r).mpr hx)]
      simp [step, e]
    · rename_i x xs hx
      split at h
      · rename_i hp
        simp only [Option.some.injEq, Prod.mk.injEq] at h
        obtain ⟨rfl, rfl⟩ := h
        obtain ⟨b', e, r'⟩ := popHead_rep r hx hp
        simp [step, e, r']
      · simp at h
  | popTail =>
    simp only [Spec.Deque.step] at h
    split at h
    · rename_i hx
      simp only [Option.some.injEq, Prod.mk.injEq] at h
      obtain ⟨rfl, rfl⟩ := h
      have e : b.popTail = .panic "can't PopTail() on empty CircularBufferU16" := by
        unfold Buf.popTail; rw [if_pos ((isEmpty_rep r).mpr (by simpa using hx))]
      simp [step, e]
    · rename_i x hx
      split at h
      · rename_i hp
        simp only [Option.some.injEq, Prod.mk.injEq] at h
        obtain ⟨rfl, rfl⟩ := h
        obtain ⟨b', e, r'⟩ := popTail_rep r hx hp
        simp [step, e, r']
      · simp at h
  | head =>
    simp only [Spec.Deque.step] at h
    split at h
    · rename_i hx
      simp only [Option.some.injEq, Prod.mk.injEq] at h
      obtain ⟨rfl, rfl⟩ := h
      have e : b.head = .panic "can't Head() on empty CircularBufferU16" := by
        unfold Buf.head; rw [if_pos ((isEmpty_rep r).mpr (by simpa using hx))]
      simp [step, e]
    · rename_i x hx
      simp only [Option.some.injEq, Prod.mk.injEq] at h
      obtain ⟨rfl, rfl⟩ := h
      have hne : d.items ≠ [] := by intro e; rw [e] at hx; simp at hx
      have hpos : 0 < d.items.length := List.length_pos_iff.mpr hne
      have hnl := r.numLe
      have hh : b.headIndex < d.cap := by have := r.headLt; omega
      have h0 := r.items 0 hpos
      rw [← List.head?_eq_getElem?, hx] at h0
      have hp0 : pos d.cap (b.headIndex + 0) = b.headIndex := by
        unfold pos; rw [if_pos (by omega)]; omega
      rw [hp0] at h0
      have e : b.head = .ok x := by
        unfold Buf.head
        rw [if_neg (by rw [isEmpty_rep r]; exact hne)]
        exact idx_eq_ok.mpr h0
      simp [step, e, r]
  | tail =>
    simp only [Spec.Deque.step] at h
    split at h
    · rename_i hx
      simp only [Option.some.injEq, Prod.mk.injEq] at h
      obtain ⟨rfl, rfl⟩ := h
      have e : b.tail = .panic "can't Tail() on empty CircularBufferU16" := by
        unfold Buf.tail; rw [if_pos ((isEmpty_rep r).mpr (by simpa using hx))]
      simp [step, e]
    · rename_i x hx
      simp only [Option.some.injEq, Prod.mk.injEq] at h
      obtain ⟨rfl, rfl⟩ := h
      have hne : d.items ≠ [] := by intro e; rw [e] at hx; simp at hx
      have e : b.tail = .ok x := by
        unfold Buf.tail
        rw [if_neg (by rw [isEmpty_rep r]; exact hne)]
        exact last_rep r hx
      simp [step, e, r]
  | peekAhead =>
    simp only [Spec.Deque.step] at h
    obtain ⟨p1, p2⟩ := peek_rep r
    split at h
    · rename_i hlt
      simp only [Option.some.injEq, Prod.mk.injEq] at h
      obtain ⟨rfl, rfl⟩ := h
      obtain ⟨b', e, r'⟩ := p1 hlt
      simp only [step, e]
      exact ⟨trivial, fun _ => r'⟩
    · rename_i hlt
      simp only [Option.some.injEq, Prod.mk.injEq] at h
      obtain ⟨rfl, rfl⟩ := h
      simp only [step, p2 hlt]
      exact ⟨trivial, fun _ => r⟩
  | discardPeeks =>
    simp only [Spec.Deque.step, Option.some.injEq, Prod.mk.injEq] at h
    obtain ⟨rfl, rfl⟩ := h
    exact ⟨rfl, fun _ => ⟨r.cap, r.len, r.capLe, r.num, r.numLe, rfl, Or.inl rfl, r.headLt,
      r.fresh, r.items⟩⟩
  | confirmPeeks =>
    simp only [Spec.Deque.step, Option.some.injEq, Prod.mk.injEq] at h
    obtain ⟨rfl, rfl⟩ := h
    exact ⟨rfl, fun _ => confirm_rep r⟩
  | clear =>
    simp only [Spec.Deque.step, Option.some.injEq, Prod.mk.injEq] at h
    obtain ⟨rfl, rfl⟩ := h
    refine ⟨rfl, fun _ => ⟨r.cap, r.len, r.capLe, rfl, by simp, rfl, Or.inl rfl, ?_,
      fun _ => rfl, by simp⟩⟩
    rcases Nat.eq_zero_or_pos d.cap with h | h
    · exact Or.inr ⟨h, rfl⟩
    · exact Or.inl h
  | size =>
    simp only [Spec.Deque.step, Option.some.injEq, Prod.mk.injEq] at h
    obtain ⟨rfl, rfl⟩ := h
    exact ⟨by simp [step, r.num], fun _ => r⟩
  | isEmpty =>
    simp only [Spec.Deque.step, Option.some.injEq, Prod.mk.injEq] at h
    obtain ⟨rfl, rfl⟩ := h
    refine ⟨?_, fun _ => r⟩
    have h1 := isEmpty_rep r
    rw [← List.isEmpty_iff] at h1
    simp only [step, Obs.bool.injEq]
    exact Bool.eq_iff_iff.mpr h1
  | capacity =>
    simp only [Spec.Deque.step, Option.some.injEq, Prod.mk.injEq] at h
    obtain ⟨rfl, rfl⟩ := h
    exact ⟨by simp [step, r.cap], fun _ => r⟩
  | setMinCapacity c junk =>
    simp only [Spec.Deque.step] at h
    have hcap := r.cap
    have hnl := r.numLe
    split at h
    · rename_i hc
      simp only [Option.some.injEq, Prod.mk.injEq] at h
      obtain ⟨rfl, rfl⟩ := h
      have e : b.setMinCapacity c junk = .ok (true, b) := by
        unfold Buf.setMinCapacity; rw [if_pos (by omega)]
      simp [step, e, r]
    · rename_i hc
      split at h
      · simp at h
      · rename_i hj
        simp only [Option.some.injEq, Prod.mk.injEq] at h
        obtain ⟨rfl, rfl⟩ := h
        obtain ⟨b', e, r'⟩ := setCapacity_rep r c junk (by omega) (by omega) (by omega) (by omega)
          (Or.inr (Or.inr (by omega)))
        have e' : b.setMinCapacity c junk = .ok (true, b') := by
          unfold Buf.setMinCapacity; rw [if_neg (by omega), e]
        simp [step, e', r']
  | setCapacity c junk =>
    simp only [Spec.Deque.step] at h
    split at h
    · rename_i hc
      simp only [Option.some.injEq, Prod.mk.injEq] at h
      obtain ⟨rfl, rfl⟩ := h
      have e : b.setCapacity c junk = .ok (true, b) := by
        unfold Buf.setCapacity; rw [if_pos (by rw [r.cap, hc])]
      simp [step, e, r]
    · rename_i hne
      split at h
      · rename_i hlt
        simp only [Option.some.injEq, Prod.mk.injEq] at h
        obtain ⟨rfl, rfl⟩ := h
        have hcap := r.cap; have hn := r.num
        have e : b.setCapacity c junk = .ok (false, b) := by
          unfold Buf.setCapacity; rw [if_neg (by omega), if_pos (by omega)]
        simp [step, e, r]
      · rename_i hge
        split at h
        · simp at h
        · rename_i hj
          split at h
          · simp at h
          · rename_i hx
            simp only [Option.some.injEq, Prod.mk.injEq] at h
            obtain ⟨rfl, rfl⟩ := h
            obtain ⟨b', e, r'⟩ := setCapacity_rep r c junk hne (by omega) (by omega) (by omega)
              (by
                by_cases h1 : d.items = []
                · by_cases h2 : d.fresh = true
                  · exact Or.inr (Or.inl h2)
                  · have h2' : d.fresh = false := by simpa using h2
                    right; right
                    have : ¬ c < d.cap := fun h3 => hx ⟨h1, h2', h3⟩
                    omega
                · exact Or.inl h1)
            simp [step, e, r']

theorem run_rep (ops : List (Op α)) : ∀ (b : Buf α) (d : State α), Rep b d → ∀ obs,
    Spec.Deque.run 32768 d ops = some obs → run b ops = obs := by
  induction ops with
  | nil => intro b d _ obs h; simp [Spec.Deque.run] at h; simp [run, h]
  | cons op ops ih =>
    intro b d hr obs h
    unfold Spec.Deque.run at h
    cases hst : Spec.Deque.step 32768 d op with
    | none => rw [hst] at h; simp at h
    | some r =>
      obtain ⟨o, d'⟩ := r
      obtain ⟨h1, h2⟩ := step_rep hr op o d' hst
      rw [hst] at h
      unfold run
      generalize step b op = sb at h1 h2
      obtain ⟨o', b'⟩ := sb
      simp only at h1 h2
      subst h1
      cases o' with
      | panic => simpa using h
      | _ =>
        simp only [Option.map_eq_some_iff] at h
        obtain ⟨t, ht, rfl⟩ := h
        simp only [ih b' d' (h2 (by simp)) t ht]

/-- A history without panics leads to a buffer that represents the ideal queue. -/
theorem history_rep (d : State α) : ∀ (ops : List (Op α)) (b : Buf α)
    (s : State α), Rep b s → final 32768 s ops = some d →
    ∃ (b' : Buf α) (before : List (Obs α)), before.length = ops.length ∧
      .panic ∉ before ∧ Rep b' d ∧
      ∀ later, run b (ops ++ later) = before ++ run b' later
  | [], b, s, hr, hs => by
    simp only [final, Option.some.injEq] at hs
    subst hs
    exact ⟨b, [], rfl, by simp, hr, fun _ => rfl⟩
  | op :: ops, b, s, hr, hs => by
    simp only [final] at hs
    cases hst : Spec.Deque.step 32768 s op with
    | none => rw [hst] at hs; simp at hs
    | some r =>
      obtain ⟨o, s'⟩ := r
      rw [hst] at hs
      by_cases ho : o = .panic
      · subst ho; simp at hs
      · have hs' : final 32768 s' ops = some d := by
          cases o <;> first | exact hs | exact absurd rfl ho
        obtain ⟨h1, h2⟩ := step_rep hr op o s' hst
        obtain ⟨b', before, hb1, hb2, hb3, hb4⟩ := history_rep d ops _ s' (h2 ho) hs'
        refine ⟨b', o :: before, by simp [hb1], by simp [hb2]; exact fun e => ho e.symm, hb3, ?_⟩
        intro later
        simp only [List.cons_append]
        rw [run]
        generalize step b op = sb at h1 hb4
        obtain ⟨o', b1⟩ := sb
        simp only at h1 hb4
        subst h1
        cases o' <;> first | exact absurd rfl ho | simp [hb4]

theorem zero_rep : Rep (Buf.zero : Buf α) ⟨[], 0, 0, true⟩ :=
  ⟨rfl, rfl, by simp, rfl, by simp, rfl, Or.inl rfl, Or.inr ⟨rfl, rfl⟩, fun _ => rfl, by simp⟩

end Circular

namespace Circular
open Go Spec.Deque

/-- Buffer of capacity `c` whose elements were all removed, head at `k`. -/
def rotated (c : Nat) (b : List α) (k : Nat) : Buf α := ⟨b, c, k, 0, 0⟩

theorem rotated_push {c : Nat} (hc : c ≤ 65535) {b : List α} {x : α} (hl : b.length = c)
    (hb : ∀ i, i < c → b[i]? = some x) (k : Nat) (h : k < c) :
    (rotated c b k).push x = .ok ⟨b, c, k, 1, 0⟩ := by
  have e : Buf.lastElemIndex (⟨b, c, k, u16 (0 + 1), 0⟩ : Buf α) = k := by
    simp only [Buf.lastElemIndex, sub16, u16]
    have h1 : ((k + (0 + 1) % 65536) % 65536 + 65536 - 1) % 65536 = k := by omega
    simp only [h1, Nat.lt_irrefl, if_false]
    simp only [h, if_true]
  have hlt : k < b.length := by omega
  have hset : b.set k x = b := by
    apply List.ext_getElem?
    intro i
    by_cases hi : k = i
    · subst hi; rw [List.getElem?_set_self hlt, hb k (by omega)]
    · rw [List.getElem?_set_ne hi]
  unfold Buf.push rotated
  have h0 : ¬ (0 ≥ c) := by omega
  simp only [if_neg h0, e, setAt_lt hlt, hset]
  rfl

theorem rotated_pop {c : Nat} (hc : c ≤ 65535) {b : List α} {x : α}
    (hb : ∀ i, i < c → b[i]? = some x) (k : Nat) (h : k + 1 < c) :
    (⟨b, c, k, 1, 0⟩ : Buf α).popHead = .ok (x, rotated c b (k + 1)) := by
  have hu : u16 (k + 1) = k + 1 := by unfold u16; omega
  unfold Buf.popHead
  rw [if_neg (by simp [Buf.isEmpty])]
  simp only [idx_eq_ok.mpr (hb k (by omega)), Res.ok_bind, Res.pure_eq, hu]
  rw [if_neg (by omega)]
  rfl

theorem run_rotations {c : Nat} (hc : c ≤ 65535) {b : List α} {x : α} (hl : b.length = c)
    (hb : ∀ i, i < c → b[i]? = some x) (ops : List (Op α)) : ∀ (n k : Nat), k + n + 1 ≤ c →
    run (rotated c b k) ((List.replicate n [Op.push x, Op.popHead]).flatten ++ ops) =
      (List.replicate n [Obs.unit, Obs.elem x]).flatten ++ run (rotated c b (k + n)) ops
  | 0, k, _ => by simp
  | n + 1, k, h => by
    have ih := run_rotations hc hl hb ops n (k + 1) (by omega)
    simp only [List.replicate_succ, List.flatten_cons, List.cons_append, List.nil_append]
    rw [run]
    simp only [step, rotated_push hc hl hb k (by omega)]
    rw [run]
    simp only [step, rotated_pop hc hb k (by omega)]
    rw [ih, Nat.add_assoc, Nat.add_comm 1 n]

/-- Head in the last slot and `n + 1` elements `y`, the ring elsewhere filled with `x`. -/
def Filled (c : Nat) (x y : α) (n : Nat) (b : List α) : Prop :=
  b.length = c ∧ ∀ i, i < c → b[i]? = some (if i = c - 1 ∨ i < n then y else x)

theorem filled_first {c : Nat} (hc : 2 ≤ c) (hc' : c ≤ 65535) {b : List α} {x : α}
    (hl : b.length = c) (hb : ∀ i, i < c → b[i]? = some x) (y : α) :
    ∃ b', (rotated c b (c - 1)).push y = .ok ⟨b', c, c - 1, 1, 0⟩ ∧ Filled c x y 0 b' := by
  have e : Buf.lastElemIndex (⟨b, c, c - 1, u16 (0 + 1), 0⟩ : Buf α) = c - 1 := by
    simp only [Buf.lastElemIndex, sub16, u16]
    have h1 : ((c - 1 + (0 + 1) % 65536) % 65536 + 65536 - 1) % 65536 = c - 1 := by omega
    simp only [h1, Nat.lt_irrefl, if_false]
    rw [if_pos (by omega)]
  have hlt : c - 1 < b.length := by omega
  refine ⟨b.set (c - 1) y, ?_, by simp [hl], ?_⟩
  · unfold Buf.push rotated
    simp only [if_neg (show ¬ (0 ≥ c) by omega), e, setAt_lt hlt]
    rfl
  · intro i hi
    by_cases h : c - 1 = i
    · subst h; rw [List.getElem?_set_self hlt, if_pos (Or.inl rfl)]
    · rw [List.getElem?_set_ne h, hb i hi, if_neg (by omega)]

/-- As long as the sum of head and size does not wrap, pushing is right. -/
theorem filled_next {c : Nat} (hc' : c ≤ 65535) {b : List α} {x y : α} {n : Nat}
    (h : Filled c x y n b) (hn : c + n < 65536) (hn' : n + 1 < c) :
    ∃ b', (⟨b, c, c - 1, n + 1, 0⟩ : Buf α).push y = .ok ⟨b', c, c - 1, n + 2, 0⟩ ∧
      Filled c x y (n + 1) b' := by
  obtain ⟨hl, hb⟩ := h
  have hu : u16 (n + 1 + 1) = n + 2 := by unfold u16; omega
  have e : Buf.lastElemIndex (⟨b, c, c - 1, n + 2, 0⟩ : Buf α) = n := by
    simp only [Buf.lastElemIndex, sub16, u16]
    have h1 : ((c - 1 + (n + 2)) % 65536 + 65536 - 1) % 65536 = c + n := by omega
    simp only [h1, if_neg (show ¬ c + n < c - 1 by omega), if_neg (show ¬ c + n < c by omega)]
    omega
  have hlt : n < b.length := by omega
  refine ⟨b.set n y, ?_, by simp [hl], ?_⟩
  · unfold Buf.push
    simp only [if_neg (show ¬ (n + 1 ≥ c) by omega), hu, e, setAt_lt hlt]
    rfl
  · intro i hi
    by_cases h : n = i
    · subst h; rw [List.getElem?_set_self hlt, if_pos (Or.inr (by omega))]
    · rw [List.getElem?_set_ne h, hb i hi]
      congr 1
      by_cases h2 : i = c - 1 ∨ i < n
      · rw [if_pos h2, if_pos (by omega)]
      · rw [if_neg h2, if_neg (by omega)]

/-- When the sum wraps, the element goes one slot too far. -/
theorem filled_wrap {c : Nat} (hc : 32769 ≤ c) (hc' : c ≤ 65535) {b : List α} {x y : α}
    (h : Filled c x y (65536 - c) b) :
    ∃ b', (⟨b, c, c - 1, 65537 - c, 0⟩ : Buf α).push y = .ok ⟨b', c, c - 1, 65538 - c, 0⟩ ∧
      b'.length = c ∧ (∀ i, i < c → (i = c - 1 ∨ i < 65536 - c) → b'[i]? = some y) ∧
      b'[65536 - c]? = some x := by
  obtain ⟨hl, hb⟩ := h
  have hu : u16 (65537 - c + 1) = 65538 - c := by unfold u16; omega
  have e : Buf.lastElemIndex (⟨b, c, c - 1, 65538 - c, 0⟩ : Buf α) = 65537 - c := by
    simp only [Buf.lastElemIndex, sub16, u16]
    have h1 : ((c - 1 + (65538 - c)) % 65536 + 65536 - 1) % 65536 = 0 := by omega
    simp only [h1, if_pos (show 0 < c - 1 by omega)]
    omega
  have hlt : 65537 - c < b.length := by omega
  refine ⟨b.set (65537 - c) y, ?_, by simp [hl], ?_, ?_⟩
  · unfold Buf.push
    simp only [if_neg (show ¬ (65537 - c ≥ c) by omega), hu, e, setAt_lt hlt]
    rfl
  · intro i hi hy
    by_cases h : 65537 - c = i
    · rw [h, List.getElem?_set_self (by omega)]
    · rw [List.getElem?_set_ne h, hb i hi, if_pos hy]
  · rw [List.getElem?_set_ne (by omega), hb _ (by omega), if_neg (by omega)]

/-- The pushes up to the wrap. -/
theorem run_fill {c : Nat} (hc' : c ≤ 65535) {x y : α} (ops : List (Op α)) :
    ∀ (m n : Nat) (b : List α), Filled c x y n b → c + n + m ≤ 65536 → n + m + 1 ≤ c →
    ∃ b', Filled c x y (n + m) b' ∧
      run ⟨b, c, c - 1, n + 1, 0⟩ (List.replicate m (.push y) ++ ops) =
        List.replicate m .unit ++ run ⟨b', c, c - 1, n + m + 1, 0⟩ ops
  | 0, n, b, h, _, _ => ⟨b, h, by simp⟩
  | m + 1, n, b, h, h1, h2 => by
    obtain ⟨b1, e1, f1⟩ := filled_next hc' h (by omega) (by omega)
    obtain ⟨b2, f2, e2⟩ := run_fill hc' ops m (n + 1) b1 f1 (by omega) (by omega)
    refine ⟨b2, by rw [show n + (m + 1) = n + 1 + m by omega]; exact f2, ?_⟩
    simp only [List.replicate_succ, List.cons_append]
    rw [run]
    simp only [step, e1]
    rw [e2, show n + 1 + m + 1 = n + (m + 1) + 1 by omega]

/-- Removing elements from the start of the ring. -/
theorem run_drain {c : Nat} {y : α} {b : List α} (rest : Nat) (hr : 0 < rest) (ops : List (Op α)) :
    ∀ (m k : Nat), k + m + rest ≤ c → c ≤ 65535 → (∀ i, k ≤ i → i < k + m → b[i]? = some y) →
    run ⟨b, c, k, m + rest, 0⟩ (List.replicate m .popHead ++ ops) =
      List.replicate m (.elem y) ++ run ⟨b, c, k + m, rest, 0⟩ ops
  | 0, k, _, _, _ => by simp
  | m + 1, k, h, hc, hb => by
    have ih := run_drain rest hr ops m (k + 1) (by omega) hc (fun i h1 h2 => hb i (by omega) (by omega))
    have e : Buf.popHead ⟨b, c, k, m + 1 + rest, 0⟩ = .ok (y, ⟨b, c, k + 1, m + rest, 0⟩) := by
      unfold Buf.popHead
      have h0 : ¬ (Buf.isEmpty (⟨b, c, k, m + 1 + rest, 0⟩ : Buf α)) = true := by
        simp [Buf.isEmpty]
      have hu : u16 (k + 1) = k + 1 := by unfold u16; omega
      have hs : sub16 (m + 1 + rest) 1 = m + rest := by unfold sub16; omega
      rw [if_neg h0]
      simp only [idx_eq_ok.mpr (hb k (by omega) (by omega)), Res.ok_bind, Res.pure_eq, hu, hs]
      rw [if_neg (by omega)]
    simp only [List.replicate_succ, List.cons_append]
    rw [run]
    simp only [step, e]
    rw [ih, show k + 1 + m = k + (m + 1) by omega]

end Circular
