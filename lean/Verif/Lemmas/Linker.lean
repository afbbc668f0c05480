import Verif.Lemmas.AppendRange

/-!
# Linking states of a compiler fed with rules without sets

`Inv` is the invariant of the compiler while it reads such rules: the states in use form a tree, each with a
use count of one, and the others are waiting to be freed or reused.
-/

namespace TreeModel
open Go Helpers ScannerModel

/-- `R` tells the inputs that lead to a state, `L` the rules matched, `H` the bounds on the head lengths. From
depth `d` on the current rule has not been entered. -/
structure Inv (c : Compiler) (d : Nat) (R : List Nat → Prop) (L : List Nat → Nat → Option Nat)
    (H : List Nat → Nat × Nat) : Prop where
  pos : 0 < c.states.length
  len : c.states.length ≤ 254
  single : ∀ st ∈ c.states, Single st.trans
  bound : ∀ u s, walk c.states u = some s → s < c.states.length
  inj : Inj c.states
  reach : ∀ u, (walk c.states u).isSome = true ↔ R u
  look : ∀ u h, lookAt c.states u h = L u h
  heads : ∀ u s st, walk c.states u = some s → c.states[s]? = some st → (st.minHead, st.maxHead) = H u
  noHeads : ∀ u, ¬ R u → H u = (255, 0)
  usesLen : c.uses.length + 1 = c.states.length
  rulesLen : c.rules.length + 1 = c.states.length
  nodup : (c.byDepth.flatten ++ c.freed).Nodup
  range : ∀ s ∈ c.byDepth.flatten ++ c.freed, 0 < s ∧ s < c.states.length
  freeUses : ∀ s ∈ c.freed, c.uses[s - 1]? = some 0
  live : ∀ u s, walk c.states u = some s → u ≠ [] → c.uses[s - 1]? = some 1 ∧
    ∃ l, c.byDepth[u.length - 1]? = some l ∧ s ∈ l
  rules : ∀ i l, c.byDepth[i]? = some l → ∀ s ∈ l, ∃ rs, c.rules[s - 1]? = some rs ∧ rs ≠ [] ∧
    ∀ q ∈ rs, q ≤ c.ruleIndex ∧ (d ≤ i → q < c.ruleIndex)

theorem mem_flatten {l : List (List Nat)} {i : Nat} {x : List Nat} (h : l[i]? = some x) {s : Nat} (hs : s ∈ x) :
    s ∈ l.flatten := List.mem_flatten.2 ⟨x, List.mem_of_getElem? h, hs⟩

section
variable {c : Compiler} {d : Nat} {R : List Nat → Prop} {L : List Nat → Nat → Option Nat} {H : List Nat → Nat × Nat}

theorem Inv.walk_pos (h : Inv c d R L H) {u : List Nat} {s : Nat} (hu : walk c.states u = some s) (hne : u ≠ []) :
    0 < s := by
  rcases Nat.eq_zero_or_pos s with rfl | hs
  · exact absurd (h.inj u [] 0 hu rfl) hne
  · exact hs

theorem Inv.not_freed (h : Inv c d R L H) {u : List Nat} {s : Nat} (hs : s ∈ c.freed) : walk c.states u ≠ some s := by
  intro hu
  by_cases hne : u = []
  · subst hne
    simp only [walk_nil, Option.some.injEq] at hu
    have := h.range s (List.mem_append_right _ hs)
    omega
  · obtain ⟨_, l, hl, hsl⟩ := h.live u s hu hne
    have := (List.nodup_append.1 h.nodup).2.2 s (mem_flatten hl hsl) s hs
    exact this rfl

/-- What linking needs of the compiler: the states that are not in use are those that were freed. -/
structure Stock (c : Compiler) (d : Nat) : Prop where
  pos : 0 < c.states.length
  len : c.states.length ≤ 254
  bound : ∀ u s, walk c.states u = some s → s < c.states.length
  usesLen : c.uses.length + 1 = c.states.length
  rulesLen : c.rules.length + 1 = c.states.length
  nodup : (c.byDepth.flatten ++ c.freed).Nodup
  range : ∀ s ∈ c.byDepth.flatten ++ c.freed, 0 < s ∧ s < c.states.length
  freeUses : ∀ s ∈ c.freed, c.uses[s - 1]? = some 0
  not_freed : ∀ {u : List Nat} {s : Nat}, s ∈ c.freed → walk c.states u ≠ some s
  rules : ∀ i l, c.byDepth[i]? = some l → ∀ s ∈ l, ∃ rs, c.rules[s - 1]? = some rs ∧ rs ≠ [] ∧
    ∀ q ∈ rs, q ≤ c.ruleIndex ∧ (d ≤ i → q < c.ruleIndex)

theorem Inv.stock (h : Inv c d R L H) : Stock c d :=
  ⟨h.pos, h.len, h.bound, h.usesLen, h.rulesLen, h.nodup, h.range, h.freeUses, h.not_freed, h.rules⟩

end

theorem insert_new {l : List Nat} {s : Nat} (h : s ∉ l) : ∃ l', basicOrderedNonRepeatInsert l s = .ok l' ∧
    l'.Perm (s :: l) := by
  have hpos : ∀ n, n ≤ l.length → ∃ p, orderedInsertPos l s n = .ok (some p) := by
    intro n
    induction n with
    | zero => intro _; exact ⟨0, rfl⟩
    | succ n ih =>
      intro hn
      unfold orderedInsertPos
      rw [idx_lt hn, Res.ok_bind]
      split
      · exact ⟨_, rfl⟩
      · split
        · rename_i _ heq
          have : l[n] = s := by simpa using heq
          exact absurd (this ▸ List.getElem_mem hn) h
        · exact ih (by omega)
  obtain ⟨p, hp⟩ := hpos l.length (Nat.le_refl _)
  refine ⟨_, by unfold basicOrderedNonRepeatInsert; rw [hp]; rfl, ?_⟩
  refine List.perm_middle.trans ?_
  rw [List.take_append_drop]

theorem set_flatten {l : List (List Nat)} {i : Nat} {x y z : List Nat} (h : l[i]? = some x)
    (hy : y.Perm (z ++ x)) : (l.set i y).flatten.Perm (z ++ l.flatten) := by
  induction l generalizing i with
  | nil => simp at h
  | cons a l ih =>
    cases i with
    | zero =>
      simp only [List.getElem?_cons_zero, Option.some.injEq] at h
      subst h
      simp only [List.set_cons_zero, List.flatten_cons]
      rw [← List.append_assoc]
      exact hy.append_right _
    | succ i =>
      simp only [List.getElem?_cons_succ] at h
      simp only [List.set_cons_succ, List.flatten_cons]
      refine ((ih h).append_left a).trans ?_
      rw [← List.append_assoc, ← List.append_assoc]
      exact List.perm_append_comm.append_right _

theorem findReusable_none {c : Compiler} {want l : List Nat} (h : ∀ s ∈ l, 0 < s ∧ s < 255 ∧
    ∃ rs, c.rules[s - 1]? = some rs ∧ rs ≠ want) : c.findReusable want l = .ok stateNone := by
  induction l with
  | nil => rfl
  | cons s l ih =>
    obtain ⟨h1, h2, rs, h3, h4⟩ := h s (by simp)
    unfold Compiler.findReusable
    rw [show sub8 s 1 = s - 1 by unfold sub8; omega, idx_eq_ok.2 h3, Res.ok_bind, if_neg h4]
    exact ih fun x hx => h x (by simp [hx])

/-- What `stateLinker` does. -/
structure Linked (c : Compiler) (ref : Nat) (c1 : Compiler) (s : Nat) (x : State) (rs : List Nat) : Prop where
  pos : 0 < s
  lt : s < c1.states.length
  len : c1.states.length ≤ 254
  le : s ≤ c.states.length
  grow : c1.states.length = if s = c.states.length then s + 1 else c.states.length
  fresh : ∀ u, walk c.states u ≠ some s
  notIn : s ∉ c.byDepth.flatten
  atS : c1.states[s]? = some x
  others : ∀ i, i ≠ s → c1.states[i]? = c.states[i]?
  ruleIndex : c1.ruleIndex = c.ruleIndex
  depth : c1.depth = c.depth
  compiling : c1.compiling = c.compiling
  toStates : c1.toStates = [s]
  usesLen : c1.uses.length + 1 = c1.states.length
  usesS : c1.uses[s - 1]? = some 1
  usesRef : ref ≠ stateNone → c1.uses[ref - 1]? = some 0
  usesOther : ∀ i, i ≠ s - 1 → (ref ≠ stateNone → i ≠ ref - 1) → c1.uses[i]? = c.uses[i]?
  rulesLen : c1.rules.length + 1 = c1.states.length
  rulesS : c1.rules[s - 1]? = some (rs ++ [c.ruleIndex])
  rulesOther : ∀ i, i ≠ s - 1 → c1.rules[i]? = c.rules[i]?
  perm : (c1.byDepth.flatten ++ c1.freed).Perm
    (if s = c.states.length then s :: (c.byDepth.flatten ++ c.freed) else c.byDepth.flatten ++ c.freed)
  freed : ∀ y ∈ c1.freed, y ∈ c.freed ∧ y ≠ s
  atDepth : ∃ l, c1.byDepth[c.depth]? = some l ∧ s ∈ l ∧
    ∀ y ∈ l, y = s ∨ ∃ l0, c.byDepth[c.depth]? = some l0 ∧ y ∈ l0
  keepDepth : ∀ l0, c.byDepth[c.depth]? = some l0 → ∃ l, c1.byDepth[c.depth]? = some l ∧ ∀ y ∈ l0, y ∈ l
  otherDepth : ∀ i, i ≠ c.depth → c1.byDepth[i]? = c.byDepth[i]?

/-- The rules and the contents of the state that is copied. -/
def RefOk (c : Compiler) (ref : Nat) (x : State) (rs : List Nat) : Prop :=
  (ref = stateNone ∧ x = State.reset ∧ rs = []) ∨
  (ref ≠ stateNone ∧ 0 < ref ∧ c.states[ref]? = some x ∧ c.rules[ref - 1]? = some rs ∧ rs ≠ [] ∧
    (∀ q ∈ rs, q < c.ruleIndex) ∧ c.uses[ref - 1]? = some 1)

theorem fetchReusable_none {c : Compiler} (h : Stock c c.depth) {ref : Nat} {x : State} {rs : List Nat}
    (hr : RefOk c ref x rs) : c.fetchReusable ref = .ok stateNone := by
  unfold Compiler.fetchReusable
  rw [if_neg (by
    rcases hr with ⟨h1, _⟩ | ⟨_, h1, _⟩
    · rw [h1]; decide
    · omega)]
  have hrs : (if ref ≠ stateNone then idx c.rules (ref - 1) else .ok []) = .ok rs := by
    rcases hr with ⟨h1, _, h2⟩ | ⟨h1, _, _, h2, _⟩
    · rw [if_neg (by simp [h1]), h2]
    · rw [if_pos h1, idx_eq_ok.2 h2]
  have hp : ∃ p, c.rulePosition rs = .ok p := by
    cases rs with
    | nil => exact ⟨_, rfl⟩
    | cons q rs =>
      simp only [Compiler.rulePosition]
      rw [if_neg]
      · exact ⟨_, rfl⟩
      · rcases hr with ⟨_, _, h2⟩ | ⟨_, _, _, _, _, h2, _⟩
        · cases h2
        · have := h2 q (by simp); omega
  obtain ⟨p, hp⟩ := hp
  cases hb : c.byDepth[c.depth]? with
  | none => rfl
  | some l =>
    cases l with
    | nil => rfl
    | cons a l =>
      simp only
      rw [hrs, Res.ok_bind, hp, Res.ok_bind]
      refine findReusable_none fun s hs => ?_
      have hrange := h.range s (List.mem_append_left _ (mem_flatten hb hs))
      have hlen := h.len
      obtain ⟨qs, hq, _, hall⟩ := h.rules _ _ hb s hs
      refine ⟨hrange.1, by omega, qs, hq, ?_⟩
      rintro rfl
      have := (hall c.ruleIndex (by simp)).2 (Nat.le_refl _)
      omega

theorem setRules_ok {c : Compiler} {i : Nat} {l : List Nat} (h : i ≤ c.rules.length) :
    ∃ rs, c.setRules i l = .ok { c with rules := rs } ∧ rs[i]? = some l ∧ (∀ j, j ≠ i → rs[j]? = c.rules[j]?) ∧
      rs.length = if i = c.rules.length then i + 1 else c.rules.length := by
  unfold Compiler.setRules
  by_cases hi : c.rules.length ≤ i
  · have he : i = c.rules.length := by omega
    rw [if_pos hi, if_neg (by omega)]
    refine ⟨_, rfl, by simp [he], ?_, by simp [he]⟩
    intro j hj
    rw [List.getElem?_append]
    split
    · rfl
    · rename_i hjl
      rw [List.getElem?_eq_none_iff.2 (by simp; omega), List.getElem?_eq_none_iff.2 (by omega)]
  · rw [if_neg hi]
    refine ⟨_, rfl, ?_, ?_, by rw [List.length_set, if_neg (by omega)]⟩
    · rw [List.getElem?_set, if_pos rfl, if_pos (by omega)]
    · intro j hj
      rw [List.getElem?_set, if_neg (fun hh => hj hh.symm)]

theorem adjustUses_ok {c : Compiler} {s n m : Nat} {delta : Int} (hs : 0 < s) (hl : s - 1 ≤ c.uses.length)
    (hn : s - 1 = c.uses.length ∧ n = 0 ∨ c.uses[s - 1]? = some n) (hd : (n : Int) + delta = m) (hm : m ≤ 255) :
    ∃ us, c.adjustUses s delta = .ok { c with uses := us } ∧ us[s - 1]? = some m ∧
      (∀ j, j ≠ s - 1 → us[j]? = c.uses[j]?) ∧
      us.length = if s - 1 = c.uses.length then s else c.uses.length := by
  unfold Compiler.adjustUses
  rw [if_neg (by omega)]
  by_cases hi : c.uses.length ≤ s - 1
  · have he : s - 1 = c.uses.length := by omega
    have hn0 : n = 0 := by
      rcases hn with hn | hn
      · exact hn.2
      · rw [List.getElem?_eq_none_iff.2 (by omega)] at hn; cases hn
    subst hn0
    rw [if_pos hi, if_neg (by omega), if_neg (by omega)]
    refine ⟨_, rfl, ?_, ?_, by rw [if_pos he, List.length_append, List.length_singleton]; omega⟩
    · rw [he]; simp; omega
    · intro j hj
      rw [List.getElem?_append]
      split
      · rfl
      · rw [List.getElem?_eq_none_iff.2 (by simp; omega), List.getElem?_eq_none_iff.2 (by omega)]
  · rw [if_neg hi]
    have hn' : c.uses[s - 1]? = some n := by
      rcases hn with hn | hn
      · omega
      · exact hn
    rw [idx_eq_ok.2 hn', Res.ok_bind]
    simp only
    rw [if_neg (by omega)]
    refine ⟨_, rfl, ?_, ?_, by rw [List.length_set, if_neg (by omega)]⟩
    · rw [List.getElem?_set, if_pos rfl, if_pos (by omega), show ((n : Int) + delta).toNat = m by omega]
    · intro j hj
      rw [List.getElem?_set, if_neg (fun hh => hj hh.symm)]

theorem registerState_ok {c : Compiler} {s : Nat} (hd : c.depth ≤ c.byDepth.length) (hs : s ∉ c.byDepth.flatten) :
    ∃ b, c.registerState s = .ok { c with byDepth := b } ∧ b.flatten.Perm (s :: c.byDepth.flatten) ∧
      (∃ l, b[c.depth]? = some l ∧ s ∈ l ∧ ∀ y ∈ l, y = s ∨ ∃ l0, c.byDepth[c.depth]? = some l0 ∧ y ∈ l0) ∧
      (∀ l0, c.byDepth[c.depth]? = some l0 → ∃ l, b[c.depth]? = some l ∧ ∀ y ∈ l0, y ∈ l) ∧
      (∀ i, i ≠ c.depth → b[i]? = c.byDepth[i]?) := by
  unfold Compiler.registerState
  by_cases hi : c.byDepth.length ≤ c.depth
  · have he : c.depth = c.byDepth.length := by omega
    rw [if_pos hi, if_neg (by omega)]
    refine ⟨_, rfl, ?_, ⟨[s], by rw [he]; simp, by simp, by simp⟩, ?_, ?_⟩
    · rw [List.flatten_append]
      simpa using List.perm_append_comm (l₁ := c.byDepth.flatten) (l₂ := [s])
    · intro l0 hl0
      rw [List.getElem?_eq_none_iff.2 hi] at hl0; cases hl0
    · intro j hj
      rw [List.getElem?_append]
      split
      · rfl
      · rw [List.getElem?_eq_none_iff.2 (by simp; omega), List.getElem?_eq_none_iff.2 (by omega)]
  · rw [if_neg hi]
    have hlt : c.depth < c.byDepth.length := by omega
    have hget : c.byDepth[c.depth]? = some c.byDepth[c.depth] := List.getElem?_eq_getElem hlt
    obtain ⟨l', hl', hp⟩ := insert_new (l := c.byDepth[c.depth]) (s := s) fun hh => hs (mem_flatten hget hh)
    rw [idx_lt hlt, Res.ok_bind, hl', Res.ok_bind]
    have hset : (c.byDepth.set c.depth l')[c.depth]? = some l' := by
      rw [List.getElem?_set, if_pos rfl, if_pos hlt]
    refine ⟨_, rfl, set_flatten (z := [s]) hget (by simpa using hp), ⟨l', hset, hp.mem_iff.2 (by simp), ?_⟩, ?_, ?_⟩
    · intro y hy
      rcases List.mem_cons.1 (hp.mem_iff.1 hy) with h | h
      · exact Or.inl h
      · exact Or.inr ⟨_, hget, h⟩
    · intro l0 hl0
      rw [hget] at hl0; cases hl0
      exact ⟨l', hset, fun y hy => hp.mem_iff.2 (List.mem_cons_of_mem _ hy)⟩
    · intro j hj
      rw [List.getElem?_set, if_neg (fun hh => hj hh.symm)]

theorem initRules_ok {c : Compiler} {ref s : Nat} {x : State} {rs : List Nat} (hr : RefOk c ref x rs)
    {c' : Compiler} (hi : c'.ruleIndex = c.ruleIndex) (hru : c'.rules = c.rules) (hst : c'.states[ref]? = c.states[ref]?)
    (hs : 0 < s) (hlt : s < c'.states.length) (hle : s - 1 ≤ c.rules.length) :
    ∃ qs, (if ref ≠ stateNone then (do
        let st ← idx c'.states ref
        let states ← setAt c'.states s st
        { c' with states := states }.initRulesWithRef s ref)
      else (do
        let states ← setAt c'.states s State.reset
        { c' with states := states }.initRules s)) =
      .ok { c' with states := c'.states.set s x, rules := qs } ∧ qs[s - 1]? = some (rs ++ [c.ruleIndex]) ∧
      (∀ j, j ≠ s - 1 → qs[j]? = c.rules[j]?) ∧
      qs.length = if s - 1 = c.rules.length then s - 1 + 1 else c.rules.length := by
  rcases hr with ⟨h1, h2, h3⟩ | ⟨h1, h2, h3, h4, h5, h6, _⟩
  · rw [if_neg (by simp [h1]), setAt_lt hlt, Res.ok_bind]
    unfold Compiler.initRules
    rw [if_neg (by omega)]
    obtain ⟨qs, ha, hb, hc, hd⟩ := setRules_ok (c := { c' with states := c'.states.set s State.reset })
      (i := s - 1) (l := [c'.ruleIndex]) (by rw [← hru] at hle; exact hle)
    refine ⟨qs, ?_, ?_, ?_, ?_⟩
    · rw [h2]; exact ha
    · rw [hb, h3, hi]; rfl
    · rw [← hru]; exact hc
    · rw [← hru]; exact hd
  · rw [if_pos h1, idx_eq_ok.2 (hst.trans h3), Res.ok_bind, setAt_lt hlt, Res.ok_bind]
    unfold Compiler.initRulesWithRef
    rw [if_neg (by omega)]
    simp only
    rw [hru, idx_eq_ok.2 h4, Res.ok_bind]
    have hlen : 0 < rs.length := List.length_pos_iff.2 h5
    rw [idx_lt hlen, Res.ok_bind, hi, if_neg (by have := h6 _ (List.getElem_mem hlen); omega)]
    rw [idx_lt (show rs.length - 1 < rs.length by omega), Res.ok_bind,
      if_pos (h6 _ (List.getElem_mem _))]
    obtain ⟨qs, ha, hb, hc, hd⟩ := setRules_ok (c := { c' with states := c'.states.set s x })
      (i := s - 1) (l := rs ++ [c.ruleIndex]) (by rw [← hru] at hle; exact hle)
    simp only [hru, hi] at ha
    refine ⟨qs, ha, hb, ?_, ?_⟩
    · rw [← hru]; exact hc
    · rw [← hru]; exact hd

theorem insert_nil (s : Nat) : basicOrderedNonRepeatInsert [] s = .ok [s] := rfl

theorem stateLinker_ok {c : Compiler} (h : Stock c c.depth) (hto : c.toStates = []) (hd : c.depth ≤ c.byDepth.length)
    {ref : Nat} {x : State} {rs : List Nat} (hr : RefOk c ref x rs) (mv : Nat → Bool) :
    (c.stateLinker mv ref 0 = .err hitLimits ∧ c.states.length = 254 ∧ c.freed = []) ∨
    ∃ c1 s m, c.stateLinker mv ref 0 = .ok (c1, s, m) ∧ Linked c ref c1 s x rs := by
  have hlen := h.len
  have hrlt : ref ≠ stateNone → 0 < ref ∧ ref < c.states.length ∧ c.uses[ref - 1]? = some 1 := by
    intro hne
    rcases hr with ⟨h1, _⟩ | ⟨_, h2, h3, _, _, _, h7⟩
    · exact absurd h1 hne
    · exact ⟨h2, (List.getElem?_eq_some_iff.1 h3).1, h7⟩
  -- the fetched state
  have hfetch : (c.fetchFreedOrNew mv = .err hitLimits ∧ c.states.length = 254 ∧ c.freed = []) ∨
      ∃ S F k s m, c.fetchFreedOrNew mv = .ok ({ c with states := S, freed := F, clock := k }, s, m) ∧
        0 < s ∧ s ≤ c.states.length ∧ s < S.length ∧ S.length ≤ 254 ∧
        S.length = (if s = c.states.length then s + 1 else c.states.length) ∧
        (∀ i, i ≠ s → S[i]? = c.states[i]?) ∧ (∀ u, walk c.states u ≠ some s) ∧
        (s = c.states.length ∧ F = c.freed ∨ s ≠ c.states.length ∧ c.freed = F ++ [s]) := by
    unfold Compiler.fetchFreedOrNew
    cases hg : c.freed.getLast? with
    | none =>
      have hnil : c.freed = [] := List.getLast?_eq_none_iff.1 hg
      simp only
      by_cases hfull : c.states.length ≥ 254
      · rw [if_pos hfull]
        exact Or.inl ⟨rfl, by omega, hnil⟩
      · rw [if_neg hfull]
        refine Or.inr ⟨_, _, _, _, _, rfl, h.pos, Nat.le_refl _, by simp, by simp; omega, by simp, ?_, ?_,
          Or.inl ⟨rfl, rfl⟩⟩
        · intro i hi
          rw [List.getElem?_append]
          split
          · rfl
          · rw [List.getElem?_eq_none_iff.2 (by simp; omega), List.getElem?_eq_none_iff.2 (by omega)]
        · intro u hu
          have := h.bound u _ hu
          omega
    | some s =>
      simp only
      have hne : c.freed ≠ [] := by intro hh; rw [hh] at hg; simp at hg
      have hsplit : c.freed = c.freed.dropLast ++ [s] := by
        rw [List.getLast?_eq_some_getLast hne] at hg
        cases hg
        exact (List.dropLast_concat_getLast hne).symm
      have hmem : s ∈ c.freed := by rw [hsplit]; simp
      have hrange := h.range s (List.mem_append_right _ hmem)
      exact Or.inr ⟨c.states, c.freed.dropLast, c.clock, s, false, rfl, hrange.1, by omega, hrange.2, hlen,
        by rw [if_neg (by omega)], fun _ _ => rfl, fun u => h.not_freed hmem, Or.inr ⟨by omega, hsplit⟩⟩
  unfold Compiler.stateLinker
  rw [fetchReusable_none h hr, Res.ok_bind, if_pos rfl]
  unfold Compiler.newState
  rcases hfetch with ⟨he, h1, h2⟩ | ⟨S, F, k, s, m, he, hs0, hsle, hslt, hSlen, hSgrow, hSother, hfresh, hF⟩
  · rw [he]
    exact Or.inl ⟨rfl, h1, h2⟩
  right
  have hsref : ref ≠ stateNone → s ≠ ref := by
    intro hne hsr
    obtain ⟨h1, h2, h3⟩ := hrlt hne
    rcases hF with ⟨h4, _⟩ | ⟨_, h4⟩
    · omega
    · have := h.freeUses s (by rw [h4]; simp)
      rw [hsr, h3] at this
      cases this
  have hsdepth : s ∉ c.byDepth.flatten := by
    intro hmem
    rcases hF with ⟨h4, _⟩ | ⟨_, h4⟩
    · have := h.range s (List.mem_append_left _ hmem); omega
    · exact (List.nodup_append.1 h.nodup).2.2 s hmem s (by rw [h4]; simp) rfl
  rw [he, Res.ok_bind]
  simp only
  have hrl := h.rulesLen
  have hul := h.usesLen
  obtain ⟨qs, hq1, hq2, hq3, hq4⟩ := initRules_ok hr (c' := { c with states := S, freed := F, clock := k }) rfl rfl
    (s := s) (by
      rcases hr with ⟨h1, _⟩ | ⟨h1, _⟩
      · rw [List.getElem?_eq_none_iff.2 (by simp only; rw [h1]; exact Nat.le_trans hSlen (by decide)),
          List.getElem?_eq_none_iff.2 (by rw [h1]; exact Nat.le_trans hlen (by decide))]
      · exact hSother ref fun hh => hsref h1 hh.symm) hs0 hslt (by omega)
  simp only at hq1
  rw [hq1, Res.ok_bind]
  obtain ⟨b, hb1, hb2, hb3, hb4, hb5⟩ := registerState_ok (c := { c with
    states := S.set s x, freed := F, clock := k, rules := qs }) (s := s) hd hsdepth
  rw [hb1, Res.ok_bind]
  simp only [Res.pure_eq, Res.ok_bind, hto, insert_nil]
  -- uses
  have huS : s - 1 = c.uses.length ∧ 0 = 0 ∨ c.uses[s - 1]? = some 0 := by
    rcases hF with ⟨h4, _⟩ | ⟨_, h4⟩
    · exact Or.inl ⟨by omega, rfl⟩
    · exact Or.inr (h.freeUses s (by rw [h4]; simp))
  obtain ⟨us, hu1, hu2, hu3, hu4⟩ := adjustUses_ok (c := { c with
    states := S.set s x, freed := F, clock := k, rules := qs, byDepth := b, toStates := [s] }) (s := s) (n := 0)
    (m := 1) (delta := 1) hs0 (by simp only; omega) huS (by omega) (by omega)
  rw [hu1, Res.ok_bind]
  have hSset : (S.set s x).length = S.length := List.length_set
  have husl : us.length + 1 = S.length := by
    rw [hu4, hSgrow]
    simp only
    split <;> split <;> omega
  have hqsl : qs.length + 1 = S.length := by
    rw [hq4, hSgrow]
    split <;> split <;> omega
  have hSge : c.states.length ≤ S.length := by rw [hSgrow]; split <;> omega
  have hperm : (b.flatten ++ F).Perm
      (if s = c.states.length then s :: (c.byDepth.flatten ++ c.freed) else c.byDepth.flatten ++ c.freed) := by
    rcases hF with ⟨h4, h5⟩ | ⟨h4, h5⟩
    · rw [if_pos h4, h5]
      exact hb2.append_right _
    · rw [if_neg h4, h5]
      refine (hb2.append_right _).trans ?_
      simp only [List.cons_append]
      rw [← List.append_assoc]
      exact (List.perm_append_comm (l₁ := [s])).trans (List.Perm.refl _)
  have hFmem : ∀ y ∈ F, y ∈ c.freed ∧ y ≠ s := by
    intro y hy
    rcases hF with ⟨h4, h5⟩ | ⟨h4, h5⟩
    · rw [h5] at hy
      refine ⟨hy, ?_⟩
      have := h.range y (List.mem_append_right _ hy)
      omega
    · refine ⟨by rw [h5]; simp [hy], ?_⟩
      rintro rfl
      have := (List.nodup_append.1 h.nodup).2.1
      rw [h5] at this
      exact (List.nodup_append.1 this).2.2 y hy y (by simp) rfl
  have hStateS : (S.set s x)[s]? = some x := by rw [List.getElem?_set, if_pos rfl, if_pos hslt]
  have hStateO : ∀ i, i ≠ s → (S.set s x)[i]? = c.states[i]? := by
    intro i hi
    rw [List.getElem?_set, if_neg (fun hh => hi hh.symm), hSother i hi]
  rw [if_neg (by simp)]
  by_cases hne : ref = stateNone
  · rw [if_neg (by simp [hne])]
    refine ⟨_, s, m, rfl, ?_⟩
    exact ⟨hs0, by simp only; omega, by simp only; omega, hsle, by simp only; omega, hfresh, hsdepth, hStateS, hStateO, rfl, rfl,
      rfl, rfl, by simp only; omega, hu2, fun hh => absurd hne hh, fun i hi _ => hu3 i hi, by simp only; omega, hq2, hq3,
      hperm, hFmem, hb3, hb4, hb5⟩
  · rw [if_pos hne, if_neg (by omega)]
    obtain ⟨hr0, hrl', hru⟩ := hrlt hne
    have hne' := hsref hne
    obtain ⟨vs, hv1, hv2, hv3, hv4⟩ := adjustUses_ok (c := { c with
      states := S.set s x, freed := F, clock := k, rules := qs, byDepth := b, toStates := [s], uses := us })
      (s := ref) (n := 1) (m := 0) (delta := 0 - 1) hr0 (by simp only; omega)
      (Or.inr (by simp only; rw [hu3 _ (by omega)]; exact hru)) (by omega) (by omega)
    rw [hv1, Res.ok_bind]
    refine ⟨_, s, m, rfl, ?_⟩
    have hvl : vs.length = us.length := by
      rw [hv4, if_neg]
      simp only
      omega
    refine ⟨hs0, by simp only; omega, by simp only; omega, hsle, by simp only; omega, hfresh, hsdepth, hStateS, hStateO, rfl, rfl,
      rfl, rfl, by simp only; omega, ?_, fun _ => hv2, ?_, by simp only; omega, hq2, hq3,
      hperm, hFmem, hb3, hb4, hb5⟩
    · simp only
      rw [hv3 _ (by omega)]
      exact hu2
    · intro i hi hi'
      simp only
      rw [hv3 i (hi' hne)]
      exact hu3 i hi

end TreeModel
