import Verif.Lemmas.RangedPut

/-!
# The compiler while it reads rules that share plain beginnings and then go their own ways

The states reached by the words in `T` form a tree, as for rules without sets. From some of its states elements in
`E` lead to states of a single rule, which several words may reach.
-/

namespace TreeModel
open Go Helpers ScannerModel Spec
open Classical

/-- The words one element longer. -/
def ext (W : List Nat → Prop) (X : List Nat) (u : List Nat) : Prop := ∃ v x, W v ∧ x ∈ X ∧ u = v ++ [x]

theorem ext_snoc {W : List Nat → Prop} {X v : List Nat} {x : Nat} : ext W X (v ++ [x]) ↔ W v ∧ x ∈ X := by
  constructor
  · rintro ⟨v', x', h1, h2, h3⟩
    obtain ⟨rfl, h4⟩ := List.append_inj' h3 rfl
    have h4 : x = x' := by simpa using h4
    subst h4
    exact ⟨h1, h2⟩
  · rintro ⟨h1, h2⟩
    exact ⟨v, x, h1, h2, rfl⟩

/-- The change made by linking: from `cur`, the elements of `X` lead to `n`, a copy of where they led before. -/
structure Rewired (S S' : List State) (W : List Nat → Prop) (cur : Nat) (X : List Nat) (n : Nat) : Prop where
  at_cur : ∀ u, walk S u = some cur ↔ W u
  level : ∀ u v, W u → W v → u.length = v.length
  fresh : ∀ u, walk S u ≠ some n
  next_cur : ∀ x ∈ X, next1 S' cur x = some n
  rule_cur : ∀ x ∈ X, rule1 S' cur x = rule1 S cur x
  other_cur : ∀ x, x ∉ X → step S' cur x = step S cur x
  other : ∀ u s, walk S u = some s → s ≠ cur → ∀ h, step S' s h = step S s h
  copy : ∀ x ∈ X, ∀ h, step S' n h = (next1 S cur x).bind fun s => step S s h

theorem Rewired.walk {S S' : List State} {W : List Nat → Prop} {cur n : Nat} {X : List Nat}
    (h : Rewired S S' W cur X n) (u : List Nat) :
    walk S' u = if ext W X u then some n else TreeModel.walk S u := by
  induction u using snoc_induction with
  | nil =>
    rw [if_neg]
    · rfl
    · rintro ⟨v, x, _, _, e⟩
      simp at e
  | snoc v x ih =>
    rw [walk_snoc, ih]
    by_cases hv : ext W X v
    · rw [if_pos hv, if_neg]
      · obtain ⟨w, y, h1, h2, rfl⟩ := hv
        rw [walk_snoc, walk_snoc, (h.at_cur w).2 h1, Option.bind_some, Option.bind_some, next1, h.copy y h2]
        cases next1 S cur y <;> rfl
      · intro hh
        have hw := (ext_snoc.1 hh).1
        obtain ⟨w, y, h1, _, rfl⟩ := hv
        have := h.level _ _ h1 hw
        simp at this
    · rw [if_neg hv]
      cases hw : TreeModel.walk S v with
      | none =>
        rw [if_neg, walk_snoc, hw]
        · rfl
        · intro hh
          have := (h.at_cur v).2 (ext_snoc.1 hh).1
          rw [this] at hw
          cases hw
      | some s =>
        rw [Option.bind_some, walk_snoc, hw, Option.bind_some]
        by_cases hs : s = cur
        · subst hs
          have hWv := (h.at_cur v).1 hw
          by_cases hx : x ∈ X
          · rw [if_pos (ext_snoc.2 ⟨hWv, hx⟩), h.next_cur x hx]
          · rw [if_neg fun hh => hx (ext_snoc.1 hh).2, next1, next1, h.other_cur x hx]
        · rw [if_neg, next1, next1, h.other v s hw hs]
          intro hh
          have := (h.at_cur v).2 (ext_snoc.1 hh).1
          rw [hw] at this
          exact hs (Option.some.inj this)

theorem Rewired.lookAt {S S' : List State} {W : List Nat → Prop} {cur n : Nat} {X : List Nat}
    (h : Rewired S S' W cur X n) (u : List Nat) (x : Nat) : lookAt S' u x = TreeModel.lookAt S u x := by
  unfold TreeModel.lookAt
  rw [h.walk]
  by_cases hu : ext W X u
  · rw [if_pos hu]
    obtain ⟨v, y, h1, h2, rfl⟩ := hu
    rw [walk_snoc, (h.at_cur v).2 h1]
    simp only [Option.bind_some, rule1]
    rw [h.copy y h2]
    cases next1 S cur y <;> simp [rule1]
  · rw [if_neg hu]
    cases hw : TreeModel.walk S u with
    | none => rfl
    | some s =>
      simp only [Option.bind_some]
      by_cases hs : s = cur
      · subst hs
        by_cases hx : x ∈ X
        · rw [h.rule_cur x hx]
        · rw [rule1, rule1, h.other_cur x hx]
      · rw [rule1, rule1, h.other u s hw hs]

/-- As `Inv`, with ranges. -/
structure Bush (c : Compiler) (d : Nat) (R : List Nat → Prop) (L : List Nat → Nat → Option Nat)
    (H : List Nat → Nat × Nat) (T : List Nat → Prop) (E : List Nat → Nat → Prop) : Prop where
  pos : 0 < c.states.length
  len : c.states.length ≤ 254
  ranged : ∀ st ∈ c.states, Ranged st.trans
  bound : ∀ u s, walk c.states u = some s → s < c.states.length
  reach : ∀ u, (walk c.states u).isSome = true ↔ R u
  look : ∀ u h, lookAt c.states u h = L u h
  heads : ∀ u s st, walk c.states u = some s → c.states[s]? = some st → (st.minHead, st.maxHead) = H u
  noHeads : ∀ u, ¬ R u → H u = (255, 0)
  usesLen : c.uses.length + 1 = c.states.length
  rulesLen : c.rules.length + 1 = c.states.length
  nodup : (c.byDepth.flatten ++ c.freed).Nodup
  range : ∀ s ∈ c.byDepth.flatten ++ c.freed, 0 < s ∧ s < c.states.length
  freeUses : ∀ s ∈ c.freed, c.uses[s - 1]? = some 0
  root : T []
  reached : ∀ u, T u → R u
  inj : ∀ u v s, T u → walk c.states u = some s → walk c.states v = some s → v = u
  live : ∀ u s, walk c.states u = some s → u ≠ [] → (∃ n, c.uses[s - 1]? = some (n + 1)) ∧
    ∃ l, c.byDepth[u.length - 1]? = some l ∧ s ∈ l
  once : ∀ u s, T u → walk c.states u = some s → u ≠ [] → c.uses[s - 1]? = some 1
  active : ∀ u s st, walk c.states u = some s → c.states[s]? = some st → ∀ t ∈ st.trans,
    t.rule ≠ ruleNone ∨ t.next ≠ stateNone
  entry : ∀ u s st, T u → walk c.states u = some s → c.states[s]? = some st → ∀ t ∈ st.trans,
    t.first = t.last ∨ ∀ x, t.first ≤ x → x ≤ t.last → E u x
  rules : ∀ i l, c.byDepth[i]? = some l → ∀ s ∈ l, ∃ rs, c.rules[s - 1]? = some rs ∧ rs ≠ [] ∧
    ∀ q ∈ rs, q ≤ c.ruleIndex ∧ (d ≤ i → q < c.ruleIndex)

variable {c : Compiler} {d : Nat} {R : List Nat → Prop} {L : List Nat → Nat → Option Nat} {H : List Nat → Nat × Nat}
  {T : List Nat → Prop} {E : List Nat → Nat → Prop}

theorem Bush.walk_pos (h : Bush c d R L H T E) {u : List Nat} {s : Nat} (hu : walk c.states u = some s) (hne : u ≠ []) :
    0 < s := by
  rcases Nat.eq_zero_or_pos s with rfl | hs
  · exact absurd (h.inj [] u 0 h.root rfl hu) hne
  · exact hs

theorem Bush.not_freed (h : Bush c d R L H T E) {u : List Nat} {s : Nat} (hs : s ∈ c.freed) :
    walk c.states u ≠ some s := by
  intro hu
  by_cases hne : u = []
  · subst hne
    simp only [walk_nil, Option.some.injEq] at hu
    have := h.range s (List.mem_append_right _ hs)
    omega
  · obtain ⟨_, l, hl, hsl⟩ := h.live u s hu hne
    have := (List.nodup_append.1 h.nodup).2.2 s (mem_flatten hl hsl) s hs
    exact this rfl

theorem Bush.stock (h : Bush c d R L H T E) : Stock c d :=
  ⟨h.pos, h.len, h.bound, h.usesLen, h.rulesLen, h.nodup, h.range, h.freeUses, h.not_freed, h.rules⟩

theorem Bush.clock (h : Bush c d R L H T E) (n : Nat) : Bush { c with clock := n } d R L H T E :=
  ⟨h.pos, h.len, h.ranged, h.bound, h.reach, h.look, h.heads, h.noHeads, h.usesLen, h.rulesLen, h.nodup, h.range,
    h.freeUses, h.root, h.reached, h.inj, h.live, h.once, h.active, h.entry, h.rules⟩

theorem Bush.wider (h : Bush c d R L H T E) {E' : List Nat → Nat → Prop} (hE : ∀ u x, E u x → E' u x) :
    Bush c d R L H T E' :=
  ⟨h.pos, h.len, h.ranged, h.bound, h.reach, h.look, h.heads, h.noHeads, h.usesLen, h.rulesLen, h.nodup, h.range,
    h.freeUses, h.root, h.reached, h.inj, h.live, h.once, h.active, fun u s st h1 h2 h3 t ht =>
      (h.entry u s st h1 h2 h3 t ht).imp id fun h x a b => hE _ _ (h x a b), h.rules⟩

theorem Bush.congr (h : Bush c d R L H T E) {R' : List Nat → Prop} {L' : List Nat → Nat → Option Nat}
    {H' : List Nat → Nat × Nat} {T' : List Nat → Prop} (hR : ∀ u, R u ↔ R' u) (hL : ∀ u x, L u x = L' u x)
    (hH : ∀ u, H u = H' u) (hT : ∀ u, T u ↔ T' u) : Bush c d R' L' H' T' E := by
  have h1 : R = R' := funext fun u => propext (hR u)
  have h2 : L = L' := funext fun u => funext fun x => hL u x
  have h3 : H = H' := funext hH
  have h4 : T = T' := funext fun u => propext (hT u)
  rw [← h1, ← h2, ← h3, ← h4]
  exact h

theorem Bush.state (h : Bush c d R L H T E) {p : List Nat} {cur : Nat} (hp : walk c.states p = some cur) :
    ∃ st, c.states[cur]? = some st ∧ Ranged st.trans := by
  have hlt := h.bound p cur hp
  exact ⟨_, List.getElem?_eq_getElem hlt, h.ranged _ (List.getElem_mem hlt)⟩

/-- Replacing a state by one that leads to the same states. -/
theorem Bush.revise (h : Bush c d R L H T E) {W : List Nat → Prop} {cur : Nat} {st st' : State}
    {L' : List Nat → Nat → Option Nat} {H' : List Nat → Nat × Nat} (hW : ∀ u, walk c.states u = some cur ↔ W u)
    (hst : c.states[cur]? = some st) (hR : Ranged st'.trans)
    (hnext : ∀ x, (trig st'.trans x).bind nextOf = (trig st.trans x).bind nextOf)
    (hrule : ∀ u x, W u → (trig st'.trans x).bind ruleOf = L' u x) (hL : ∀ u x, ¬ W u → L' u x = L u x)
    (hheads : ∀ u, W u → (st'.minHead, st'.maxHead) = H' u) (hH : ∀ u, ¬ W u → H' u = H u)
    (hact : ∀ t ∈ st'.trans, t ∈ st.trans ∨ ((t.rule ≠ ruleNone ∨ t.next ≠ stateNone) ∧
      ∀ u, T u → W u → t.first = t.last ∨ ∀ x, t.first ≤ x → x ≤ t.last → E u x)) (n : Nat) :
    Bush { c with clock := n, states := c.states.set cur st' } d R L' H' T E ∧
      ∀ u, walk (c.states.set cur st') u = walk c.states u := by
  have hlt : cur < c.states.length := (List.getElem?_eq_some_iff.1 hst).1
  have hget : ∀ i, (c.states.set cur st')[i]? = if cur = i then some st' else c.states[i]? := by
    intro i
    rw [List.getElem?_set]
    by_cases hi : cur = i
    · subst hi; rw [if_pos rfl, if_pos rfl, if_pos hlt]
    · rw [if_neg hi, if_neg hi]
  have hself := hget cur
  rw [if_pos rfl] at hself
  have hwalk : ∀ u, walk (c.states.set cur st') u = walk c.states u := by
    refine walk_congr fun _ s _ g => ?_
    by_cases hs : cur = s
    · subst hs
      rw [next1, next1, step_of hst, step_of hself, hnext]
    · rw [next1, next1, step_congr (S := c.states) (by rw [hget, if_neg hs])]
  refine ⟨⟨?_, ?_, ?_, ?_, ?_, ?_, ?_, ?_, ?_, ?_, h.nodup, ?_, h.freeUses, h.root, h.reached, ?_, ?_, ?_, ?_, ?_, h.rules⟩,
    hwalk⟩
  · simpa using h.pos
  · simpa using h.len
  · intro x hx
    rcases List.mem_or_eq_of_mem_set hx with hx | hx
    · exact h.ranged x hx
    · rw [hx]; exact hR
  · intro u s hu
    simp only [List.length_set]
    rw [hwalk] at hu
    exact h.bound u s hu
  · intro u; simp only; rw [hwalk]; exact h.reach u
  · intro u x
    simp only
    rw [lookAt, hwalk]
    by_cases hu : W u
    · rw [(hW u).2 hu, Option.bind_some, rule1, step_of hself, hrule u x hu]
    · rw [hL u x hu, ← h.look, lookAt]
      cases hw : walk c.states u with
      | none => rfl
      | some s =>
        have hs : ¬ cur = s := fun hs => hu ((hW u).1 (by rw [hw, hs]))
        rw [Option.bind_some, Option.bind_some, rule1, rule1,
          step_congr (S := c.states) (by rw [hget, if_neg hs])]
  · intro u s x hu hx
    simp only at hu hx ⊢
    rw [hwalk] at hu
    rw [hget] at hx
    by_cases hs : cur = s
    · subst hs
      rw [if_pos rfl] at hx
      rw [← hheads u ((hW u).1 hu), ← Option.some.inj hx]
    · rw [if_neg hs] at hx
      rw [hH u fun hh => hs (by rw [(hW u).2 hh] at hu; exact Option.some.inj hu)]
      exact h.heads u s x hu hx
  · intro u hu
    rw [hH u fun hh => hu ((h.reach u).1 (by rw [(hW u).2 hh]; rfl))]
    exact h.noHeads u hu
  · simpa using h.usesLen
  · simpa using h.rulesLen
  · simpa using h.range
  · intro u v s hT hu hv
    simp only at hu hv
    rw [hwalk] at hu hv
    exact h.inj u v s hT hu hv
  · intro u s hu hne
    simp only at hu
    rw [hwalk] at hu
    exact h.live u s hu hne
  · intro u s hT hu hne
    simp only at hu
    rw [hwalk] at hu
    exact h.once u s hT hu hne
  · intro u s x hu hx t ht
    simp only at hu hx
    rw [hwalk] at hu
    rw [hget] at hx
    by_cases hs : cur = s
    · subst hs
      rw [if_pos rfl] at hx
      cases hx
      rcases hact t ht with ht | ht
      · exact h.active u cur st hu hst t ht
      · exact ht.1
    · rw [if_neg hs] at hx
      exact h.active u s x hu hx t ht
  · intro u s x hT hu hx t ht
    simp only at hu hx
    rw [hwalk] at hu
    rw [hget] at hx
    by_cases hs : cur = s
    · subst hs
      rw [if_pos rfl] at hx
      cases hx
      rcases hact t ht with ht | ht
      · exact h.entry u cur st hT hu hst t ht
      · exact ht.2 u hT ((hW u).1 hu)
    · rw [if_neg hs] at hx
      exact h.entry u s x hT hu hx t ht

/-- Linking. -/
theorem Bush.link (h : Bush c c.depth R L H T E) {W T' : List Nat → Prop} {X : List Nat} {cur s ref n k : Nat}
    {st x : State} {rs : List Nat} {c1 : Compiler} {l' : List Transition}
    (hW : ∀ u, walk c.states u = some cur ↔ W u) (hlen : ∀ u, W u → u.length = c.depth) (hex : ∃ u, W u)
    (hst : c.states[cur]? = some st) (hr : RefOk c ref x rs) (hl : Linked c ref c1 s x rs)
    (href : ∀ y ∈ X, (trig st.trans y).bind nextOf = if ref = stateNone then none else some ref)
    (hown : ref ≠ stateNone → ∀ u, walk c.states u = some ref → ext W X u)
    (hRT : ref ≠ stateNone → ∀ u, ext W X u → T u) (hR' : Ranged l')
    (hit : ∀ y ∈ X, ∃ t, trig l' y = some t ∧ t.next = s ∧ ruleOf t = (trig st.trans y).bind ruleOf)
    (miss : ∀ y, y ∉ X → trig l' y = trig st.trans y)
    (hmem : ∀ t ∈ l', t ∈ st.trans ∨ (t.next = s ∧
      ∀ u, T u → W u → t.first = t.last ∨ ∀ z, t.first ≤ z → z ≤ t.last → E u z))
    (hT1 : ∀ u, T u → T' u) (hT2 : ∀ u, T' u → T u ∨ ext W X u)
    (hT3 : ∀ u, T' u → ext W X u → n = 0 ∧ ∀ v, ext W X v → v = u) :
    Bush { c1 with clock := k, uses := c1.uses.set (s - 1) (n + 1), states := c1.states.set cur { st with trans := l' } }
      (c.depth + 1) (fun u => R u ∨ ext W X u) L H T' E ∧
    ∀ u, walk (c1.states.set cur { st with trans := l' }) u = some s ↔ ext W X u := by
  obtain ⟨p, hp⟩ := hex
  have hp := (hW p).2 hp
  have hcs : cur ≠ s := fun hh => hl.fresh p (hh ▸ hp)
  have hlt := h.bound p cur hp
  have hge : c.states.length ≤ c1.states.length := by rw [hl.grow]; split <;> omega
  have hs254 : s ≠ stateNone := by have := hl.lt; have := hl.len; simp only [stateNone]; omega
  have hsp := hl.pos
  have hget : ∀ i, (c1.states.set cur { st with trans := l' })[i]? =
      if cur = i then some { st with trans := l' } else if i = s then some x else c.states[i]? := by
    intro i
    rw [List.getElem?_set]
    by_cases hi : cur = i
    · subst hi; rw [if_pos rfl, if_pos rfl, if_pos (by omega)]
    · rw [if_neg hi, if_neg hi]
      by_cases hi2 : i = s
      · rw [hi2, if_pos rfl, hl.atS]
      · rw [if_neg hi2, hl.others i hi2]
  have hself := hget cur
  rw [if_pos rfl] at hself
  have hgs := hget s
  rw [if_neg hcs, if_pos rfl] at hgs
  have hn : ∀ y ∈ X, next1 c.states cur y = if ref = stateNone then none else some ref := by
    intro y hy
    rw [next1, step_of hst, href y hy]
  have hre : Rewired c.states (c1.states.set cur { st with trans := l' }) W cur X s := by
    refine ⟨hW, fun u v hu hv => by rw [hlen u hu, hlen v hv], hl.fresh, ?_, ?_, ?_, ?_, ?_⟩
    · intro y hy
      obtain ⟨t, t1, t2, _⟩ := hit y hy
      rw [next1, step_of hself]
      simp only
      rw [t1, Option.bind_some, nextOf, t2, if_neg hs254]
    · intro y hy
      obtain ⟨t, t1, _, t3⟩ := hit y hy
      rw [rule1, rule1, step_of hself, step_of hst]
      simp only
      rw [t1, Option.bind_some, t3]
    · intro y hy
      rw [step_of hself, step_of hst]
      exact miss y hy
    · intro u t ht htc y
      have hts : t ≠ s := fun hh => hl.fresh u (hh ▸ ht)
      exact step_congr (by rw [hget, if_neg (Ne.symm htc), if_neg hts]) y
    · intro z hz y
      rw [step_of hgs, hn z hz]
      rcases hr with ⟨h1, h2, _⟩ | ⟨h1, _, h3, _⟩
      · rw [if_pos h1, h2]; rfl
      · rw [if_neg h1, Option.bind_some, step_of h3]
  have hwalk := hre.walk
  have hws : ∀ u, walk (c1.states.set cur { st with trans := l' }) u = some s ↔ ext W X u := by
    intro u
    rw [hwalk]
    constructor
    · intro hu
      split at hu
      · assumption
      · exact absurd hu (hl.fresh u)
    · intro hu; rw [if_pos hu]
  have hwext : ∀ u, ext W X u → walk c.states u = if ref = stateNone then none else some ref := by
    rintro u ⟨v, y, h1, h2, rfl⟩
    rw [walk_snoc, (hW v).2 h1, Option.bind_some, hn y h2]
  have huse : ∀ i, (c1.uses.set (s - 1) (n + 1))[i]? = if s - 1 = i then some (n + 1) else c1.uses[i]? := by
    intro i
    rw [List.getElem?_set]
    split
    · rename_i hi
      rw [if_pos (List.getElem?_eq_some_iff.1 hl.usesS).1]
    · rfl
  have hkeep : ∀ u t, walk c.states u = some t → ¬ ext W X u → u ≠ [] →
      (c1.uses.set (s - 1) (n + 1))[t - 1]? = c.uses[t - 1]? := by
    intro u t ht hu hne
    have hts : t ≠ s := fun hh => hl.fresh u (hh ▸ ht)
    have htp := h.walk_pos ht hne
    rw [huse, if_neg (by omega), hl.usesOther (t - 1) (by omega)]
    intro hne' heq
    have hrp : 0 < ref := by
      rcases hr with ⟨h1, _⟩ | ⟨_, h2, _⟩
      · exact absurd h1 hne'
      · exact h2
    have : t = ref := by omega
    exact hu (hown hne' u (this ▸ ht))
  refine ⟨⟨?_, ?_, ?_, ?_, ?_, ?_, ?_, ?_, ?_, ?_, ?_, ?_, ?_, ?_, ?_, ?_, ?_, ?_, ?_, ?_, ?_⟩, hws⟩
  · simp only [List.length_set]; have := h.pos; omega
  · simp only [List.length_set]; exact hl.len
  · intro y hy
    rcases List.mem_or_eq_of_mem_set hy with hy | hy
    · obtain ⟨i, hi, hiy⟩ := List.getElem_of_mem hy
      by_cases his : i = s
      · subst his
        have : some y = some x := by rw [← hl.atS, List.getElem?_eq_getElem hi, hiy]
        rw [Option.some.inj this]
        rcases hr with ⟨_, h2, _⟩ | ⟨_, _, h3, _⟩
        · rw [h2]; exact Ranged.nil
        · exact h.ranged x (List.mem_of_getElem? h3)
      · have : c.states[i]? = some y := by rw [← hl.others i his, List.getElem?_eq_getElem hi, hiy]
        exact h.ranged y (List.mem_of_getElem? this)
    · rw [hy]; exact hR'
  · intro u t ht
    simp only [List.length_set]
    simp only at ht
    rw [hwalk] at ht
    split at ht
    · rw [← Option.some.inj ht]; exact hl.lt
    · have := h.bound u t ht; omega
  · intro u
    simp only
    rw [hwalk]
    by_cases hup : ext W X u
    · rw [if_pos hup]; simp [hup]
    · rw [if_neg hup, h.reach]; simp [hup]
  · intro u y
    simp only
    rw [hre.lookAt]
    exact h.look u y
  · intro u t y ht hy
    simp only at ht hy ⊢
    rw [hwalk] at ht
    split at ht
    · rename_i hup
      have hts := Option.some.inj ht
      subst hts
      rw [hgs] at hy
      have hxy := Option.some.inj hy
      subst hxy
      have hwu := hwext u hup
      rcases hr with ⟨h1, h2, _⟩ | ⟨h1, _, h3, _⟩
      · rw [h2, h.noHeads u]
        · rfl
        · intro hR
          rw [← h.reach, hwu, if_pos h1] at hR
          cases hR
      · rw [if_neg h1] at hwu
        exact h.heads _ _ x hwu h3
    · by_cases htc : cur = t
      · subst htc
        rw [hself] at hy
        rw [← h.heads u cur st ht hst, ← Option.some.inj hy]
      · have hts : t ≠ s := fun hh => hl.fresh u (hh ▸ ht)
        rw [hget, if_neg htc, if_neg hts] at hy
        exact h.heads u t y ht hy
  · intro u hu'
    exact h.noHeads u (fun hR => hu' (Or.inl hR))
  · simp only [List.length_set]; exact hl.usesLen
  · simp only [List.length_set]; exact hl.rulesLen
  · refine hl.perm.nodup_iff.2 ?_
    split
    · rename_i hs
      refine List.nodup_cons.2 ⟨?_, h.nodup⟩
      intro hm
      have := (h.range s hm).2
      omega
    · exact h.nodup
  · intro y hy
    simp only [List.length_set]
    have hy' := hl.perm.mem_iff.1 hy
    split at hy'
    · rename_i hs
      rcases List.mem_cons.1 hy' with hy' | hy'
      · rw [hy']; exact ⟨hl.pos, hl.lt⟩
      · have := h.range y hy'; omega
    · have := h.range y hy'; omega
  · intro y hy
    obtain ⟨hy1, hy2⟩ := hl.freed y hy
    have hr1 := h.range y (List.mem_append_right _ hy1)
    simp only
    rw [huse, if_neg (by omega), hl.usesOther (y - 1) (by omega)]
    · exact h.freeUses y hy1
    · intro hne heq
      rcases hr with ⟨h1, _⟩ | ⟨_, h2, _, _, _, _, h7⟩
      · exact hne h1
      · have : y = ref := by omega
        have h8 := h.freeUses y hy1
        rw [this, h7] at h8
        cases h8
  · exact hT1 [] h.root
  · intro u hu
    rcases hT2 u hu with hu | hu
    · exact Or.inl (h.reached u hu)
    · exact Or.inr hu
  · intro u v t hT hu hv
    simp only at hu hv
    rw [hwalk] at hu hv
    by_cases hue : ext W X u
    · rw [if_pos hue] at hu
      cases hu
      refine (hT3 u hT hue).2 v ?_
      split at hv
      · assumption
      · exact absurd hv (hl.fresh v)
    · rw [if_neg hue] at hu
      have hTu : T u := (hT2 u hT).resolve_right hue
      split at hv
      · cases hv
        exact absurd hu (hl.fresh u)
      · exact h.inj u v t hTu hu hv
  · intro u t ht hne
    simp only at ht ⊢
    rw [hwalk] at ht
    obtain ⟨ld, hld, hsd, _⟩ := hl.atDepth
    split at ht
    · rename_i hup
      rw [← Option.some.inj ht]
      refine ⟨⟨n, by rw [huse, if_pos rfl]⟩, ld, ?_, hsd⟩
      obtain ⟨v, y, h1, _, rfl⟩ := hup
      rw [List.length_append, List.length_singleton, Nat.add_sub_cancel, hlen v h1]
      exact hld
    · rename_i hup
      obtain ⟨huses, l, hll, hmem'⟩ := h.live u t ht hne
      refine ⟨by rw [hkeep u t ht hup hne]; exact huses, ?_⟩
      by_cases hdd : u.length - 1 = c.depth
      · obtain ⟨ld', hld', hk'⟩ := hl.keepDepth l (hdd ▸ hll)
        rw [hdd]
        exact ⟨ld', hld', hk' t hmem'⟩
      · rw [hl.otherDepth _ hdd]
        exact ⟨l, hll, hmem'⟩
  · intro u t hT ht hne
    simp only at ht ⊢
    rw [hwalk] at ht
    split at ht
    · rename_i hup
      rw [← Option.some.inj ht, huse, if_pos rfl, (hT3 u hT hup).1]
    · rename_i hup
      rw [hkeep u t ht hup hne]
      exact h.once u t ((hT2 u hT).resolve_right hup) ht hne
  · intro u t y ht hy q hq
    simp only at ht hy
    rw [hwalk] at ht
    split at ht
    · rename_i hup
      have hts := Option.some.inj ht
      subst hts
      rw [hgs] at hy
      have hxy := Option.some.inj hy
      subst hxy
      have hwu := hwext u hup
      rcases hr with ⟨h1, h2, _⟩ | ⟨h1, _, h3, _⟩
      · rw [h2] at hq
        simp [State.reset] at hq
      · rw [if_neg h1] at hwu
        exact h.active _ _ x hwu h3 q hq
    · by_cases htc : cur = t
      · subst htc
        rw [hself] at hy
        cases hy
        rcases hmem q hq with hq | ⟨hq, _⟩
        · exact h.active u cur st ht hst q hq
        · exact Or.inr (by rw [hq]; exact hs254)
      · have hts : t ≠ s := fun hh => hl.fresh u (hh ▸ ht)
        rw [hget, if_neg htc, if_neg hts] at hy
        exact h.active u t y ht hy q hq
  · intro u t y hT ht hy q hq
    simp only at ht hy
    rw [hwalk] at ht
    split at ht
    · rename_i hup
      have hts := Option.some.inj ht
      subst hts
      rw [hgs] at hy
      have hxy := Option.some.inj hy
      subst hxy
      have hwu := hwext u hup
      rcases hr with ⟨h1, h2, _⟩ | ⟨h1, _, h3, _⟩
      · rw [h2] at hq
        simp [State.reset] at hq
      · rw [if_neg h1] at hwu
        exact h.entry _ _ x (hRT h1 u hup) hwu h3 q hq
    · rename_i hup
      have hTu : T u := (hT2 u hT).resolve_right hup
      by_cases htc : cur = t
      · subst htc
        rw [hself] at hy
        cases hy
        rcases hmem q hq with hq | ⟨_, hq⟩
        · exact h.entry u cur st hTu ht hst q hq
        · exact hq u hTu ((hW u).1 ht)
      · have hts : t ≠ s := fun hh => hl.fresh u (hh ▸ ht)
        rw [hget, if_neg htc, if_neg hts] at hy
        exact h.entry u t y hTu ht hy q hq
  · intro i l hil y hy
    simp only at hil ⊢
    have hold : ∀ i' l0, c.byDepth[i']? = some l0 → y ∈ l0 → y ≠ s ∧
        ∃ rs, c1.rules[y - 1]? = some rs ∧ rs ≠ [] ∧ ∀ q ∈ rs, q ≤ c1.ruleIndex ∧ (c.depth ≤ i' → q < c1.ruleIndex) := by
      intro i' l0 hl0 hy0
      have hys : y ≠ s := by
        intro hh
        exact hl.notIn (hh ▸ mem_flatten hl0 hy0)
      have hyp := (h.range y (List.mem_append_left _ (mem_flatten hl0 hy0))).1
      refine ⟨hys, ?_⟩
      rw [hl.rulesOther (y - 1) (by omega), hl.ruleIndex]
      exact h.rules i' l0 hl0 y hy0
    by_cases hid : i = c.depth
    · obtain ⟨ld, hld, _, hback⟩ := hl.atDepth
      rw [hid, hld] at hil
      have := Option.some.inj hil
      subst this
      rcases hback y hy with hys | ⟨l0, hl0, hy0⟩
      · subst hys
        refine ⟨_, hl.rulesS, by simp, ?_⟩
        intro q hq
        rw [hl.ruleIndex]
        refine ⟨?_, by omega⟩
        rcases List.mem_append.1 hq with hq | hq
        · rcases hr with ⟨_, _, h3⟩ | ⟨_, _, _, _, _, h6, _⟩
          · rw [h3] at hq; cases hq
          · exact Nat.le_of_lt (h6 q hq)
        · rw [List.mem_singleton.1 hq]; exact Nat.le_refl _
      · obtain ⟨_, rs', h1, h2, h3⟩ := hold _ l0 hl0 hy0
        exact ⟨rs', h1, h2, fun q hq => ⟨(h3 q hq).1, by omega⟩⟩
    · rw [hl.otherDepth i hid] at hil
      obtain ⟨_, rs', h1, h2, h3⟩ := hold _ l hil hy
      exact ⟨rs', h1, h2, fun q hq => ⟨(h3 q hq).1, fun hi => (h3 q hq).2 (by omega)⟩⟩

/-- Freeing what is not in use. -/
theorem Bush.free (h : Bush c d R L H T E) (hd : c.depth ≤ c.byDepth.length) :
    ∃ F B, freeUnused c = .ok { c with freed := F, byDepth := B } ∧ B.length = c.byDepth.length ∧
      Bush { c with freed := F, byDepth := B } d R L H T E := by
  unfold freeUnused
  by_cases h0 : c.depth = 0
  · rw [if_pos h0]
    exact ⟨c.freed, c.byDepth, rfl, rfl, h⟩
  rw [if_neg h0]
  have hlt : c.depth - 1 < c.byDepth.length := by omega
  have hl := List.getElem?_eq_getElem hlt
  generalize c.byDepth[c.depth - 1] = l at hl
  have hul := h.usesLen
  rw [idx_eq_ok.2 hl, Res.ok_bind, unused_ok _ l _, Res.ok_bind]
  rotate_left
  · intro s h1 h2
    exact ⟨_, List.getElem?_eq_getElem (by omega)⟩
  · intro s hs
    have := h.range s (List.mem_append_left _ (mem_flatten hl hs))
    omega
  simp only [Res.pure_eq]
  generalize hK : (l.filter fun s => !decide (c.uses[s - 1]? = some 0)) = keep
  generalize hF : (l.filter fun s => decide (c.uses[s - 1]? = some 0)) = free
  have hperm : l.Perm (free ++ keep) := by
    rw [← hK, ← hF]
    exact (List.filter_append_perm _ l).symm
  have hset : ((c.byDepth.set (c.depth - 1) keep).flatten ++ (c.freed ++ free)).Perm (c.byDepth.flatten ++ c.freed) := by
    have h1 : ((c.byDepth.set (c.depth - 1) keep).set (c.depth - 1) l).flatten.Perm
        (free ++ (c.byDepth.set (c.depth - 1) keep).flatten) :=
      set_flatten (x := keep) (by rw [List.getElem?_set, if_pos rfl, if_pos hlt]) hperm
    have hself : c.byDepth.set (c.depth - 1) l = c.byDepth := by
      obtain ⟨h2, h3⟩ := List.getElem?_eq_some_iff.1 hl
      rw [← h3, List.set_getElem_self]
    rw [List.set_set, hself] at h1
    refine List.Perm.trans ?_ (h1.symm.append_right _)
    refine List.Perm.trans ?_ (List.perm_append_comm.append_right _)
    rw [List.append_assoc]
    exact List.perm_append_comm.append_left _
  have hsub : ∀ s ∈ keep, s ∈ l := by intro s hs; rw [← hK] at hs; exact (List.mem_filter.1 hs).1
  refine ⟨_, _, rfl, by simp, h.pos, h.len, h.ranged, h.bound, h.reach, h.look, h.heads, h.noHeads, h.usesLen,
    h.rulesLen, hset.nodup_iff.2 h.nodup, fun s hs => h.range s (hset.mem_iff.1 hs), ?_, h.root, h.reached, h.inj, ?_,
    h.once, h.active, h.entry, ?_⟩
  · intro s hs
    rcases List.mem_append.1 hs with hs | hs
    · exact h.freeUses s hs
    · rw [← hF] at hs
      simpa using (List.mem_filter.1 hs).2
  · intro u s hu hne
    obtain ⟨⟨n, h1⟩, l0, h2, h3⟩ := h.live u s hu hne
    refine ⟨⟨n, h1⟩, ?_⟩
    simp only [List.getElem?_set]
    by_cases hi : c.depth - 1 = u.length - 1
    · rw [if_pos hi, if_pos hlt]
      rw [← hi, hl] at h2
      have := Option.some.inj h2
      subst this
      refine ⟨keep, rfl, ?_⟩
      rw [← hK]
      exact List.mem_filter.2 ⟨h3, by simp [h1]⟩
    · rw [if_neg hi]
      exact ⟨l0, h2, h3⟩
  · intro i l0 hi s hs
    simp only [List.getElem?_set] at hi
    split at hi
    · rename_i hdi
      have := Option.some.inj hi
      subst this
      exact h.rules i l (by rw [← hdi]; exact hl) s (hsub s hs)
    · exact h.rules i l0 hi s hs

end TreeModel
