import Verif.Lemmas.FeedStep

/-!
# The invariant of the compiler after each part of an element
-/

namespace TreeModel
open Go Helpers ScannerModel

variable {c : Compiler} {d : Nat} {R : List Nat → Prop} {L : List Nat → Nat → Option Nat} {H : List Nat → Nat × Nat}

theorem step_of {S : List State} {s : Nat} {st : State} (h : S[s]? = some st) (g : Nat) :
    step S s g = trig st.trans g := by rw [step, h]; rfl

theorem step_congr {S S' : List State} {s : Nat} (h : S'[s]? = S[s]?) (g : Nat) : step S' s g = step S s g := by
  rw [step, step, h]

/-- The new bounds on head lengths. -/
def headUpd (n : Nat) (b : Nat × Nat) : Nat × Nat := (if n < b.1 then n else b.1, if n > b.2 then n else b.2)

theorem Inv.congr (h : Inv c d R L H) {R' : List Nat → Prop} {L' : List Nat → Nat → Option Nat}
    {H' : List Nat → Nat × Nat} (hR : ∀ u, R u ↔ R' u) (hL : ∀ u x, L u x = L' u x) (hH : ∀ u, H u = H' u) :
    Inv c d R' L' H' := by
  have h1 : R = R' := funext fun u => propext (hR u)
  have h2 : L = L' := funext fun u => funext fun x => hL u x
  have h3 : H = H' := funext hH
  rw [← h1, ← h2, ← h3]
  exact h

/-- Replacing a state by one with the same transitions. -/
theorem Inv.head (h : Inv c d R L H) {p : List Nat} {cur : Nat} {st : State} (hp : walk c.states p = some cur)
    (hst : c.states[cur]? = some st) (n : Nat) :
    Inv { c with states := c.states.set cur (st.updateHead n) } d R L
      (fun u => if u = p then headUpd n (H u) else H u) := by
  have hlt := h.bound p cur hp
  have hget : ∀ i, (c.states.set cur (st.updateHead n))[i]? = if cur = i then some (st.updateHead n) else c.states[i]? := by
    intro i
    rw [List.getElem?_set]
    by_cases hi : cur = i
    · subst hi; rw [if_pos rfl, if_pos rfl, if_pos hlt]
    · rw [if_neg hi, if_neg hi]
  have hstep : ∀ s g, step (c.states.set cur (st.updateHead n)) s g = step c.states s g := by
    intro s g
    by_cases hs : cur = s
    · subst hs
      rw [step_of hst, step_of (by rw [hget, if_pos rfl])]
      rfl
    · exact step_congr (by rw [hget, if_neg hs]) g
  have hnext : ∀ s g, next1 (c.states.set cur (st.updateHead n)) s g = next1 c.states s g := by
    intro s g; rw [next1, next1, hstep]
  have hwalk : ∀ u, walk (c.states.set cur (st.updateHead n)) u = walk c.states u :=
    walk_congr fun _ s _ g => hnext s g
  have hlook : ∀ u x, lookAt (c.states.set cur (st.updateHead n)) u x = lookAt c.states u x := by
    intro u x
    rw [lookAt, lookAt, hwalk]
    congr 1
    funext s
    rw [rule1, rule1, hstep]
  have hRp : R p := (h.reach p).1 (by rw [hp]; rfl)
  refine ⟨?_, ?_, ?_, ?_, h.inj.congr hwalk, ?_, ?_, ?_, ?_, ?_, ?_, h.nodup, ?_, h.freeUses, ?_, h.rules⟩
  · simpa using h.pos
  · simpa using h.len
  · intro x hx
    rcases List.mem_or_eq_of_mem_set hx with hx | hx
    · exact h.single x hx
    · rw [hx]; exact h.single st (List.mem_of_getElem? hst)
  · intro u s hu
    simp only [List.length_set]
    rw [hwalk] at hu
    exact h.bound u s hu
  · intro u; simp only; rw [hwalk]; exact h.reach u
  · intro u x; simp only; rw [hlook]; exact h.look u x
  · intro u s x hu hx
    simp only at hu hx ⊢
    rw [hwalk] at hu
    rw [hget] at hx
    by_cases hs : cur = s
    · subst hs
      rw [if_pos rfl] at hx
      have hup := h.inj _ _ _ hu hp
      rw [if_pos hup, ← h.heads u cur st hu hst, ← Option.some.inj hx]
      rfl
    · rw [if_neg hs] at hx
      rw [if_neg (by intro hup; subst hup; rw [hp] at hu; exact hs (Option.some.inj hu))]
      exact h.heads u s x hu hx
  · intro u hu
    rw [if_neg (by intro hup; subst hup; exact hu hRp)]
    exact h.noHeads u hu
  · simpa using h.usesLen
  · simpa using h.rulesLen
  · simpa using h.range
  · intro u s hu hne
    simp only at hu
    rw [hwalk] at hu
    exact h.live u s hu hne

/-- Setting a rule. -/
theorem Inv.mark (h : Inv c d R L H) {p : List Nat} {cur g r : Nat} {st : State} (hp : walk c.states p = some cur)
    (hst : c.states[cur]? = some st) (hr : r ≠ ruleNone) {l' : List Transition}
    (hu : Upsert st.trans l' g ⟨g, g, if oldRule st g = ruleNone then r else oldRule st g, oldNext st g⟩) (n : Nat) :
    Inv { c with clock := n, states := c.states.set cur { st with trans := l' } } d R
      (fun u x => if u = p ∧ x = g then (L u x).or (some r) else L u x) H ∧
    walk (c.states.set cur { st with trans := l' }) p = some cur := by
  have hlt := h.bound p cur hp
  have hget : ∀ i, (c.states.set cur { st with trans := l' })[i]? = if cur = i then some { st with trans := l' } else c.states[i]? := by
    intro i
    rw [List.getElem?_set]
    by_cases hi : cur = i
    · subst hi; rw [if_pos rfl, if_pos rfl, if_pos hlt]
    · rw [if_neg hi, if_neg hi]
  have hself := hget cur
  rw [if_pos rfl] at hself
  have hm : Marked c.states (c.states.set cur { st with trans := l' }) cur g r := by
    refine ⟨?_, ?_, ?_, ?_⟩
    · intro u s _ x
      by_cases hs : cur = s
      · subst hs
        rw [next1, next1, step_of hst, step_of hself]
        by_cases hx : x = g
        · subst hx
          simp only
          rw [hu.hit, Option.bind_some]
          unfold oldNext nextOf
          cases ht : trig st.trans x with
          | none => simp
          | some t => simp
        · simp only
          rw [hu.miss x hx]
      · rw [next1, next1, step_congr (S' := c.states.set cur _) (S := c.states) (by rw [hget, if_neg hs])]
    · rw [rule1, rule1, step_of hst, step_of hself]
      simp only
      rw [hu.hit, Option.bind_some]
      unfold oldRule ruleOf
      cases ht : trig st.trans g with
      | none => simp [hr]
      | some t =>
        by_cases h0 : t.rule = ruleNone
        · simp [h0, hr]
        · simp [h0]
    · intro x hx
      rw [rule1, rule1, step_of hst, step_of hself]
      simp only
      rw [hu.miss x hx]
    · intro u s _ hs x
      rw [rule1, rule1, step_congr (S' := c.states.set cur _) (S := c.states) (by rw [hget, if_neg (Ne.symm hs)])]
  refine ⟨⟨?_, ?_, ?_, ?_, h.inj.congr hm.walk, ?_, ?_, ?_, h.noHeads, ?_, ?_, h.nodup, ?_, h.freeUses, ?_, h.rules⟩,
    by rw [hm.walk]; exact hp⟩
  · simpa using h.pos
  · simpa using h.len
  · intro x hx
    rcases List.mem_or_eq_of_mem_set hx with hx | hx
    · exact h.single x hx
    · rw [hx]; exact hu.single
  · intro u s hu
    simp only [List.length_set]
    rw [hm.walk] at hu
    exact h.bound u s hu
  · intro u; simp only; rw [hm.walk]; exact h.reach u
  · intro u x
    simp only
    rw [hm.lookAt h.inj hp, h.look]
  · intro u s x hu hx
    simp only at hu hx ⊢
    rw [hm.walk] at hu
    rw [hget] at hx
    by_cases hs : cur = s
    · subst hs
      rw [if_pos rfl] at hx
      rw [← h.heads u cur st hu hst, ← Option.some.inj hx]
    · rw [if_neg hs] at hx
      exact h.heads u s x hu hx
  · simpa using h.usesLen
  · simpa using h.rulesLen
  · simpa using h.range
  · intro u s hu hne
    simp only at hu
    rw [hm.walk] at hu
    exact h.live u s hu hne

/-- The reference of a transition is fit for linking. -/
theorem Inv.refOk (h : Inv c c.depth R L H) {p : List Nat} {cur : Nat} {st : State}
    (hp : walk c.states p = some cur) (hlen : p.length = c.depth) (hst : c.states[cur]? = some st) (g : Nat) :
    ∃ x rs, RefOk c (oldNext st g) x rs := by
  have hn : next1 c.states cur g = (trig st.trans g).bind nextOf := by rw [next1, step_of hst]
  by_cases h0 : oldNext st g = stateNone
  · exact ⟨_, _, Or.inl ⟨h0, rfl, rfl⟩⟩
  · have hwalk : walk c.states (p ++ [g]) = some (oldNext st g) := by
      rw [walk_snoc, hp, Option.bind_some, hn]
      unfold oldNext at h0 ⊢
      cases ht : trig st.trans g with
      | none => rw [ht] at h0; simp at h0
      | some t =>
        rw [ht] at h0
        simp only [Option.map_some, Option.getD_some] at h0
        simp [nextOf, h0]
    obtain ⟨huse, l, hl, hmem⟩ := h.live _ _ hwalk (by simp)
    simp only [List.length_append, List.length_singleton, Nat.add_sub_cancel, hlen] at hl
    obtain ⟨rs, hrs, hne, hq⟩ := h.rules _ l hl _ hmem
    have hlt := h.bound _ _ hwalk
    exact ⟨_, rs, Or.inr ⟨h0, h.walk_pos hwalk (by simp), List.getElem?_eq_getElem hlt, hrs, hne,
      fun q hq' => (hq q hq').2 (Nat.le_refl _), huse⟩⟩

/-- Linking. -/
theorem Inv.link (h : Inv c c.depth R L H) {p : List Nat} {cur g s : Nat} {st x : State} {rs : List Nat}
    {c1 : Compiler} (hp : walk c.states p = some cur) (hlen : p.length = c.depth) (hst : c.states[cur]? = some st)
    (hr : RefOk c (oldNext st g) x rs) (hl : Linked c (oldNext st g) c1 s x rs) {l' : List Transition}
    (hu : Upsert st.trans l' g ⟨g, g, oldRule st g, s⟩) :
    Inv { c1 with states := c1.states.set cur { st with trans := l' } } (c.depth + 1)
      (fun u => R u ∨ u = p ++ [g]) L H ∧
    walk (c1.states.set cur { st with trans := l' }) (p ++ [g]) = some s := by
  have hcs : cur ≠ s := fun hh => hl.fresh p (hh ▸ hp)
  have hlt := h.bound p cur hp
  have hge : c.states.length ≤ c1.states.length := by rw [hl.grow]; split <;> omega
  have hs254 : s ≠ stateNone := by have := hl.lt; have := hl.len; simp only [stateNone]; omega
  have hget : ∀ i, (c1.states.set cur { st with trans := l' })[i]? =
      if cur = i then some { st with trans := l' } else if i = s then some x else c.states[i]? := by
    intro i
    rw [List.getElem?_set]
    by_cases hi : cur = i
    · subst hi; rw [if_pos rfl, if_pos rfl, if_pos (by omega)]
    · rw [if_neg hi, if_neg hi]
      by_cases hi2 : i = s
      · rw [hi2, if_pos rfl, hl.atS]
      · rw [if_neg hi2, hl.others i hi2]
  have hself := hget cur
  rw [if_pos rfl] at hself
  have hgs := hget s
  rw [if_neg hcs, if_pos rfl] at hgs
  have hn : next1 c.states cur g = if oldNext st g = stateNone then none else some (oldNext st g) := by
    rw [next1, step_of hst]
    unfold oldNext
    cases trig st.trans g <;> simp [nextOf]
  have hre : Relinked c.states (c1.states.set cur { st with trans := l' }) p cur g s := by
    refine ⟨hp, hl.fresh, ?_, ?_, ?_, ?_, ?_⟩
    · rw [next1, step_of hself]
      simp only
      rw [hu.hit, Option.bind_some]
      simp [nextOf, hs254]
    · rw [rule1, rule1, step_of hself, step_of hst]
      simp only
      rw [hu.hit, Option.bind_some]
      unfold oldRule ruleOf
      cases trig st.trans g <;> simp
    · intro y hy
      rw [step_of hself, step_of hst]
      exact hu.miss y hy
    · intro u t ht htc y
      have hts : t ≠ s := fun hh => hl.fresh u (hh ▸ ht)
      exact step_congr (by rw [hget, if_neg (Ne.symm htc), if_neg hts]) y
    · intro y
      rw [step_of hgs, hn]
      rcases hr with ⟨h1, h2, _⟩ | ⟨h1, _, h3, _⟩
      · rw [if_pos h1, h2]; rfl
      · rw [if_neg h1, Option.bind_some, step_of h3]
  have hwalk := hre.walk h.inj
  have hws : walk (c1.states.set cur { st with trans := l' }) (p ++ [g]) = some s := by rw [hwalk, if_pos rfl]
  have hwref : oldNext st g ≠ stateNone → walk c.states (p ++ [g]) = some (oldNext st g) := by
    intro hne
    rw [walk_snoc, hp, Option.bind_some, hn, if_neg hne]
  refine ⟨⟨?_, ?_, ?_, ?_, hre.inj h.inj, ?_, ?_, ?_, ?_, ?_, ?_, ?_, ?_, ?_, ?_, ?_⟩, hws⟩
  · simp only [List.length_set]; have := h.pos; omega
  · simp only [List.length_set]; exact hl.len
  · intro y hy
    rcases List.mem_or_eq_of_mem_set hy with hy | hy
    · obtain ⟨i, hi, hiy⟩ := List.getElem_of_mem hy
      by_cases his : i = s
      · subst his
        have : some y = some x := by rw [← hl.atS, List.getElem?_eq_getElem hi, hiy]
        rw [Option.some.inj this]
        rcases hr with ⟨_, h2, _⟩ | ⟨_, _, h3, _⟩
        · rw [h2]; exact Single.nil
        · exact h.single x (List.mem_of_getElem? h3)
      · have : c.states[i]? = some y := by rw [← hl.others i his, List.getElem?_eq_getElem hi, hiy]
        exact h.single y (List.mem_of_getElem? this)
    · rw [hy]; exact hu.single
  · intro u t ht
    simp only [List.length_set]
    simp only at ht
    rw [hwalk] at ht
    split at ht
    · rw [← Option.some.inj ht]; exact hl.lt
    · have := h.bound u t ht; omega
  · intro u
    simp only
    rw [hwalk]
    by_cases hup : u = p ++ [g]
    · rw [if_pos hup]; simp [hup]
    · rw [if_neg hup, h.reach]; simp [hup]
  · intro u y
    simp only
    rw [hre.lookAt h.inj]
    exact h.look u y
  · intro u t y ht hy
    simp only at ht hy ⊢
    rw [hwalk] at ht
    split at ht
    · rename_i hup
      have hts := Option.some.inj ht
      subst hts
      rw [hgs] at hy
      have hxy := Option.some.inj hy
      subst hxy
      rcases hr with ⟨h1, h2, _⟩ | ⟨h1, _, h3, _⟩
      · rw [h2, h.noHeads u]
        · rfl
        · intro hR
          rw [← h.reach, hup, walk_snoc, hp, Option.bind_some, hn, if_pos h1] at hR
          cases hR
      · rw [hup]
        exact h.heads _ _ x (hwref h1) h3
    · by_cases htc : cur = t
      · subst htc
        rw [hself] at hy
        rw [← h.heads u cur st ht hst, ← Option.some.inj hy]
      · have hts : t ≠ s := fun hh => hl.fresh u (hh ▸ ht)
        rw [hget, if_neg htc, if_neg hts] at hy
        exact h.heads u t y ht hy
  · intro u hu'
    exact h.noHeads u (fun hR => hu' (Or.inl hR))
  · simp only [List.length_set]; exact hl.usesLen
  · simp only [List.length_set]; exact hl.rulesLen
  · refine hl.perm.nodup_iff.2 ?_
    split
    · rename_i hs
      refine List.nodup_cons.2 ⟨?_, h.nodup⟩
      intro hm
      have := (h.range s hm).2
      omega
    · exact h.nodup
  · intro y hy
    simp only [List.length_set]
    have hy' := hl.perm.mem_iff.1 hy
    split at hy'
    · rename_i hs
      rcases List.mem_cons.1 hy' with hy' | hy'
      · rw [hy']; exact ⟨hl.pos, hl.lt⟩
      · have := h.range y hy'; omega
    · have := h.range y hy'; omega
  · intro y hy
    obtain ⟨hy1, hy2⟩ := hl.freed y hy
    have hr1 := h.range y (List.mem_append_right _ hy1)
    have hp1 := hl.pos
    simp only
    rw [hl.usesOther (y - 1) (by omega)]
    · exact h.freeUses y hy1
    · intro hne heq
      have hrp : 0 < oldNext st g := by
        rcases hr with ⟨h1, _⟩ | ⟨_, h2, _⟩
        · exact absurd h1 hne
        · exact h2
      have : y = oldNext st g := by omega
      exact h.not_freed hy1 (this ▸ hwref hne)
  · intro u t ht hne
    simp only at ht ⊢
    rw [hwalk] at ht
    obtain ⟨ld, hld, hsd, _⟩ := hl.atDepth
    split at ht
    · rename_i hup
      rw [← Option.some.inj ht]
      refine ⟨hl.usesS, ld, ?_, hsd⟩
      rw [hup, List.length_append, List.length_singleton, Nat.add_sub_cancel, hlen]
      exact hld
    · rename_i hup
      obtain ⟨huse, l, hll, hmem⟩ := h.live u t ht hne
      have hts : t ≠ s := fun hh => hl.fresh u (hh ▸ ht)
      have htp := h.walk_pos ht hne
      have hsp := hl.pos
      refine ⟨?_, ?_⟩
      · rw [hl.usesOther (t - 1) (by omega)]
        · exact huse
        · intro hne' heq
          have hrp : 0 < oldNext st g := by
            rcases hr with ⟨h1, _⟩ | ⟨_, h2, _⟩
            · exact absurd h1 hne'
            · exact h2
          have : t = oldNext st g := by omega
          exact hup (h.inj _ _ _ ht (this ▸ hwref hne'))
      · by_cases hdd : u.length - 1 = c.depth
        · obtain ⟨ld', hld', hkeep⟩ := hl.keepDepth l (hdd ▸ hll)
          rw [hdd]
          exact ⟨ld', hld', hkeep t hmem⟩
        · rw [hl.otherDepth _ hdd]
          exact ⟨l, hll, hmem⟩
  · intro i l hil y hy
    simp only at hil ⊢
    have hold : ∀ i' l0, c.byDepth[i']? = some l0 → y ∈ l0 → y ≠ s ∧
        ∃ rs, c1.rules[y - 1]? = some rs ∧ rs ≠ [] ∧ ∀ q ∈ rs, q ≤ c1.ruleIndex ∧ (c.depth ≤ i' → q < c1.ruleIndex) := by
      intro i' l0 hl0 hy0
      have hys : y ≠ s := by
        intro hh
        exact hl.notIn (hh ▸ mem_flatten hl0 hy0)
      have hyp := (h.range y (List.mem_append_left _ (mem_flatten hl0 hy0))).1
      have hsp := hl.pos
      refine ⟨hys, ?_⟩
      rw [hl.rulesOther (y - 1) (by omega), hl.ruleIndex]
      exact h.rules i' l0 hl0 y hy0
    by_cases hid : i = c.depth
    · obtain ⟨ld, hld, _, hback⟩ := hl.atDepth
      rw [hid, hld] at hil
      have := Option.some.inj hil
      subst this
      rcases hback y hy with hys | ⟨l0, hl0, hy0⟩
      · subst hys
        refine ⟨_, hl.rulesS, by simp, ?_⟩
        intro q hq
        rw [hl.ruleIndex]
        refine ⟨?_, by omega⟩
        rcases List.mem_append.1 hq with hq | hq
        · rcases hr with ⟨_, _, h3⟩ | ⟨_, _, _, _, _, h6, _⟩
          · rw [h3] at hq; cases hq
          · exact Nat.le_of_lt (h6 q hq)
        · rw [List.mem_singleton.1 hq]; exact Nat.le_refl _
      · obtain ⟨_, rs', h1, h2, h3⟩ := hold _ l0 hl0 hy0
        exact ⟨rs', h1, h2, fun q hq => ⟨(h3 q hq).1, by omega⟩⟩
    · rw [hl.otherDepth i hid] at hil
      obtain ⟨_, rs', h1, h2, h3⟩ := hold _ l hil hy
      exact ⟨rs', h1, h2, fun q hq => ⟨(h3 q hq).1, fun hi => (h3 q hq).2 (by omega)⟩⟩

end TreeModel
