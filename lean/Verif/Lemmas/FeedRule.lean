import Verif.Lemmas.FeedInv

/-!
# Feeding a rule without sets before its last element
-/

namespace TreeModel
open Go Helpers ScannerModel

variable {c : Compiler} {d : Nat} {R : List Nat → Prop} {L : List Nat → Nat → Option Nat} {H : List Nat → Nat × Nat}

/-- A bound on the size of the states. -/
def Small (c : Compiler) (n : Nat) : Prop := c.states.length ≤ n + 1 ∧ ∀ st ∈ c.states, st.trans.length ≤ n

theorem unused_ok (h : ∀ s, 0 < s → s < c.uses.length + 1 → ∃ n, c.uses[s - 1]? = some n) :
    ∀ l : List Nat, (∀ s ∈ l, 0 < s ∧ s < c.uses.length + 1) → unused c l =
      .ok (l.filter fun s => decide (c.uses[s - 1]? = some 0), l.filter fun s => !decide (c.uses[s - 1]? = some 0))
  | [], _ => rfl
  | s :: l, hl => by
    have hs := hl s (List.mem_cons_self ..)
    obtain ⟨n, hn⟩ := h s hs.1 hs.2
    unfold unused
    rw [if_neg (by omega), idx_eq_ok.2 hn, Res.ok_bind,
      unused_ok h l fun x hx => hl x (List.mem_cons_of_mem _ hx), Res.ok_bind]
    by_cases h0 : n = 0
    · simp [hn, h0]
    · simp [hn, h0]

theorem Inv.free (h : Inv c d R L H) (hd : c.depth ≤ c.byDepth.length) :
    ∃ F B, freeUnused c = .ok { c with freed := F, byDepth := B } ∧ B.length = c.byDepth.length ∧
      Inv { c with freed := F, byDepth := B } d R L H := by
  unfold freeUnused
  by_cases h0 : c.depth = 0
  · rw [if_pos h0]
    exact ⟨c.freed, c.byDepth, rfl, rfl, h⟩
  rw [if_neg h0]
  have hlt : c.depth - 1 < c.byDepth.length := by omega
  have hl := List.getElem?_eq_getElem hlt
  generalize c.byDepth[c.depth - 1] = l at hl
  have hul := h.usesLen
  rw [idx_eq_ok.2 hl, Res.ok_bind, unused_ok _ l _, Res.ok_bind]
  rotate_left
  · intro s h1 h2
    exact ⟨_, List.getElem?_eq_getElem (by omega)⟩
  · intro s hs
    have := h.range s (List.mem_append_left _ (mem_flatten hl hs))
    omega
  simp only [Res.pure_eq]
  generalize hK : (l.filter fun s => !decide (c.uses[s - 1]? = some 0)) = keep
  generalize hF : (l.filter fun s => decide (c.uses[s - 1]? = some 0)) = free
  have hperm : l.Perm (free ++ keep) := by
    rw [← hK, ← hF]
    exact (List.filter_append_perm _ l).symm
  have hset : ((c.byDepth.set (c.depth - 1) keep).flatten ++ (c.freed ++ free)).Perm (c.byDepth.flatten ++ c.freed) := by
    have h1 : ((c.byDepth.set (c.depth - 1) keep).set (c.depth - 1) l).flatten.Perm
        (free ++ (c.byDepth.set (c.depth - 1) keep).flatten) :=
      set_flatten (x := keep) (by rw [List.getElem?_set, if_pos rfl, if_pos hlt]) hperm
    have hself : c.byDepth.set (c.depth - 1) l = c.byDepth := by
      obtain ⟨h2, h3⟩ := List.getElem?_eq_some_iff.1 hl
      rw [← h3, List.set_getElem_self]
    rw [List.set_set, hself] at h1
    refine List.Perm.trans ?_ (h1.symm.append_right _)
    refine List.Perm.trans ?_ (List.perm_append_comm.append_right _)
    rw [List.append_assoc]
    exact List.perm_append_comm.append_left _
  have hsub : ∀ s ∈ keep, s ∈ l := by intro s hs; rw [← hK] at hs; exact (List.mem_filter.1 hs).1
  refine ⟨_, _, rfl, by simp, h.pos, h.len, h.single, h.bound, h.inj, h.reach, h.look, h.heads, h.noHeads, h.usesLen,
    h.rulesLen, hset.nodup_iff.2 h.nodup, fun s hs => h.range s (hset.mem_iff.1 hs), ?_, ?_, ?_⟩
  · intro s hs
    rcases List.mem_append.1 hs with hs | hs
    · exact h.freeUses s hs
    · rw [← hF] at hs
      simpa using (List.mem_filter.1 hs).2
  · intro u s hu hne
    obtain ⟨h1, l0, h2, h3⟩ := h.live u s hu hne
    refine ⟨h1, ?_⟩
    simp only [List.getElem?_set]
    by_cases hi : c.depth - 1 = u.length - 1
    · rw [if_pos hi, if_pos hlt]
      rw [← hi, hl] at h2
      have := Option.some.inj h2
      subst this
      refine ⟨keep, rfl, ?_⟩
      rw [← hK]
      exact List.mem_filter.2 ⟨h3, by simp [h1]⟩
    · rw [if_neg hi]
      exact ⟨l0, h2, h3⟩
  · intro i l0 hi s hs
    simp only [List.getElem?_set] at hi
    split at hi
    · rename_i hdi
      have := Option.some.inj hi
      subst this
      exact h.rules i l (by rw [← hdi]; exact hl) s (hsub s hs)
    · exact h.rules i l0 hi s hs

/-- Feeding an element that is not the last. -/
theorem feedElem_link {k : Kind} {mv : Nat → Bool} {sets : Sets} {g hl : Nat} (h : Inv c c.depth R L H) {p : List Nat}
    {cur : Nat} (hp : walk c.states p = some cur) (hlen : p.length = c.depth) (hto : c.toStates = [])
    (hd : c.depth ≤ c.byDepth.length) (hw : g + 1 < 2 ^ (8 * k.width)) (hg : g ≠ k.none) (h255 : c.depth + 1 < 256) :
    (feedElem k mv sets hl ruleNone g setNone [cur] c = .err hitLimits ∧ ∀ n, Small c n → 253 ≤ n) ∨
    ∃ s c', feedElem k mv sets hl ruleNone g setNone [cur] c = .ok ([s], c') ∧
      Inv c' c'.depth (fun u => R u ∨ u = p ++ [g]) L (fun u => if u = p then headUpd hl (H u) else H u) ∧
      walk c'.states (p ++ [g]) = some s ∧ c'.depth = c.depth + 1 ∧ c'.toStates = [] ∧
      c'.depth ≤ c'.byDepth.length ∧ c'.ruleIndex = c.ruleIndex ∧ c'.compiling = c.compiling ∧
      ∀ n, Small c n → Small c' (n + 1) := by
  obtain ⟨st, hst, hsingle⟩ := h.state hp
  have hlt := h.bound p cur hp
  have h1 := h.head hp hst hl
  -- the compiler with the new bounds
  let c0 : Compiler := { c with states := c.states.set cur (st.updateHead hl) }
  have h1 : Inv c0 c0.depth R L _ := h1
  have hst0 : c0.states[cur]? = some (st.updateHead hl) := by
    show (c.states.set cur (st.updateHead hl))[cur]? = _
    rw [List.getElem?_set, if_pos rfl, if_pos hlt]
  have hp0 : walk c0.states p = some cur := by
    have := (h1.reach p).2 ((h.reach p).1 (by rw [hp]; rfl))
    have hw' : walk c0.states p = walk c.states p := by
      refine walk_congr ?_ p
      intro u s _ x
      rw [next1, next1, step, step]
      by_cases hs : s = cur
      · subst hs; rw [hst0, hst]; rfl
      · show ((c.states.set cur (st.updateHead hl))[s]?.bind _).bind _ = _
        rw [List.getElem?_set, if_neg (Ne.symm hs)]
    rw [hw', hp]
  have hstart : feedElem k mv sets hl ruleNone g setNone [cur] c = (do
      let c ← appendRange k mv c0 cur g g ruleNone
      let c ← freeUnused c
      if u8 (c.depth + 1) = 0 then .panic brokenCode else
      return (c.toStates, { c with depth := u8 (c.depth + 1), toStates := [] })) := by
    unfold feedElem feedStates feedStates feedState
    rw [idx_eq_ok.2 hst, Res.ok_bind, setAt_lt hlt, Res.ok_bind, if_pos hg, if_neg (by simp)]
    cases appendRange k mv c0 cur g g ruleNone <;> rfl
  have hsmall0 : ∀ n, Small c n → Small c0 n := by
    intro n hn
    refine ⟨by simpa [c0] using hn.1, ?_⟩
    intro y hy
    rcases List.mem_or_eq_of_mem_set hy with hy | hy
    · exact hn.2 y hy
    · rw [hy]; exact hn.2 st (List.mem_of_getElem? hst)
  have hs0 : Single (st.updateHead hl).trans := hsingle
  rw [hstart]
  rcases appendRange_link (mv := mv) hst0 hs0 hw with ⟨he, h254⟩ | ⟨n, herr, hok⟩
  · left
    rw [he]
    refine ⟨rfl, fun n hn => ?_⟩
    have := hn.2 st (List.mem_of_getElem? hst)
    have h3 : (st.updateHead hl).trans.length = st.trans.length := rfl
    omega
  · have h2 := h1.clock n
    obtain ⟨x, rs, hr⟩ := h1.refOk hp0 hlen hst0 g
    have hr' : RefOk { c0 with clock := n } (oldNext (st.updateHead hl) g) x rs := hr
    rcases stateLinker_ok (c := { c0 with clock := n }) h2.stock hto hd hr' mv with ⟨he, h254, _⟩ | ⟨c1, s, m, he, hl1⟩
    · left
      rw [herr _ he]
      refine ⟨rfl, fun n hn => ?_⟩
      have := hn.1
      have h3 : c.states.length = 254 := by
        rw [← h254]
        exact (List.length_set ..).symm
      omega
    · right
      have hcs : cur ≠ s := fun hh => hl1.fresh p (hh ▸ hp0)
      obtain ⟨l', hu, hll, hap⟩ := hok c1 s m he (by rw [hl1.others cur hcs]; exact hst0)
      obtain ⟨hi, hws⟩ := h2.link hp0 hlen hst0 hr' hl1 hu
      have hd1 : c1.depth < c1.byDepth.length := by
        obtain ⟨l, hl2, _⟩ := hl1.atDepth
        have := (List.getElem?_eq_some_iff.1 hl2).1
        rw [hl1.depth]
        exact this
      have hdep : c1.depth = c.depth := hl1.depth
      obtain ⟨F, B, hf, hB, hfi⟩ := hi.free (Nat.le_of_lt hd1)
      rw [hap, Res.ok_bind, hf, Res.ok_bind]
      have hu8 : u8 (c1.depth + 1) = c.depth + 1 := by
        rw [hdep, u8, Nat.mod_eq_of_lt (by omega)]
      have hne : ¬ u8 (c1.depth + 1) = 0 := by rw [hu8]; omega
      simp only [Res.pure_eq]
      rw [if_neg hne, hl1.toStates, hu8]
      refine ⟨s, _, rfl, ?_, hws, rfl, rfl, ?_, hl1.ruleIndex, hl1.compiling, ?_⟩
      · exact ⟨hfi.pos, hfi.len, hfi.single, hfi.bound, hfi.inj, hfi.reach, hfi.look, hfi.heads, hfi.noHeads,
          hfi.usesLen, hfi.rulesLen, hfi.nodup, hfi.range, hfi.freeUses, hfi.live, hfi.rules⟩
      · simp only at hB ⊢
        omega
      · intro n hn
        have hn0 := hsmall0 n hn
        refine ⟨?_, ?_⟩
        · simp only [List.length_set]
          have := hl1.grow
          have := hl1.le
          have h4 := hn0.1
          simp only at *
          split at this <;> omega
        · intro y hy
          rcases List.mem_or_eq_of_mem_set hy with hy | hy
          · obtain ⟨i, hilt, hiy⟩ := List.getElem_of_mem hy
            by_cases his : i = s
            · subst his
              have : some y = some x := by rw [← hl1.atS, List.getElem?_eq_getElem hilt, hiy]
              rw [Option.some.inj this]
              rcases hr with ⟨_, h5, _⟩ | ⟨_, _, h5, _⟩
              · rw [h5]; simp [State.reset]
              · exact Nat.le_succ_of_le (hn0.2 x (List.mem_of_getElem? h5))
            · have : c0.states[i]? = some y := by
                rw [← show c1.states[i]? = c0.states[i]? from hl1.others i his, List.getElem?_eq_getElem hilt, hiy]
              exact Nat.le_succ_of_le (hn0.2 y (List.mem_of_getElem? this))
          · rw [hy]
            have := hn0.2 _ (List.mem_of_getElem? hst0)
            simp only at hll ⊢
            omega

/-- Setting the rule at elements one after the other. -/
theorem appendRanges_mark {k : Kind} {mv : Nat → Bool} {r : Nat} (hr : r ≠ ruleNone) {p : List Nat} {cur : Nat} :
    ∀ (ls : List Nat) {c : Compiler} {L : List Nat → Nat → Option Nat}, Inv c d R L H → walk c.states p = some cur →
    (∀ g ∈ ls, g + 1 < 2 ^ (8 * k.width)) →
    (appendRanges k mv cur r (ls.map fun v => (v, v)) c = .err hitLimits ∧ ∀ n, Small c n → 253 < n + ls.length) ∨
    ∃ n S, appendRanges k mv cur r (ls.map fun v => (v, v)) c = .ok { c with clock := n, states := S } ∧
      Inv { c with clock := n, states := S } d R
        (fun u x => if u = p ∧ x ∈ ls then (L u x).or (some r) else L u x) H ∧
      ∀ m, Small c m → Small { c with clock := n, states := S } (m + ls.length)
  | [], c, L, h, _, _ => Or.inr ⟨c.clock, c.states, rfl, by simpa using h, fun m hm => hm⟩
  | g :: ls, c, L, h, hp, hw => by
    obtain ⟨st, hst, hsingle⟩ := h.state hp
    rw [List.map_cons, appendRanges]
    rcases appendRange_rule (mv := mv) hst hsingle (hw g (by simp)) hr with ⟨he, h254⟩ | ⟨n, l', hu, hll, he⟩
    · left
      rw [he]
      refine ⟨rfl, fun n hn => ?_⟩
      have := hn.2 st (List.mem_of_getElem? hst)
      simp only [List.length_cons]
      omega
    · obtain ⟨hi, hp'⟩ := h.mark hp hst hr hu n
      have hsm : ∀ m, Small c m →
          Small { c with clock := n, states := c.states.set cur { st with trans := l' } } (m + 1) := by
        intro m hm
        refine ⟨by simp only [List.length_set]; have := hm.1; omega, ?_⟩
        intro y hy
        rcases List.mem_or_eq_of_mem_set hy with hy | hy
        · exact Nat.le_succ_of_le (hm.2 y hy)
        · rw [hy]
          have := hm.2 _ (List.mem_of_getElem? hst)
          simp only
          omega
      rw [he, Res.ok_bind]
      rcases appendRanges_mark hr ls hi hp' (fun x hx => hw x (by simp [hx])) with ⟨h1, h2⟩ | ⟨n', S, h1, h2, h3⟩
      · refine Or.inl ⟨h1, fun m hm => ?_⟩
        have := h2 _ (hsm m hm)
        simp only [List.length_cons]
        omega
      · refine Or.inr ⟨n', S, h1, h2.congr (fun u => Iff.rfl) ?_ (fun u => rfl), fun m hm => ?_⟩
        · intro u x
          simp only [List.mem_cons]
          by_cases hup : u = p
          · by_cases hxg : x = g
            · by_cases hxl : x ∈ ls
              · subst hxg
                simp [hup, hxl]
              · simp [hup, hxg] at hxl ⊢
            · simp [hup, hxg]
          · simp [hup]
        · have := h3 _ (hsm m hm)
          rw [List.length_cons, Nat.add_comm ls.length 1, ← Nat.add_assoc]
          exact this

/-- The elements that the last element of a rule stands for. -/
def LastOf (k : Kind) (sets : Sets) (last : Nat × Nat) (ls : List Nat) : Prop :=
  (last.2 = setNone ∧ last.1 ≠ k.none ∧ ls = [last.1]) ∨
  (last.1 = k.none ∧ last.2 ≠ setNone ∧ ∃ rs l, sets last.2 = .ok (rs.map fun v => (v, v), l) ∧ ls = rs ++ l)

/-- Feeding the last element. -/
theorem feedElem_rule {k : Kind} {mv : Nat → Bool} {sets : Sets} {hl r : Nat} {last : Nat × Nat} {ls : List Nat}
    (h : Inv c c.depth R L H) {p : List Nat}
    {cur : Nat} (hp : walk c.states p = some cur) (hto : c.toStates = []) (hr : r ≠ ruleNone)
    (hd : c.depth ≤ c.byDepth.length) (hls : LastOf k sets last ls) (hw : ∀ g ∈ ls, g + 1 < 2 ^ (8 * k.width))
    (h255 : c.depth + 1 < 256) :
    (feedElem k mv sets hl r last.1 last.2 [cur] c = .err hitLimits ∧ ∀ n, Small c n → 253 < n + ls.length) ∨
    ∃ c', feedElem k mv sets hl r last.1 last.2 [cur] c = .ok ([], c') ∧
      Inv c' c.depth R (fun u x => if u = p ∧ x ∈ ls then (L u x).or (some r) else L u x)
        (fun u => if u = p then headUpd hl (H u) else H u) ∧
      c'.ruleIndex = c.ruleIndex ∧ c'.compiling = c.compiling ∧ ∀ n, Small c n → Small c' (n + ls.length) := by
  obtain ⟨st, hst, hsingle⟩ := h.state hp
  have hlt := h.bound p cur hp
  have h1 := h.head hp hst hl
  let c0 : Compiler := { c with states := c.states.set cur (st.updateHead hl) }
  have h1 : Inv c0 c0.depth R L _ := h1
  have hst0 : c0.states[cur]? = some (st.updateHead hl) := by
    show (c.states.set cur (st.updateHead hl))[cur]? = _
    rw [List.getElem?_set, if_pos rfl, if_pos hlt]
  have hp0 : walk c0.states p = some cur := by
    have hw' : walk c0.states p = walk c.states p := by
      refine walk_congr ?_ p
      intro u s _ x
      rw [next1, next1, step, step]
      by_cases hs : s = cur
      · subst hs; rw [hst0, hst]; rfl
      · show ((c.states.set cur (st.updateHead hl))[s]?.bind _).bind _ = _
        rw [List.getElem?_set, if_neg (Ne.symm hs)]
    rw [hw', hp]
  have hstart : feedElem k mv sets hl r last.1 last.2 [cur] c = (do
      let c ← appendRanges k mv cur r (ls.map fun v => (v, v)) c0
      let c ← freeUnused c
      if u8 (c.depth + 1) = 0 then .panic brokenCode else
      return (c.toStates, { c with depth := u8 (c.depth + 1), toStates := [] })) := by
    unfold feedElem feedStates feedStates feedState
    rw [idx_eq_ok.2 hst, Res.ok_bind, setAt_lt hlt, Res.ok_bind]
    rcases hls with ⟨e1, e2, e3⟩ | ⟨e1, e2, rs, l, e3, e4⟩
    · rw [if_pos e2, if_neg (by simp [e1]), e3, List.map_cons, List.map_nil]
      unfold appendRanges appendRanges
      simp only
      show (do let c ← (do let c ← appendRange k mv c0 cur last.1 last.1 r; _); _) = _
      cases appendRange k mv c0 cur last.1 last.1 r <;> rfl
    · rw [if_neg (by simp [e1]), if_neg e2, e3, Res.ok_bind, e4, List.map_append]
      show (do let c ← (do let c ← appendRanges k mv cur r _ c0; _); _) = _
      cases appendRanges k mv cur r ((rs.map fun v => (v, v)) ++ l.map fun v => (v, v)) c0 <;> rfl
  have hsmall0 : ∀ n, Small c n → Small c0 n := by
    intro n hn
    refine ⟨by simpa [c0] using hn.1, ?_⟩
    intro y hy
    rcases List.mem_or_eq_of_mem_set hy with hy | hy
    · exact hn.2 y hy
    · rw [hy]; exact hn.2 st (List.mem_of_getElem? hst)
  rw [hstart]
  rcases appendRanges_mark (mv := mv) hr ls h1 hp0 hw with ⟨he, h254⟩ | ⟨n, S, he, hi, hsm⟩
  · left
    rw [he]
    exact ⟨rfl, fun n hn => h254 n (hsmall0 n hn)⟩
  · right
    obtain ⟨F, B, hf, hB, hfi⟩ := hi.free hd
    rw [he, Res.ok_bind, hf, Res.ok_bind]
    have hu8 : u8 (c.depth + 1) = c.depth + 1 := by rw [u8, Nat.mod_eq_of_lt (by omega)]
    have hne : ¬ u8 (c0.depth + 1) = 0 := by show ¬ u8 (c.depth + 1) = 0; rw [hu8]; omega
    simp only [Res.pure_eq]
    rw [if_neg hne, show c0.toStates = [] from hto]
    refine ⟨_, rfl, ?_, rfl, rfl, fun m hm => hsm m (hsmall0 m hm)⟩
    exact ⟨hfi.pos, hfi.len, hfi.single, hfi.bound, hfi.inj, hfi.reach, hfi.look, hfi.heads, hfi.noHeads,
      hfi.usesLen, hfi.rulesLen, hfi.nodup, hfi.range, hfi.freeUses, hfi.live, hfi.rules⟩

end TreeModel
