import Verif.Lemmas.Chains

/-!
# Feeding a rule that starts apart from the others
-/

namespace TreeModel
open Go Helpers ScannerModel

theorem Neat.free {c : Compiler} {d : Nat} (h : Neat c d) (hd : c.depth ≤ c.byDepth.length) : freeUnused c = .ok c := by
  unfold freeUnused
  by_cases h0 : c.depth = 0
  · rw [if_pos h0]
  rw [if_neg h0]
  have hlt : c.depth - 1 < c.byDepth.length := by omega
  have hl := List.getElem?_eq_getElem hlt
  generalize hg : c.byDepth[c.depth - 1] = l at hl
  have hul := h.usesLen
  rw [idx_eq_ok.2 hl, Res.ok_bind, unused_ok _ l _, Res.ok_bind]
  rotate_left
  · intro s h1 h2
    exact ⟨_, List.getElem?_eq_getElem (by omega)⟩
  · intro s hs
    have := h.range s (mem_flatten hl hs)
    omega
  have h1 : ∀ s ∈ l, ¬ c.uses[s - 1]? = some 0 := by
    intro s hs e
    obtain ⟨n, hn⟩ := h.used s (mem_flatten hl hs)
    rw [hn] at e
    simp at e
  have e1 : (l.filter fun s => decide (c.uses[s - 1]? = some 0)) = [] := by
    rw [List.filter_eq_nil_iff]
    intro s hs
    simpa using h1 s hs
  have e2 : (l.filter fun s => !decide (c.uses[s - 1]? = some 0)) = l := by
    rw [List.filter_eq_self]
    intro s hs
    simpa using h1 s hs
  simp only [Res.pure_eq]
  rw [e1, e2, List.append_nil, ← hg, List.set_getElem_self]

/-- The ranges that an element stands for. -/
def LevelOf (k : Kind) (sets : Sets) (x : Nat × Nat) (P : List (Nat × Nat)) : Prop :=
  (x.2 = setNone ∧ x.1 ≠ k.none ∧ P = [(x.1, x.1)]) ∨
    (x.1 = k.none ∧ x.2 ≠ setNone ∧ ∃ rs l, sets x.2 = .ok (rs, l) ∧ P = rs ++ l.map fun v => (v, v))

theorem feedElem_level {k : Kind} {mv : Nat → Bool} {sets : Sets} {hl rule cur : Nat} {x : Nat × Nat}
    {P : List (Nat × Nat)} (hx : LevelOf k sets x P) {c : Compiler} {st : State} (hst : c.states[cur]? = some st) :
    feedElem k mv sets hl rule x.1 x.2 [cur] c = (do
      let c ← appendRanges k mv cur rule P { c with states := c.states.set cur (st.updateHead hl) }
      let c ← freeUnused c
      if u8 (c.depth + 1) = 0 then .panic brokenCode else
      return (c.toStates, { c with depth := u8 (c.depth + 1), toStates := [] })) := by
  have hlt : cur < c.states.length := (List.getElem?_eq_some_iff.1 hst).1
  unfold feedElem feedStates feedStates feedState
  rw [idx_eq_ok.2 hst, Res.ok_bind, setAt_lt hlt, Res.ok_bind]
  generalize ({ c with states := c.states.set cur (st.updateHead hl) } : Compiler) = c0
  rcases hx with ⟨e1, e2, e3⟩ | ⟨e1, e2, rs, l, e3, e4⟩
  · rw [if_pos e2, if_neg (by simp [e1]), e3]
    unfold appendRanges appendRanges
    show _ = (do let c ← (do let c ← appendRange k mv c0 cur x.1 x.1 rule; _); _)
    cases appendRange k mv c0 cur x.1 x.1 rule <;> rfl
  · rw [if_neg (by simp [e1]), if_neg e2, e3, Res.ok_bind, e4]
    show (do let c ← (do let c ← appendRanges k mv cur rule _ c0; _); _) = _
    cases appendRanges k mv cur rule (rs ++ l.map fun v => (v, v)) c0 <;> rfl

/-- The states from `n` on, or the rule `r`, recognise what is left of the rule with index `q`. -/
def Leads (S : List State) (h q : Nat) : List (List (Nat × Nat)) → Nat → Nat → Prop
  | [], r, n => r = q ∧ n = stateNone
  | P :: Ps, r, n => r = ruleNone ∧ 0 < n ∧ n ≠ stateNone ∧ ∃ st r' n', S[n]? = some st ∧
    (st.minHead, st.maxHead) = headUpd h (255, 0) ∧ st.trans = insAll [] P r' n' ∧ Leads S h q Ps r' n'

theorem Leads.mono {S S' : List State} (hS : ∀ i st, 0 < i → S[i]? = some st → S'[i]? = some st) {h q : Nat} :
    ∀ {Ps : List (List (Nat × Nat))} {r n : Nat}, Leads S h q Ps r n → Leads S' h q Ps r n
  | [], _, _, hl => hl
  | _ :: _, _, _, ⟨h1, h2, h3, st, r', n', h4, h5, h6, h7⟩ =>
    ⟨h1, h2, h3, st, r', n', hS _ _ h2 h4, h5, h6, Leads.mono hS h7⟩

theorem heads_upd {st : State} {h : Nat} :
    ((st.updateHead h).minHead, (st.updateHead h).maxHead) = headUpd h (st.minHead, st.maxHead) := rfl

theorem small_set {c : Compiler} {cur n m : Nat} {st : State} (h : Small c n) (hm : n ≤ m) (hs : st.trans.length ≤ m) :
    ∀ x ∈ c.states.set cur st, x.trans.length ≤ m := by
  intro x hx
  rcases List.mem_or_eq_of_mem_set hx with hx | hx
  · have := h.2 x hx; omega
  · rw [hx]; exact hs

/-- Feeding a rule through states of its own. -/
theorem feedList_chain {k : Kind} {mv : Nat → Bool} {sets : Sets} {hl : Nat} :
    ∀ (rest : List ((Nat × Nat) × List (Nat × Nat))) (x : (Nat × Nat) × List (Nat × Nat)) {c : Compiler} {cur : Nat}
    {st : State}, (∀ y ∈ x :: rest, LevelOf k sets y.1 y.2 ∧ y.2 ≠ []) → Level k st.trans x.2 →
    (∀ y ∈ rest, Level k [] y.2) → Neat c c.depth → c.toStates = [] → c.depth ≤ c.byDepth.length →
    c.states[cur]? = some st → c.depth + (rest.length + 1) < 256 → c.ruleIndex ≠ ruleNone →
    (feedList k mv sets hl ((x :: rest).map (·.1)) [cur] c = .err hitLimits ∧
      ∀ n, Small c n → 253 < n + ((x :: rest).map (·.2.length)).sum) ∨
    ∃ c' st' r n d, feedList k mv sets hl ((x :: rest).map (·.1)) [cur] c = .ok c' ∧ Neat c' d ∧
      c'.ruleIndex = c.ruleIndex ∧ c'.compiling = c.compiling ∧ c.states.length ≤ c'.states.length ∧
      (∀ i, i < c.states.length → i ≠ cur → c'.states[i]? = c.states[i]?) ∧
      c'.states[cur]? = some st' ∧ (st'.minHead, st'.maxHead) = headUpd hl (st.minHead, st.maxHead) ∧
      st'.trans = insAll st.trans x.2 r n ∧ Leads c'.states hl c.ruleIndex (rest.map (·.2)) r n ∧
      ∀ n, Small c n → Small c' (n + ((x :: rest).map (·.2.length)).sum)
  | [], x, c, cur, st, hx, hlv, _, h, hto, hd, hst, h255, hri => by
    have hlt : cur < c.states.length := (List.getElem?_eq_some_iff.1 hst).1
    obtain ⟨hx1, hx2⟩ := hx x (by simp)
    simp only [List.map_cons, List.map_nil, feedList, List.sum_cons, List.sum_nil, Nat.add_zero]
    rw [if_pos trivial, feedElem_level hx1 hst]
    have hR := h.ranged st (List.mem_of_getElem? hst)
    rcases appendRanges_rules (mv := mv) (k := k) (cur := cur) hri x.2
        (c := { c with states := c.states.set cur (st.updateHead hl) }) (st := st.updateHead hl)
        (by simp [hlt]) hR hlv with ⟨he, hf⟩ | ⟨n, hR2, he⟩
    · left
      rw [he]
      refine ⟨rfl, fun n hn => ?_⟩
      have h1 := hn.2 st (List.mem_of_getElem? hst)
      have h2 : (st.updateHead hl).trans = st.trans := rfl
      rw [h2] at hf
      omega
    · right
      rw [he, Res.ok_bind]
      have hset : (c.states.set cur (st.updateHead hl)).set cur
          { st.updateHead hl with trans := insAll (st.updateHead hl).trans x.2 c.ruleIndex stateNone } =
          c.states.set cur { st.updateHead hl with trans := insAll st.trans x.2 c.ruleIndex stateNone } := by
        rw [List.set_set]; rfl
      simp only [hset]
      generalize hst' : ({ st.updateHead hl with trans := insAll st.trans x.2 c.ruleIndex stateNone } : State) = st'
      have htr : st'.trans = insAll st.trans x.2 c.ruleIndex stateNone := by rw [← hst']
      have hN : Neat { c with clock := n, states := c.states.set cur st' } c.depth :=
        ⟨by simpa using h.pos, by simpa using h.len, h.freed, by simpa using h.usesLen, by simpa using h.rulesLen,
          h.nodup, by simpa using h.range, h.used, h.rules, fun y hy => by
            rcases List.mem_or_eq_of_mem_set hy with hy | hy
            · exact h.ranged y hy
            · rw [hy, htr]; exact hR2⟩
      rw [hN.free hd, Res.ok_bind]
      simp only [Res.pure_eq]
      have hu8 : u8 (c.depth + 1) = c.depth + 1 := by simp only [List.length_nil] at h255; unfold u8; omega
      rw [if_neg (by rw [hu8]; omega), Res.ok_bind]
      refine ⟨_, st', c.ruleIndex, stateNone, c.depth, rfl, ?_, rfl, rfl, by simp, ?_, by simp [hlt], ?_, htr, ⟨rfl, rfl⟩, ?_⟩
      · exact ⟨hN.pos, hN.len, hN.freed, hN.usesLen, hN.rulesLen, hN.nodup, hN.range, hN.used, hN.rules, hN.ranged⟩
      · intro i _ hi
        simp only
        rw [List.getElem?_set_ne (Ne.symm hi)]
      · rw [← hst']; exact heads_upd
      · intro m hm
        refine ⟨by have := hm.1; simp only [List.length_set]; omega, small_set hm (by omega) ?_⟩
        rw [htr, insAll_length]
        have := hm.2 st (List.mem_of_getElem? hst)
        omega
  | z :: rest, x, c, cur, st, hx, hlv, hrest, h, hto, hd, hst, h255, hri => by
    have hlt : cur < c.states.length := (List.getElem?_eq_some_iff.1 hst).1
    obtain ⟨hx1, hx2⟩ := hx x (by simp)
    rw [List.map_cons, feedList, if_neg (by simp), feedElem_level hx1 hst]
    have hN0 : Neat { c with states := c.states.set cur (st.updateHead hl) } c.depth :=
      ⟨by simpa using h.pos, by simpa using h.len, h.freed, by simpa using h.usesLen, by simpa using h.rulesLen,
        h.nodup, by simpa using h.range, h.used, h.rules, fun y hy => by
          rcases List.mem_or_eq_of_mem_set hy with hy | hy
          · exact h.ranged y hy
          · rw [hy]; exact h.ranged st (List.mem_of_getElem? hst)⟩
    have hR := h.ranged st (List.mem_of_getElem? hst)
    have hxl : 0 < x.2.length := List.length_pos_iff.2 hx2
    rcases appendRanges_links (mv := mv) (k := k) (cur := cur) (ps := x.2) hN0 hto hd (st := st.updateHead hl)
        (by simp [hlt]) hR hlv hx2 with ⟨he, hf⟩ | ⟨hs, n, B, hR2, he, b1, b2, b3⟩
    · left
      rw [he]
      refine ⟨rfl, fun n hn => ?_⟩
      simp only [List.map_cons, List.sum_cons]
      rcases hf with hf | hf
      · have := hn.1
        simp only [List.length_set] at hf
        omega
      · have h1 := hn.2 st (List.mem_of_getElem? hst)
        have h2 : (st.updateHead hl).trans = st.trans := rfl
        rw [h2] at hf
        omega
    · simp only [List.length_set] at hs hR2 he b1 b2
      rw [he, Res.ok_bind]
      have hset : (c.states.set cur (st.updateHead hl)).set cur
          { st.updateHead hl with trans := insAll (st.updateHead hl).trans x.2 ruleNone c.states.length } =
          c.states.set cur { st.updateHead hl with trans := insAll st.trans x.2 ruleNone c.states.length } := by
        rw [List.set_set]; rfl
      simp only [hset]
      generalize hst' : ({ st.updateHead hl with trans := insAll st.trans x.2 ruleNone c.states.length } : State) = st'
      have htr : st'.trans = insAll st.trans x.2 ruleNone c.states.length := by rw [← hst']
      obtain ⟨l, l1, l2, l3⟩ := b2
      have hul := h.usesLen
      have hrl := h.rulesLen
      have hpos := h.pos
      have hB : ∀ s, s ∈ B.flatten ↔ s = c.states.length ∨ s ∈ c.byDepth.flatten := by
        intro s; rw [b1.mem_iff]; simp
      have hN : Neat { c with
          clock := n, uses := c.uses ++ [x.2.length], rules := c.rules ++ [[c.ruleIndex]], byDepth := B
          toStates := [c.states.length], states := c.states.set cur st' ++ [State.reset] } (c.depth + 1) := by
        refine ⟨by simp, by simp; omega, h.freed, by simp; omega, by simp; omega, ?_, ?_, ?_, ?_, ?_⟩
        · show B.flatten.Nodup
          rw [b1.nodup_iff, List.nodup_cons]
          exact ⟨fun hm => by have := (h.range _ hm).2; omega, h.nodup⟩
        · intro s hs'
          simp only [List.length_append, List.length_set, List.length_singleton]
          rcases (hB s).1 hs' with rfl | hs'
          · omega
          · have := h.range s hs'; omega
        · intro s hs'
          simp only
          rcases (hB s).1 hs' with rfl | hs'
          · refine ⟨x.2.length - 1, ?_⟩
            rw [List.getElem?_append_right (by omega), show c.states.length - 1 - c.uses.length = 0 by omega,
              show x.2.length - 1 + 1 = x.2.length by omega]
            rfl
          · obtain ⟨m, hm⟩ := h.used s hs'
            have := h.range s hs'
            exact ⟨m, by rw [List.getElem?_append_left (by omega)]; exact hm⟩
        · intro i li hli s hs'
          simp only at hli ⊢
          have hold : ∀ l0, c.byDepth[i]? = some l0 → s ∈ l0 → ∃ r, (c.rules ++ [[c.ruleIndex]])[s - 1]? = some [r] ∧
              r ≤ c.ruleIndex ∧ (c.depth + 1 ≤ i → r < c.ruleIndex) := by
            intro l0 h0 h1
            obtain ⟨r, r1, r2, r3⟩ := h.rules i l0 h0 s h1
            have := h.range s (mem_flatten h0 h1)
            exact ⟨r, by rw [List.getElem?_append_left (by omega)]; exact r1, r2, fun _ => r3 (by omega)⟩
          by_cases hi : i = c.depth
          · subst hi
            rw [l1] at hli
            cases hli
            rcases l3 s hs' with rfl | ⟨l0, h0, h1⟩
            · refine ⟨c.ruleIndex, ?_, Nat.le_refl _, fun _ => by omega⟩
              rw [List.getElem?_append_right (by omega), show c.states.length - 1 - c.rules.length = 0 by omega]
              rfl
            · exact hold l0 h0 h1
          · rw [b3 i hi] at hli
            exact hold li hli hs'
        · intro y hy
          rcases List.mem_append.1 hy with hy | hy
          · rcases List.mem_or_eq_of_mem_set hy with hy | hy
            · exact h.ranged y hy
            · rw [hy, htr]; exact hR2
          · rw [List.mem_singleton.1 hy]; exact Ranged.nil
      have hBd : c.depth + 1 ≤ B.length := (List.getElem?_eq_some_iff.1 l1).1
      rw [hN.free (show c.depth ≤ B.length by omega), Res.ok_bind]
      simp only [Res.pure_eq]
      have hu8 : u8 (c.depth + 1) = c.depth + 1 := by simp only [List.length_cons] at h255; unfold u8; omega
      simp only [hu8]
      rw [if_neg (by omega), Res.ok_bind]
      simp only
      have hN1 : Neat { c with
          clock := n, uses := c.uses ++ [x.2.length], rules := c.rules ++ [[c.ruleIndex]], byDepth := B
          toStates := [], states := c.states.set cur st' ++ [State.reset], depth := c.depth + 1 } (c.depth + 1) :=
        ⟨hN.pos, hN.len, hN.freed, hN.usesLen, hN.rulesLen, hN.nodup, hN.range, hN.used, hN.rules, hN.ranged⟩
      have hsm : ∀ m, Small c m → Small { c with
          clock := n, uses := c.uses ++ [x.2.length], rules := c.rules ++ [[c.ruleIndex]], byDepth := B
          toStates := [], states := c.states.set cur st' ++ [State.reset], depth := c.depth + 1 } (m + x.2.length) := by
        intro m hm
        refine ⟨by have := hm.1; simp; omega, fun y hy => ?_⟩
        rcases List.mem_append.1 hy with hy | hy
        · refine small_set hm (by omega) ?_ y hy
          rw [htr, insAll_length]
          have := hm.2 st (List.mem_of_getElem? hst)
          omega
        · rw [List.mem_singleton.1 hy]; exact Nat.zero_le _
      rcases feedList_chain (k := k) (mv := mv) (sets := sets) (hl := hl) rest z (cur := c.states.length)
          (st := State.reset) (fun y hy => hx y (List.mem_cons_of_mem _ hy)) (hrest z (by simp))
          (fun y hy => hrest y (by simp [hy])) hN1 rfl hBd
          (by simp only; rw [List.getElem?_append_right (by simp)]; simp)
          (by simp only [List.length_cons] at h255 ⊢; omega) hri with
        ⟨he', hf'⟩ | ⟨c', st2, r, n', d, he', hN2, e1, e2, e3, e4, e5, e6, e7, e8, e9⟩
      · left
        refine ⟨he', fun m hm => ?_⟩
        have := hf' _ (hsm m hm)
        rw [List.map_cons, List.sum_cons]
        omega
      · right
        simp only [List.length_append, List.length_set, List.length_singleton] at e3 e4
        refine ⟨c', st', ruleNone, c.states.length, d, he', hN2, e1, e2, by omega, ?_, ?_, ?_, htr, ?_, ?_⟩
        · intro i hi hne
          rw [e4 i (by omega) (by omega), List.getElem?_append_left (by simpa using hi),
            List.getElem?_set_ne (Ne.symm hne)]
        · rw [e4 cur (by omega) (by omega), List.getElem?_append_left (by simpa using hlt)]
          simp [hlt]
        · rw [← hst']; exact heads_upd
        · exact ⟨rfl, hpos, by unfold stateNone; omega, st2, r, n', e5, e6, e7, e8⟩
        · intro m hm
          have := e9 _ (hsm m hm)
          rw [List.map_cons, List.sum_cons, ← Nat.add_assoc]
          exact this

end TreeModel
