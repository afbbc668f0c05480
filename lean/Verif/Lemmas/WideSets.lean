import Verif.Lemmas.FeedStep
import Verif.Spec.SampleTester
import Mathlib.Data.List.Perm.Subperm

/-!
# Sets with more elements than a state can have transitions
-/

namespace TreeModel
open Go Helpers ScannerModel

/-- Setting a rule at elements one after the other. -/
theorem appendRanges_rule {k : Kind} {mv : Nat → Bool} {state rule : Nat} (hr : rule ≠ ruleNone) :
    ∀ (l : List Nat) (c : Compiler) (st : State), c.states[state]? = some st → Single st.trans →
    (∀ g ∈ l, g + 1 < 2 ^ (8 * k.width)) →
    appendRanges k mv state rule (l.map fun v => (v, v)) c = .err hitLimits ∨
    ∃ c' st', appendRanges k mv state rule (l.map fun v => (v, v)) c = .ok c' ∧ c'.states[state]? = some st' ∧
      Single st'.trans ∧ (∀ g, (trig st.trans g).isSome → (trig st'.trans g).isSome) ∧
      ∀ g ∈ l, (trig st'.trans g).isSome
  | [], c, st, hst, hS, _ => Or.inr ⟨c, st, rfl, hst, hS, fun _ h => h, by simp⟩
  | g :: l, c, st, hst, hS, hw => by
    rw [List.map_cons, appendRanges]
    rcases appendRange_rule (mv := mv) hst hS (hw g (by simp)) hr with ⟨he, _⟩ | ⟨n, l', hu, _, he⟩
    · left
      rw [he]
      rfl
    · rw [he, Res.ok_bind]
      have hlt : state < c.states.length := (List.getElem?_eq_some_iff.1 hst).1
      rcases appendRanges_rule hr l
          { c with clock := n, states := c.states.set state { st with trans := l' } } { st with trans := l' }
          (by rw [List.getElem?_set_self hlt]) hu.single (fun x hx => hw x (by simp [hx])) with h | ⟨c', st', h1, h2, h3, h4, h5⟩
      · exact Or.inl h
      · have hg : (trig l' g).isSome := by rw [hu.hit]; rfl
        refine Or.inr ⟨c', st', h1, h2, h3, fun x hx => h4 x ?_, fun x hx => ?_⟩
        · by_cases e : x = g
          · exact e ▸ hg
          · simp only
            rw [hu.miss x e]
            exact hx
        · rcases List.mem_cons.1 hx with rfl | hx
          · exact h4 _ hg
          · exact h5 x hx

/-- There is no room for more than 254 different elements. -/
theorem appendRanges_wide {k : Kind} {mv : Nat → Bool} {state rule : Nat} (hr : rule ≠ ruleNone) {l : List Nat}
    {c : Compiler} {st : State} (hst : c.states[state]? = some st) (hS : Single st.trans)
    (hw : ∀ g ∈ l, g + 1 < 2 ^ (8 * k.width)) (hn : l.Nodup) (hl : 254 < l.length) :
    appendRanges k mv state rule (l.map fun v => (v, v)) c = .err hitLimits := by
  rcases appendRanges_rule (mv := mv) hr l c st hst hS hw with h | ⟨c', st', -, -, hs, -, hin⟩
  · exact h
  · have hsub : l.Subperm (st'.trans.map (·.first)) := List.subperm_of_subset hn fun g hg => by
      obtain ⟨t, ht⟩ := Option.isSome_iff_exists.1 (hin g hg)
      obtain ⟨h1, h2⟩ := (trig_some hs).1 ht
      exact List.mem_map.2 ⟨t, h1, h2⟩
    have := hsub.length_le
    rw [List.length_map] at this
    have := hs.len
    omega

/-- The last element of a rule is a set with more than 254 elements, listed or as ranges of one. -/
theorem feedElem_wide {k : Kind} {mv : Nat → Bool} {sets : Sets} {hl rule g state : Nat} {froms rs l : List Nat}
    {c : Compiler} {st : State} (hr : rule ≠ ruleNone) (hst : c.states[state]? = some st) (hS : Single st.trans)
    (hg : g ≠ setNone) (hs : sets g = .ok (rs.map fun v => (v, v), l)) (hw : ∀ g ∈ rs ++ l, g + 1 < 2 ^ (8 * k.width))
    (hn : (rs ++ l).Nodup) (hl' : 254 < (rs ++ l).length) : feedElem k mv sets hl rule k.none g (state :: froms) c = .err hitLimits := by
  have hlt : state < c.states.length := (List.getElem?_eq_some_iff.1 hst).1
  unfold feedElem feedStates feedState
  rw [idx_eq_ok.2 hst, Res.ok_bind, setAt_lt hlt, Res.ok_bind]
  simp only
  rw [if_neg (by simp), if_neg hg, hs, Res.ok_bind]
  simp only
  rw [← List.map_append, appendRanges_wide hr (st := st.updateHead hl) (by simp [hlt]) hS hw hn hl']
  rfl

/-- A rule with only that set. -/
theorem feedAll_wide {mv : Nat → Bool} {sets : Sets} {rs l : List Nat} {c : Compiler} (hc : c.compiling = true)
    (he : c.states = []) (hs : sets 0 = .ok (rs.map fun v => (v, v), l)) (hw : ∀ g ∈ rs ++ l, g < 65535)
    (hn : (rs ++ l).Nodup) (hl : 254 < (rs ++ l).length) :
    feedAll glyphKind mv sets [(Sample.onlySet.bytes Spec.word16, 0)] c = .err hitLimits := by
  obtain ⟨S, h1, h2, S', h3, h4⟩ : ∃ S, start glyphKind (Sample.onlySet.bytes Spec.word16) = .ok S ∧
      hasNext S = true ∧ ∃ S', next glyphKind S = .ok (S', glyphKind.none, 0) ∧ hasNext S' = false := by
    exact ⟨⟨Sample.onlySet.bytes Spec.word16, 9, 1, 1, 0, 0, 1, 0⟩, by decide +kernel, by decide +kernel,
      ⟨Sample.onlySet.bytes Spec.word16, 11, 2, 0, 0, 0, 0, 0⟩, by decide +kernel, by decide +kernel⟩
  rw [feedAll]
  unfold feed
  rw [if_neg (by simp [hc])]
  simp only
  rw [h1, Res.ok_bind, show rdb (Sample.onlySet.bytes Spec.word16) 1 = .ok 0 from rfl, Res.ok_bind,
    show (Sample.onlySet.bytes Spec.word16).length = 10 + 1 from rfl, feedLoop, if_pos h2, h3, Res.ok_bind]
  simp only
  rw [if_neg (by simp [h4]), feedElem_wide (st := State.reset) (l := l) (by decide) (by simp [he]) .nil (by decide) hs
    (fun g hg => by
      have := hw g hg
      rw [show 2 ^ (8 * glyphKind.width) = 65536 from rfl]
      omega) hn hl]
  rfl

end TreeModel
