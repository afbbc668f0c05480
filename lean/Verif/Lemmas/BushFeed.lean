import Verif.Lemmas.Bush

/-!
# Feeding rules that share plain beginnings and then go their own ways
-/

namespace TreeModel
open Go Helpers ScannerModel Spec
open Classical

variable {c : Compiler} {d : Nat} {R : List Nat → Prop} {L : List Nat → Nat → Option Nat} {H : List Nat → Nat × Nat}
  {T : List Nat → Prop} {E : List Nat → Nat → Prop}

/-- The words on the way of a rule. -/
def Along (W : List Nat → Prop) (Ls : List (List Nat)) (u : List Nat) : Prop := ∃ v z, W v ∧ u = v ++ z ∧ Pre Ls z

/-- The words and elements at the end of a rule. -/
def Ends (W : List Nat → Prop) (Ls : List (List Nat)) (u : List Nat) (y : Nat) : Prop :=
  ∃ v z, W v ∧ u = v ++ z ∧ z ++ [y] ∈ RuleCode.picks Ls

theorem along_cons {W : List Nat → Prop} {X : List Nat} {Ls : List (List Nat)} {u : List Nat} :
    Along W (X :: Ls) u ↔ W u ∨ Along (ext W X) Ls u := by
  constructor
  · rintro ⟨v, z, h1, rfl, h3⟩
    cases z with
    | nil => left; simpa using h1
    | cons x z => exact Or.inr ⟨v ++ [x], z, ext_snoc.2 ⟨h1, h3.1⟩, by simp, h3.2⟩
  · rintro (h | ⟨_, z, ⟨v, x, h1, h2, rfl⟩, rfl, h3⟩)
    · exact ⟨u, [], h, by simp, trivial⟩
    · exact ⟨v, x :: z, h1, by simp, h2, h3⟩

theorem along_nil {W : List Nat → Prop} {u : List Nat} : ¬ Along W [] u := by
  rintro ⟨_, _, _, _, h⟩
  exact h

theorem ends_cons {W : List Nat → Prop} {X : List Nat} {Ls : List (List Nat)} (hL : Ls ≠ []) {u : List Nat} {y : Nat} :
    Ends W (X :: Ls) u y ↔ Ends (ext W X) Ls u y := by
  constructor
  · rintro ⟨v, z, h1, rfl, h3⟩
    cases z with
    | nil =>
      have := picks_length h3
      simp only [List.nil_append, List.length_cons, List.length_nil] at this
      exact absurd (List.length_eq_zero_iff.1 (by omega)) hL
    | cons x z =>
      rw [List.cons_append, mem_picks_cons] at h3
      exact ⟨v ++ [x], z, ext_snoc.2 ⟨h1, h3.1⟩, by simp, h3.2⟩
  · rintro ⟨_, z, ⟨v, x, h1, h2, rfl⟩, rfl, h3⟩
    exact ⟨v, x :: z, h1, by simp, by rw [List.cons_append]; exact mem_picks_cons.2 ⟨h2, h3⟩⟩

theorem ends_last {W : List Nat → Prop} {X : List Nat} {u : List Nat} {y : Nat} : Ends W [X] u y ↔ W u ∧ y ∈ X := by
  constructor
  · rintro ⟨v, z, h1, rfl, h3⟩
    have := picks_length h3
    have hz : z = [] := by
      cases z with
      | nil => rfl
      | cons a z => simp at this
    subst hz
    rw [List.nil_append] at h3
    exact ⟨by simpa using h1, (mem_picks_cons.1 h3).1⟩
  · rintro ⟨h1, h2⟩
    exact ⟨u, [], h1, by simp, mem_picks_cons.2 ⟨h2, by simp [RuleCode.picks]⟩⟩

theorem Bush.head (h : Bush c d R L H T E) {W : List Nat → Prop} {cur : Nat} {st : State}
    (hW : ∀ u, walk c.states u = some cur ↔ W u) (hst : c.states[cur]? = some st) (hl : Nat) :
    Bush { c with states := c.states.set cur (st.updateHead hl) } d R L
      (fun u => if W u then headUpd hl (H u) else H u) T E ∧
    ∀ u, walk (c.states.set cur (st.updateHead hl)) u = walk c.states u := by
  refine h.revise (st' := st.updateHead hl) hW hst (h.ranged st (List.mem_of_getElem? hst)) (fun _ => rfl) ?_ (fun _ _ _ => rfl) ?_ ?_
    (fun t ht => Or.inl ht) c.clock
  · intro u x hu
    rw [← h.look, lookAt, (hW u).2 hu, Option.bind_some, rule1, step_of hst]
    rfl
  · intro u hu
    rw [if_pos hu, ← h.heads u cur st ((hW u).2 hu) hst]
    exact heads_upd
  · intro u hu
    rw [if_neg hu]

theorem Bush.bump (h : Bush c d R L H T E) (hd : c.depth ≤ c.byDepth.length) (h255 : c.depth + 1 < 256) :
    ∃ c', (do
      let c ← freeUnused c
      if u8 (c.depth + 1) = 0 then .panic brokenCode else
      return (c.toStates, { c with depth := u8 (c.depth + 1), toStates := [] })) = Res.ok (c.toStates, c') ∧
      Bush c' d R L H T E ∧ c'.depth = c.depth + 1 ∧ c'.toStates = [] ∧ c'.states = c.states ∧
      c'.byDepth.length = c.byDepth.length ∧ c'.ruleIndex = c.ruleIndex ∧ c'.compiling = c.compiling := by
  obtain ⟨F, B, hf, hB, hi⟩ := h.free hd
  rw [hf, Res.ok_bind]
  have hu8 : u8 (c.depth + 1) = c.depth + 1 := by rw [u8, Nat.mod_eq_of_lt (by omega)]
  simp only [Res.pure_eq]
  rw [if_neg (by rw [hu8]; omega), hu8]
  exact ⟨_, rfl, ⟨hi.pos, hi.len, hi.ranged, hi.bound, hi.reach, hi.look, hi.heads, hi.noHeads, hi.usesLen, hi.rulesLen,
    hi.nodup, hi.range, hi.freeUses, hi.root, hi.reached, hi.inj, hi.live, hi.once, hi.active, hi.entry, hi.rules⟩,
    rfl, rfl, rfl, hB, rfl, rfl⟩

theorem Bush.prefix (h : Bush c d R L H T E) {u : List Nat} {y : Nat} (hR : R (u ++ [y])) : R u := by
  rw [← h.reach, walk_snoc] at hR
  rw [← h.reach]
  cases hw : walk c.states u with
  | none => rw [hw] at hR; cases hR
  | some s => rfl

theorem Bush.nothing (h : Bush c d R L H T E) {u : List Nat} (hR : ¬ R u) (y : Nat) : L u y = none := by
  rw [← h.look, lookAt]
  cases hw : walk c.states u with
  | none => rfl
  | some s => exact absurd ((h.reach u).1 (by rw [hw]; rfl)) hR

/-- Ranges at which there is nothing can be inserted. -/
theorem Bush.level (h : Bush c d R L H T E) {k : Kind} {P : List (Nat × Nat)} (hP : Level k [] P) {u : List Nat} {cur : Nat}
    {st : State} (hu : walk c.states u = some cur) (hst : c.states[cur]? = some st)
    (hfree : ∀ y ∈ spread P, L u y = none ∧ ¬ R (u ++ [y])) : Level k st.trans P := by
  refine ⟨hP.le, hP.small, fun p hp t ht => ?_, hP.apart⟩
  have hR := h.ranged st (List.mem_of_getElem? hst)
  have h1 := hP.le p hp
  have h2 := hR.le t ht
  refine Classical.byContradiction fun hn => ?_
  obtain ⟨v, v1, v2, v3, v4⟩ : ∃ v, p.1 ≤ v ∧ v ≤ p.2 ∧ t.first ≤ v ∧ v ≤ t.last := by
    rcases Nat.le_total p.1 t.first with h | h
    · exact ⟨t.first, h, by omega, Nat.le_refl _, h2⟩
    · exact ⟨p.1, Nat.le_refl _, h1, h, by omega⟩
  obtain ⟨f1, f2⟩ := hfree v (mem_spread.2 ⟨p, hp, v1, v2⟩)
  have htr : trig st.trans v = some t := hR.trig_some.2 ⟨ht, v3, v4⟩
  rcases h.active u cur st hu hst t ht with ha | ha
  · rw [← h.look, lookAt, hu, Option.bind_some, rule1, step_of hst, htr, Option.bind_some, ruleOf, if_neg ha] at f1
    cases f1
  · refine f2 ((h.reach _).1 ?_)
    rw [walk_snoc, hu, Option.bind_some, next1, step_of hst, htr, Option.bind_some, nextOf, if_neg ha]
    rfl

/-- The outcome of feeding the elements in `list` from the states reached by `W`. -/
def Outcome (k : Kind) (mv : Nat → Bool) (sets : Sets) (hl : Nat) (list : List (Nat × Nat)) (cur : Nat) (c : Compiler)
    (R : List Nat → Prop) (L : List Nat → Nat → Option Nat) (H : List Nat → Nat × Nat) (T : List Nat → Prop)
    (E : List Nat → Nat → Prop) (W : List Nat → Prop) (Ls : List (List Nat)) (cost : Nat) : Prop :=
  (feedList k mv sets hl list [cur] c = .err hitLimits ∧ ∀ n, Small c n → 253 < n + cost) ∨
  ∃ c' d, feedList k mv sets hl list [cur] c = .ok c' ∧
    Bush c' d (fun u => R u ∨ Along W Ls u) (fun u x => if Ends W Ls u x then (L u x).or (some c.ruleIndex) else L u x)
      (fun u => if Along W Ls u then headUpd hl (H u) else H u) T E ∧
    c'.ruleIndex = c.ruleIndex ∧ c'.compiling = c.compiling ∧ ∀ n, Small c n → Small c' (n + cost)

theorem Outcome.step {k : Kind} {mv : Nat → Bool} {sets : Sets} {hl : Nat} {list : List (Nat × Nat)} {cur s a cost : Nat}
    {x : Nat × Nat} {c1 : Compiler} {W : List Nat → Prop} {X : List Nat} {Ls : List (List Nat)} (hlist : list ≠ [])
    (hLs : Ls ≠ []) (hfe : feedElem k mv sets hl ruleNone x.1 x.2 [cur] c = .ok ([s], c1))
    (hri : c1.ruleIndex = c.ruleIndex) (hco : c1.compiling = c.compiling) (hsm : ∀ n, Small c n → Small c1 (n + a))
    (hR : ∀ u, W u → R u)
    (ho : Outcome k mv sets hl list s c1 (fun u => R u ∨ ext W X u) L (fun u => if W u then headUpd hl (H u) else H u) T E
      (ext W X) Ls cost) : Outcome k mv sets hl (x :: list) cur c R L H T E W (X :: Ls) (a + cost) := by
  have hf : feedList k mv sets hl (x :: list) [cur] c = feedList k mv sets hl list [s] c1 := by
    rw [feedList, if_neg hlist, hfe]
    rfl
  unfold Outcome
  rw [hf]
  rcases ho with ⟨h1, h2⟩ | ⟨c', d, h1, h2, h3, h4, h5⟩
  · left
    refine ⟨h1, fun n hn => ?_⟩
    have := h2 _ (hsm n hn)
    omega
  · right
    refine ⟨c', d, h1, h2.congr ?_ ?_ ?_ (fun _ => Iff.rfl), h3.trans hri, h4.trans hco, ?_⟩
    · intro u
      rw [along_cons]
      obtain ⟨Y, Ys, rfl⟩ := List.exists_cons_of_ne_nil hLs
      rw [along_cons]
      constructor
      · rintro ((h | h) | h | h)
        · exact Or.inl h
        · exact Or.inr (Or.inr (Or.inl h))
        · exact Or.inr (Or.inr (Or.inl h))
        · exact Or.inr (Or.inr (Or.inr h))
      · rintro (h | h | h | h)
        · exact Or.inl (Or.inl h)
        · exact Or.inl (Or.inl (hR u h))
        · exact Or.inl (Or.inr h)
        · exact Or.inr (Or.inr h)
    · intro u y
      rw [hri]
      by_cases he : Ends (ext W X) Ls u y
      · rw [if_pos he, if_pos ((ends_cons hLs).2 he)]
      · rw [if_neg he, if_neg fun hh => he ((ends_cons hLs).1 hh)]
    · intro u
      simp only
      by_cases h1 : W u
      · rw [if_pos h1, if_pos (along_cons.2 (Or.inl h1))]
        split
        · exact headUpd_idem _ _
        · rfl
      · rw [if_neg h1]
        by_cases h2 : Along (ext W X) Ls u
        · rw [if_pos h2, if_pos (along_cons.2 (Or.inr h2))]
        · rw [if_neg h2, if_neg fun hh => (along_cons.1 hh).elim h1 h2]
    · intro n hn
      rw [← Nat.add_assoc]
      exact h5 _ (hsm n hn)

theorem Small.head {n cur : Nat} {st : State} (h : Small c n) (hst : c.states[cur]? = some st) (hl : Nat) :
    Small { c with states := c.states.set cur (st.updateHead hl) } n := by
  refine ⟨by simpa using h.1, ?_⟩
  intro y hy
  rcases List.mem_or_eq_of_mem_set hy with hy | hy
  · exact h.2 y hy
  · rw [hy]; exact h.2 st (List.mem_of_getElem? hst)

/-- The size after linking. -/
theorem Small.link {n m cur s ref : Nat} {x : State} {rs : List Nat} {c1 : Compiler} (h : Small c n)
    (hl : Linked c ref c1 s x rs) (hr : RefOk c ref x rs) {st' : State} (hm : n < m) (hst' : st'.trans.length ≤ m)
    {c2 : Compiler} (h2 : c2.states = c1.states.set cur st') : Small c2 m := by
  unfold Small
  rw [h2]
  refine ⟨?_, ?_⟩
  · simp only [List.length_set]
    have h3 := hl.grow
    have h4 := hl.le
    have h5 := h.1
    split at h3 <;> omega
  · intro y hy
    rcases List.mem_or_eq_of_mem_set hy with hy | hy
    · obtain ⟨i, hilt, hiy⟩ := List.getElem_of_mem hy
      by_cases his : i = s
      · subst his
        have : some y = some x := by rw [← hl.atS, List.getElem?_eq_getElem hilt, hiy]
        rw [Option.some.inj this]
        rcases hr with ⟨_, h5, _⟩ | ⟨_, _, h5, _⟩
        · rw [h5]; simp [State.reset]
        · have := h.2 x (List.mem_of_getElem? h5); omega
      · have : c.states[i]? = some y := by rw [← hl.others i his, List.getElem?_eq_getElem hilt, hiy]
        have := h.2 y (List.mem_of_getElem? this); omega
    · rw [hy]; exact hst'

theorem set_same {α : Type} {l : List α} {i : Nat} {a : α} (h : l[i]? = some a) : l.set i a = l := by
  obtain ⟨_, e⟩ := List.getElem?_eq_some_iff.1 h
  rw [← e, List.set_getElem_self]

theorem next_old {st : State} {g : Nat} :
    (trig st.trans g).bind nextOf = if oldNext st g = stateNone then none else some (oldNext st g) := by
  unfold oldNext nextOf
  cases trig st.trans g <;> simp

theorem rule_old {st : State} {g : Nat} :
    (trig st.trans g).bind ruleOf = if oldRule st g = ruleNone then none else some (oldRule st g) := by
  unfold oldRule ruleOf
  cases trig st.trans g <;> simp

/-- Feeding an element that is not the last, in the tree. -/
theorem Bush.plain {k : Kind} {mv : Nat → Bool} {sets : Sets} {g hl : Nat} (h : Bush c c.depth R L H T E) {p : List Nat}
    {cur : Nat} (hp : walk c.states p = some cur) (hTp : T p) (hlen : p.length = c.depth) (hto : c.toStates = [])
    (hd : c.depth ≤ c.byDepth.length) (hw : g + 1 < 2 ^ (8 * k.width)) (hg : g ≠ k.none) (h255 : c.depth + 1 < 256)
    (hE : ¬ E p g) (hRT : R (p ++ [g]) → T (p ++ [g])) :
    (feedElem k mv sets hl ruleNone g setNone [cur] c = .err hitLimits ∧ ∀ n, Small c n → 253 < n + 1) ∨
    ∃ s c', feedElem k mv sets hl ruleNone g setNone [cur] c = .ok ([s], c') ∧
      Bush c' c'.depth (fun u => R u ∨ ext (fun v => v = p) [g] u) L
        (fun u => @ite _ (u = p) (propDecidable _) (headUpd hl (H u)) (H u)) (fun u => T u ∨ u = p ++ [g]) E ∧
      walk c'.states (p ++ [g]) = some s ∧ c'.depth = c.depth + 1 ∧ c'.toStates = [] ∧
      c'.depth ≤ c'.byDepth.length ∧ c'.ruleIndex = c.ruleIndex ∧ c'.compiling = c.compiling ∧
      ∀ n, Small c n → Small c' (n + 1) := by
  obtain ⟨st, hst, hranged⟩ := h.state hp
  have hlt := h.bound p cur hp
  have hW : ∀ u, walk c.states u = some cur ↔ u = p :=
    fun u => ⟨fun hu => h.inj p u cur hTp hp hu, fun hu => by rw [hu]; exact hp⟩
  have hx : LevelOf k sets (g, setNone) [(g, g)] := Or.inl ⟨rfl, hg, rfl⟩
  have hstart := feedElem_level (mv := mv) (hl := hl) (rule := ruleNone) hx hst
  simp only at hstart
  rw [hstart]
  obtain ⟨h1, hw1⟩ := h.head (W := fun u => u = p) hW hst hl
  generalize hc0 : ({ c with states := c.states.set cur (st.updateHead hl) } : Compiler) = c0 at h1 ⊢
  have hst0 : c0.states[cur]? = some (st.updateHead hl) := by
    rw [← hc0]
    show (c.states.set cur (st.updateHead hl))[cur]? = _
    rw [List.getElem?_set, if_pos rfl, if_pos hlt]
  have hsm0 : ∀ n, Small c n → Small c0 n := fun n hn => hc0 ▸ hn.head hst hl
  have hw1 : ∀ u, walk c0.states u = walk c.states u := by rw [← hc0]; exact hw1
  have e1 : c0.depth = c.depth := by rw [← hc0]
  have e2 : c0.toStates = [] := by rw [← hc0]; exact hto
  have e3 : c0.byDepth = c.byDepth := by rw [← hc0]
  have e4 : c0.ruleIndex = c.ruleIndex := by rw [← hc0]
  have e5 : c0.compiling = c.compiling := by rw [← hc0]
  rw [← e1] at h1
  have htr : (st.updateHead hl).trans = st.trans := rfl
  generalize hst1 : st.updateHead hl = st1 at hst0 htr
  clear hst1 hstart hc0
  have hW0 : ∀ u, walk c0.states u = some cur ↔ u = p := fun u => by rw [hw1]; exact hW u
  have hp0 := (hW0 p).2 rfl
  have hone : ∀ t, trig st1.trans g = some t → t.first = t.last := by
    intro t ht
    rw [htr] at ht
    obtain ⟨t1, t2⟩ := hranged.trig_some.1 ht
    rcases h.entry p cur st hTp hp hst t t1 with h2 | h2
    · exact h2
    · exact absurd (h2 g t2.1 t2.2) hE
  have hr0 : Ranged st1.trans := by rw [htr]; exact hranged
  have hlen1 : st1.trans.length = st.trans.length := by rw [htr]
  have hsize : ∀ n, Small c n → st1.trans.length ≤ n := fun n hn => by
    rw [hlen1]; exact hn.2 st (List.mem_of_getElem? hst)
  simp only [appendRanges]
  rcases appendRange_put_link (mv := mv) (k := k) hst0 hr0 hw hone with ⟨he, h254⟩ | ⟨n, herr, hok⟩
  · left
    rw [he]
    refine ⟨rfl, fun n hn => ?_⟩
    have := hsize n hn
    omega
  have h2 := h1.clock n
  -- the state led to before
  have hnext : ∀ y ∈ [g], (trig st1.trans y).bind nextOf =
      if oldNext st1 g = stateNone then none else some (oldNext st1 g) := by
    intro y hy
    rw [List.mem_singleton.1 hy]
    exact next_old
  have hext : ∀ u, ext (fun v => v = p) [g] u ↔ u = p ++ [g] := by
    intro u
    constructor
    · rintro ⟨v, y, rfl, hy, rfl⟩
      rw [List.mem_singleton.1 hy]
    · rintro rfl
      exact ext_snoc.2 ⟨rfl, by simp⟩
  have hwg : oldNext st1 g ≠ stateNone → walk c0.states (p ++ [g]) = some (oldNext st1 g) ∧ T (p ++ [g]) := by
    intro h0
    have : walk c0.states (p ++ [g]) = some (oldNext st1 g) := by
      rw [walk_snoc, hp0, Option.bind_some, next1, step_of hst0, next_old, if_neg h0]
    exact ⟨this, hRT ((h1.reach _).1 (by rw [this]; rfl))⟩
  obtain ⟨x, rs, hr⟩ : ∃ x rs, RefOk { c0 with clock := n } (oldNext st1 g) x rs := by
    by_cases h0 : oldNext st1 g = stateNone
    · exact ⟨_, _, Or.inl ⟨h0, rfl, rfl⟩⟩
    · obtain ⟨w1, w2⟩ := hwg h0
      obtain ⟨_, l, hl1, hmem⟩ := h1.live _ _ w1 (by simp)
      have huse := h1.once _ _ w2 w1 (by simp)
      simp only [List.length_append, List.length_singleton, Nat.add_sub_cancel, hlen, ← e1] at hl1
      obtain ⟨rs, hrs, hne, hq⟩ := h1.rules _ l hl1 _ hmem
      have hb := h1.bound _ _ w1
      exact ⟨_, rs, Or.inr ⟨h0, h1.walk_pos w1 (by simp), List.getElem?_eq_getElem hb, hrs, hne,
        fun q hq' => (hq q hq').2 (Nat.le_refl _), huse⟩⟩
  rcases stateLinker_ok (c := { c0 with clock := n }) h2.stock e2 (by rw [e3]; simpa [e1] using hd) hr mv with
    ⟨he, h254, _⟩ | ⟨c1, s, m, he, hl1⟩
  · left
    rw [herr _ he]
    refine ⟨rfl, fun n hn => ?_⟩
    have := (hsm0 n hn).1
    simp only at h254
    omega
  right
  have hcs : cur ≠ s := fun hh => hl1.fresh p (hh ▸ hp0)
  obtain ⟨l', hu, hll, hap⟩ := hok c1 s m he (by rw [hl1.others cur hcs]; exact hst0)
  obtain ⟨hi, hws⟩ := h2.link (W := fun u => u = p) (X := [g]) (T' := fun u => T u ∨ u = p ++ [g]) (n := 0) (k := c1.clock)
    (l' := l') hW0 (fun u hu => by rw [hu, hlen]; exact e1.symm) ⟨p, rfl⟩ hst0 hr hl1 hnext
    (fun h0 u hu' => (hext u).2 (h1.inj _ _ _ (hwg h0).2 (hwg h0).1 hu'))
    (fun h0 u hu' => by rw [(hext u).1 hu']; exact (hwg h0).2) hu.ranged
    (fun y hy => by
      rw [List.mem_singleton.1 hy]
      refine ⟨_, hu.hit, rfl, ?_⟩
      rw [rule_old]
      rfl)
    (fun y hy => hu.miss y (by simpa using hy))
    (fun t ht => by
      rcases hu.mem t ht with rfl | ht
      · exact Or.inr ⟨rfl, fun _ _ _ => Or.inl rfl⟩
      · exact Or.inl ht)
    (fun u hu' => Or.inl hu')
    (fun u hu' => hu'.imp id fun hu' => (hext u).2 hu')
    (fun u _ hu' => ⟨rfl, fun v hv => by rw [(hext u).1 hu', (hext v).1 hv]⟩)
  have hus : c1.uses.set (s - 1) (0 + 1) = c1.uses := set_same hl1.usesS
  rw [hus] at hi
  have hd1 : c1.depth < c1.byDepth.length := by
    obtain ⟨l, hl2, _⟩ := hl1.atDepth
    have := (List.getElem?_eq_some_iff.1 hl2).1
    rw [hl1.depth]
    exact this
  have hdep : c1.depth = c.depth := hl1.depth.trans e1
  obtain ⟨c', b1, b2, b3, b4, b5, b6, b7, b8⟩ := hi.bump (Nat.le_of_lt hd1) (by simp only; omega)
  simp only at b1 b3 b5 b6 b7 b8
  rw [hap, Res.ok_bind, Res.ok_bind]
  have hbd : c'.depth ≤ c'.byDepth.length := by rw [b3, b6]; omega
  refine ⟨s, c', b1.trans (by rw [hl1.toStates]), ?_, ?_, by rw [b3, hdep], b4, hbd,
    by rw [b7]; exact hl1.ruleIndex.trans e4, by rw [b8]; exact hl1.compiling.trans e5, ?_⟩
  · rw [b3, hl1.depth]; exact b2
  · rw [b5]; exact (hws _).2 ((hext _).2 rfl)
  · intro a ha
    exact Small.link (c := { c0 with clock := n }) (hsm0 a ha) hl1 hr (Nat.lt_succ_self a)
      (by simp only; have := hsize a ha; omega) b5

/-- Inserted ranges. -/
theorem insAll_hit {l : List Transition} {P : List (Nat × Nat)} {r n y : Nat} (hR : Ranged (insAll l P r n))
    (hy : y ∈ spread P) : ∃ t, trig (insAll l P r n) y = some t ∧ t.rule = r ∧ t.next = n := by
  obtain ⟨p, hp, h1⟩ := mem_spread.1 hy
  exact ⟨⟨p.1, p.2, r, n⟩, hR.trig_some.2 ⟨mem_insAll.2 (Or.inr ⟨p, hp, rfl⟩), h1⟩, rfl, rfl⟩

theorem insAll_miss {l : List Transition} {P : List (Nat × Nat)} {r n y : Nat} (hR : Ranged (insAll l P r n))
    (hl : Ranged l) (hy : y ∉ spread P) : trig (insAll l P r n) y = trig l y := by
  cases ht : trig l y with
  | none =>
    rw [Ranged.trig_none] at ht ⊢
    intro t hm h1
    rcases mem_insAll.1 hm with hm | ⟨p, hp, rfl⟩
    · exact ht t hm h1
    · exact hy (mem_spread.2 ⟨p, hp, h1⟩)
  | some t =>
    obtain ⟨h1, h2⟩ := hl.trig_some.1 ht
    exact hR.trig_some.2 ⟨mem_insAll.2 (Or.inl h1), h2⟩

theorem Level.miss {k : Kind} {l : List Transition} {P : List (Nat × Nat)} (h : Level k l P) {y : Nat} (hy : y ∈ spread P) :
    trig l y = none := by
  obtain ⟨p, hp, h1⟩ := mem_spread.1 hy
  rw [Ranged.trig_none]
  intro t ht h2
  have := h.off p hp t ht
  omega

/-- Linking a level of ranges to a new state. -/
theorem Bush.links {k : Kind} {mv : Nat → Bool} {cur : Nat} {ps : List (Nat × Nat)} {st : State} {W : List Nat → Prop}
    (h : Bush c c.depth R L H T E) (hW : ∀ u, walk c.states u = some cur ↔ W u) (hlen : ∀ u, W u → u.length = c.depth)
    (hex : ∃ u, W u) (hto : c.toStates = []) (hd : c.depth ≤ c.byDepth.length) (hst : c.states[cur]? = some st)
    (hl : Level k st.trans ps) (hne : ps ≠ []) (hE : ∀ u, T u → W u → ∀ y ∈ spread ps, E u y)
    (hT : ∀ u, ext W (spread ps) u → ¬ T u) :
    (appendRanges k mv cur ruleNone ps c = .err hitLimits ∧ ∀ n, Small c n → 253 < n + ps.length) ∨
    ∃ s c1, appendRanges k mv cur ruleNone ps c = .ok c1 ∧
      Bush c1 (c.depth + 1) (fun u => R u ∨ ext W (spread ps) u) L H T E ∧
      (∀ u, walk c1.states u = some s ↔ ext W (spread ps) u) ∧ c1.depth = c.depth ∧ c1.toStates = [s] ∧
      c1.depth < c1.byDepth.length ∧ c1.ruleIndex = c.ruleIndex ∧ c1.compiling = c.compiling ∧
      ∀ n, Small c n → Small c1 (n + ps.length) := by
  obtain ⟨p, ps, rfl⟩ := List.exists_cons_of_ne_nil hne
  have hR := h.ranged st (List.mem_of_getElem? hst)
  have hsize : ∀ n, Small c n → st.trans.length ≤ n := fun n hn => hn.2 st (List.mem_of_getElem? hst)
  rw [appendRanges]
  rcases appendRange_off_link (mv := mv) hst hR (hl.le p (by simp)) (hl.small p (by simp)) (hl.off p (by simp)) with
    ⟨he, hf⟩ | ⟨hf, herr, ho⟩
  · left
    rw [he]
    refine ⟨rfl, fun n hn => ?_⟩
    have := hsize n hn
    simp only [List.length_cons]
    omega
  have h2 := h.clock (c.clock + 1)
  have hr : RefOk { c with clock := c.clock + 1 } stateNone State.reset [] := Or.inl ⟨rfl, rfl, rfl⟩
  rcases stateLinker_ok (c := { c with clock := c.clock + 1 }) h2.stock hto hd hr mv with
    ⟨he, h254, _⟩ | ⟨c1, s, m, he, hl1⟩
  · left
    rw [herr _ he]
    refine ⟨rfl, fun n hn => ?_⟩
    have := hn.1
    simp only at h254
    simp only [List.length_cons]
    omega
  obtain ⟨p0, hp0⟩ := hex
  have hcs : cur ≠ s := fun hh => hl1.fresh p0 (hh ▸ (hW p0).2 hp0)
  have hlt : cur < c1.states.length := by
    have := (List.getElem?_eq_some_iff.1 hst).1
    have h3 := hl1.grow
    simp only at h3
    split at h3 <;> omega
  have hap := ho c1 s m he (by rw [hl1.others cur hcs]; exact hst)
  rw [hap, Res.ok_bind]
  have hR' := hR.ins hf (t := ⟨p.1, p.2, ruleNone, s⟩) (hl.le p (by simp)) (hl.off p (by simp))
  have hs255 : s < 255 := by have := hl1.lt; have := hl1.len; omega
  have hcur : Current { c1 with
      states := c1.states.set cur { st with trans := ins st.trans ⟨p.1, p.2, ruleNone, s⟩ } } s := by
    obtain ⟨l, l1, l2, l3⟩ := hl1.atDepth
    refine ⟨hl1.pos, hl1.toStates, l, by simp only; rw [hl1.depth]; exact l1, l2, fun y hy => ?_⟩
    simp only
    rcases l3 y hy with rfl | ⟨l0, h0, h1⟩
    · refine ⟨hl1.pos, hs255, _, hl1.rulesS, ⟨fun _ => rfl, fun _ => ?_⟩⟩
      rw [hl1.ruleIndex]
      rfl
    · have hr := h.range y (List.mem_append_left _ (mem_flatten h0 h1))
      have hlen := h.len
      obtain ⟨rs, h2, _, h3⟩ := h.rules _ _ h0 y h1
      have hys : y ≠ s := fun hh => hl1.notIn (hh ▸ mem_flatten h0 h1)
      have hp := hl1.pos
      refine ⟨hr.1, by omega, rs, ?_, ⟨fun e => ?_, fun e => absurd e hys⟩⟩
      · rw [hl1.rulesOther (y - 1) (by omega)]; exact h2
      · have := (h3 c1.ruleIndex (by rw [e]; simp)).2 (Nat.le_refl _)
        rw [hl1.ruleIndex] at this
        simp only at this
        omega
  rcases appendRanges_again (mv := mv) (k := k) ps hcur (u := 1) (cur := cur)
      (st := { st with trans := ins st.trans ⟨p.1, p.2, ruleNone, s⟩ }) hl1.usesS
      (by simp only; rw [List.getElem?_set_self hlt]) hR' (by simp only [ins_length]; omega) (hl.tail _ _) with
    ⟨he', hf'⟩ | ⟨n, hR2, he'⟩
  · left
    refine ⟨he', fun n hn => ?_⟩
    simp only [ins_length] at hf'
    have := hsize n hn
    simp only [List.length_cons]
    omega
  right
  have hins : insAll (ins st.trans ⟨p.1, p.2, ruleNone, s⟩) ps ruleNone s = insAll st.trans (p :: ps) ruleNone s := rfl
  simp only [List.set_set] at he' hR2
  rw [hins] at he' hR2
  obtain ⟨hi, hws⟩ := h2.link (W := W) (X := spread (p :: ps)) (T' := T) (n := ps.length) (k := n)
    (l' := insAll st.trans (p :: ps) ruleNone s) hW hlen ⟨p0, hp0⟩ hst hr hl1
    (fun y hy => by rw [hl.miss hy, if_pos rfl]; rfl) (fun h0 => absurd rfl h0) (fun h0 => absurd rfl h0) hR2
    (fun y hy => by
      obtain ⟨t, t1, t2, t3⟩ := insAll_hit hR2 hy
      refine ⟨t, t1, t3, ?_⟩
      rw [hl.miss hy, ruleOf, if_pos t2]
      rfl)
    (fun y hy => insAll_miss hR2 hR hy)
    (fun t ht => by
      rcases mem_insAll.1 ht with ht | ⟨q, hq, rfl⟩
      · exact Or.inl ht
      · exact Or.inr ⟨rfl, fun u hu hu' => Or.inr fun z z1 z2 => hE u hu hu' z (mem_spread.2 ⟨q, hq, z1, z2⟩)⟩)
    (fun u hu => hu) (fun u hu => Or.inl hu) (fun u hu hu' => absurd hu (hT u hu'))
  rw [Nat.add_comm ps.length 1] at hi
  refine ⟨s, _, he', hi, hws, hl1.depth, hl1.toStates, ?_, hl1.ruleIndex, hl1.compiling, ?_⟩
  · obtain ⟨l, hl2, _⟩ := hl1.atDepth
    have := (List.getElem?_eq_some_iff.1 hl2).1
    simp only at this ⊢
    rw [hl1.depth]
    exact this
  · intro n hn
    refine Small.link (c := { c with clock := c.clock + 1 }) hn hl1 hr (by simp only [List.length_cons]; omega) ?_ rfl
    simp only
    rw [insAll_length]
    have := hsize n hn
    omega

/-- Setting a rule at a level of ranges. -/
theorem Bush.rules_at {k : Kind} {mv : Nat → Bool} {cur r : Nat} {ps : List (Nat × Nat)} {st : State} {W : List Nat → Prop}
    (h : Bush c d R L H T E) (hW : ∀ u, walk c.states u = some cur ↔ W u) (hst : c.states[cur]? = some st)
    (hr : r ≠ ruleNone) (hl : Level k st.trans ps) (hE : ∀ u, T u → W u → ∀ y ∈ spread ps, E u y) :
    (appendRanges k mv cur r ps c = .err hitLimits ∧ ∀ n, Small c n → 253 < n + ps.length) ∨
    ∃ n S, appendRanges k mv cur r ps c = .ok { c with clock := n, states := S } ∧
      Bush { c with clock := n, states := S } d R
        (fun u y => if W u ∧ y ∈ spread ps then (L u y).or (some r) else L u y) H T E ∧
      ∀ m, Small c m → Small { c with clock := n, states := S } (m + ps.length) := by
  have hR := h.ranged st (List.mem_of_getElem? hst)
  have hsize : ∀ n, Small c n → st.trans.length ≤ n := fun n hn => hn.2 st (List.mem_of_getElem? hst)
  rcases appendRanges_rules (mv := mv) (k := k) (cur := cur) hr ps hst hR hl with ⟨he, hf⟩ | ⟨n, hR2, he⟩
  · left
    refine ⟨he, fun n hn => ?_⟩
    have := hsize n hn
    omega
  · right
    refine ⟨n, _, he, (h.revise hW hst hR2 ?_ ?_ ?_ ?_ ?_ ?_ n).1, ?_⟩
    · intro y
      simp only
      by_cases hy : y ∈ spread ps
      · obtain ⟨t, t1, t2, t3⟩ := insAll_hit hR2 hy
        rw [t1, hl.miss hy, Option.bind_some, nextOf, if_pos t3]
        rfl
      · rw [insAll_miss hR2 hR hy]
    · intro u y hu
      have hold : L u y = (trig st.trans y).bind ruleOf := by
        rw [← h.look, lookAt, (hW u).2 hu, Option.bind_some, rule1, step_of hst]
      simp only
      by_cases hy : y ∈ spread ps
      · obtain ⟨t, t1, t2, t3⟩ := insAll_hit hR2 hy
        rw [t1, if_pos ⟨hu, hy⟩, hold, hl.miss hy, Option.bind_some, ruleOf, t2, if_neg hr]
        rfl
      · rw [insAll_miss hR2 hR hy, if_neg fun hh => hy hh.2, hold]
    · intro u y hu
      rw [if_neg fun hh => hu hh.1]
    · intro u hu
      exact h.heads u cur st ((hW u).2 hu) hst
    · intro u _; rfl
    · intro t ht
      rcases mem_insAll.1 ht with ht | ⟨q, hq, rfl⟩
      · exact Or.inl ht
      · exact Or.inr ⟨Or.inl hr, fun u hu hu' => Or.inr fun z z1 z2 => hE u hu hu' z (mem_spread.2 ⟨q, hq, z1, z2⟩)⟩
    · intro m hm
      refine ⟨by simp only [List.length_set]; have := hm.1; omega, small_set hm (by omega) ?_⟩
      simp only
      rw [insAll_length]
      have := hsize m hm
      omega

/-- Setting the rule at elements one after the other, in the tree. -/
theorem Bush.marks {k : Kind} {mv : Nat → Bool} {r : Nat} (hr : r ≠ ruleNone) {p : List Nat} {cur : Nat} :
    ∀ (ls : List Nat) {c : Compiler} {L : List Nat → Nat → Option Nat}, Bush c d R L H T E → T p →
    walk c.states p = some cur → (∀ g ∈ ls, g + 1 < 2 ^ (8 * k.width) ∧ ¬ E p g) →
    (appendRanges k mv cur r (ls.map fun v => (v, v)) c = .err hitLimits ∧ ∀ n, Small c n → 253 < n + ls.length) ∨
    ∃ n S, appendRanges k mv cur r (ls.map fun v => (v, v)) c = .ok { c with clock := n, states := S } ∧
      Bush { c with clock := n, states := S } d R
        (fun u x => if u = p ∧ x ∈ ls then (L u x).or (some r) else L u x) H T E ∧
      ∀ m, Small c m → Small { c with clock := n, states := S } (m + ls.length)
  | [], c, L, h, _, _, _ => Or.inr ⟨c.clock, c.states, rfl, by simpa using h, fun m hm => hm⟩
  | g :: ls, c, L, h, hT, hp, hw => by
    obtain ⟨st, hst, hranged⟩ := h.state hp
    have hone : ∀ t, trig st.trans g = some t → t.first = t.last := by
      intro t ht
      obtain ⟨t1, t2⟩ := hranged.trig_some.1 ht
      rcases h.entry p cur st hT hp hst t t1 with h2 | h2
      · exact h2
      · exact absurd (h2 g t2.1 t2.2) (hw g (by simp)).2
    rw [List.map_cons, appendRanges]
    rcases appendRange_put_rule (mv := mv) hst hranged (hw g (by simp)).1 hr hone with ⟨he, h254⟩ | ⟨n, l', hu, hll, he⟩
    · left
      rw [he]
      refine ⟨rfl, fun n hn => ?_⟩
      have := hn.2 st (List.mem_of_getElem? hst)
      simp only [List.length_cons]
      omega
    · have hW : ∀ u, walk c.states u = some cur ↔ u = p :=
        fun u => ⟨fun hu => h.inj p u cur hT hp hu, fun hu => by rw [hu]; exact hp⟩
      obtain ⟨hi, hp'⟩ := h.revise (W := fun u => u = p) (st' := { st with trans := l' }) (H' := H)
        (L' := fun u x => if u = p ∧ x = g then (L u x).or (some r) else L u x) hW hst hu.ranged
        (by
          intro y
          simp only
          by_cases hy : y = g
          · rw [hy, hu.hit, next_old]
            rfl
          · rw [hu.miss y hy])
        (by
          intro u y hup
          have hold : L u y = (trig st.trans y).bind ruleOf := by
            rw [← h.look, lookAt, (hW u).2 hup, Option.bind_some, rule1, step_of hst]
          simp only
          by_cases hy : y = g
          · rw [if_pos ⟨hup, hy⟩, hold, hy, hu.hit, Option.bind_some, rule_old, ruleOf]
            by_cases h0 : oldRule st g = ruleNone
            · simp [h0, hr]
            · simp [h0]
          · rw [if_neg fun hh => hy hh.2, hold, hu.miss y hy])
        (fun u y hu' => by rw [if_neg fun hh => hu' hh.1])
        (fun u hu' => h.heads u cur st ((hW u).2 hu') hst) (fun _ _ => rfl)
        (fun t ht => by
          rcases hu.mem t ht with rfl | ht
          · refine Or.inr ⟨Or.inl ?_, fun _ _ _ => Or.inl rfl⟩
            simp only
            split
            · exact hr
            · assumption
          · exact Or.inl ht) n
      have hsm : ∀ m, Small c m →
          Small { c with clock := n, states := c.states.set cur { st with trans := l' } } (m + 1) := by
        intro m hm
        refine ⟨by simp only [List.length_set]; have := hm.1; omega, small_set hm (by omega) ?_⟩
        have := hm.2 _ (List.mem_of_getElem? hst)
        simp only
        omega
      rw [he, Res.ok_bind]
      rcases Bush.marks hr ls hi hT (by simp only; rw [hp']; exact hp) (fun x hx => hw x (by simp [hx])) with
        ⟨h1, h2⟩ | ⟨n', S, h1, h2, h3⟩
      · refine Or.inl ⟨h1, fun m hm => ?_⟩
        have := h2 _ (hsm m hm)
        simp only [List.length_cons]
        omega
      · refine Or.inr ⟨n', S, h1, h2.congr (fun u => Iff.rfl) ?_ (fun u => rfl) (fun u => Iff.rfl), fun m hm => ?_⟩
        · intro u x
          simp only [List.mem_cons]
          by_cases hup : u = p
          · by_cases hxg : x = g
            · by_cases hxl : x ∈ ls
              · subst hxg
                simp [hup, hxl]
              · simp [hup, hxg] at hxl ⊢
            · simp [hup, hxg]
          · simp [hup]
        · have := h3 _ (hsm m hm)
          rw [List.length_cons, Nat.add_comm ls.length 1, ← Nat.add_assoc]
          exact this

/-- What happens before the ranges of an element are handled. -/
theorem Bush.begin {k : Kind} {mv : Nat → Bool} {sets : Sets} {hl rule cur : Nat} {x : Nat × Nat} {P : List (Nat × Nat)}
    {W : List Nat → Prop} (h : Bush c d R L H T E) (hW : ∀ u, walk c.states u = some cur ↔ W u) (hex : ∃ u, W u)
    (hx : LevelOf k sets x P) : ∃ st c0, c0.states[cur]? = some st ∧
      Bush c0 d R L (fun u => if W u then headUpd hl (H u) else H u) T E ∧
      (∀ u, walk c0.states u = some cur ↔ W u) ∧ c0.depth = c.depth ∧ c0.toStates = c.toStates ∧
      c0.byDepth = c.byDepth ∧ c0.ruleIndex = c.ruleIndex ∧ c0.compiling = c.compiling ∧
      (∀ n, Small c n → Small c0 n) ∧ feedElem k mv sets hl rule x.1 x.2 [cur] c = (do
        let c ← appendRanges k mv cur rule P c0
        let c ← freeUnused c
        if u8 (c.depth + 1) = 0 then .panic brokenCode else
        return (c.toStates, { c with depth := u8 (c.depth + 1), toStates := [] })) := by
  obtain ⟨p, hp⟩ := hex
  obtain ⟨st, hst, _⟩ := h.state ((hW p).2 hp)
  have hlt := h.bound p cur ((hW p).2 hp)
  obtain ⟨h1, hw1⟩ := h.head hW hst hl
  refine ⟨st.updateHead hl, _, ?_, h1, fun u => by rw [← hW, hw1], rfl, rfl, rfl, rfl, rfl, fun n hn => hn.head hst hl,
    feedElem_level hx hst⟩
  show (c.states.set cur (st.updateHead hl))[cur]? = _
  rw [List.getElem?_set, if_pos rfl, if_pos hlt]

/-- Feeding the rest of a rule through states of its own. -/
theorem Bush.strand {k : Kind} {mv : Nat → Bool} {sets : Sets} {hl : Nat} :
    ∀ (rest : List ((Nat × Nat) × List (Nat × Nat))) (x : (Nat × Nat) × List (Nat × Nat)) {c : Compiler}
    {R : List Nat → Prop} {H : List Nat → Nat × Nat} {cur : Nat} {W : List Nat → Prop},
    (∀ y ∈ x :: rest, LevelOf k sets y.1 y.2 ∧ y.2 ≠ [] ∧ Level k [] y.2) → Bush c c.depth R L H T E →
    (∀ u, walk c.states u = some cur ↔ W u) → (∃ u, W u) → (∀ u, W u → u.length = c.depth) →
    (∀ u, W u → ∀ y ∈ spread x.2, L u y = none ∧ ¬ R (u ++ [y])) →
    (∀ u, T u → W u → ∀ y ∈ spread x.2, E u y) → c.toStates = [] → c.depth ≤ c.byDepth.length →
    c.depth + (rest.length + 1) < 256 → c.ruleIndex ≠ ruleNone →
    Outcome k mv sets hl ((x :: rest).map (·.1)) cur c R L H T E W ((x :: rest).map fun y => spread y.2)
      ((x :: rest).map (·.2.length)).sum
  | [], x, c, R, H, cur, W, hx, h, hW, hex, hlen, hfree, hE, hto, hd, h255, hri => by
    obtain ⟨hx1, hx2, hx3⟩ := hx x (by simp)
    obtain ⟨st, c0, hst, h1, hW0, e1, e2, e3, e4, e5, hsm, hfe⟩ :=
      h.begin (mv := mv) (hl := hl) (rule := c.ruleIndex) hW hex hx1
    obtain ⟨p, hp⟩ := hex
    have hlv : Level k st.trans x.2 := h1.level hx3 ((hW0 p).2 hp) hst (hfree p hp)
    have hWR : ∀ u, W u → R u := fun u hu => (h.reach u).1 (by rw [(hW u).2 hu]; rfl)
    have hf : feedList k mv sets hl ([x].map (·.1)) [cur] c = (do
        let (froms, c) ← feedElem k mv sets hl c.ruleIndex x.1.1 x.1.2 [cur] c
        feedList k mv sets hl [] froms c) := by
      simp only [List.map_cons, List.map_nil]
      rw [feedList, if_pos rfl]
    unfold Outcome
    rw [hf, hfe]
    simp only [List.map_cons, List.map_nil, List.sum_cons, List.sum_nil, Nat.add_zero]
    rcases h1.rules_at (mv := mv) (r := c.ruleIndex) hW0 hst hri hlv hE with ⟨he, h2⟩ | ⟨n, S, he, hi, h2⟩
    · left
      rw [he]
      exact ⟨rfl, fun n hn => h2 n (hsm n hn)⟩
    · right
      obtain ⟨c', b1, b2, b3, b4, b5, b6, b7, b8⟩ := hi.bump (by simp only; rw [e1, e3]; exact hd)
        (by simp only; rw [e1]; simp only [List.length_nil] at h255; omega)
      rw [he, Res.ok_bind, b1, Res.ok_bind]
      refine ⟨c', _, rfl, b2.congr ?_ ?_ ?_ (fun _ => Iff.rfl), by rw [b7]; exact e4, by rw [b8]; exact e5, fun n hn => ?_⟩
      · intro u
        rw [along_cons]
        exact ⟨Or.inl, fun hh => hh.elim id fun hh => hh.elim (hWR u) fun hh => absurd hh along_nil⟩
      · intro u y
        simp only [ends_last]
      · intro u
        by_cases hu : W u
        · rw [if_pos hu, if_pos (along_cons.2 (Or.inl hu))]
        · rw [if_neg hu, if_neg fun hh => (along_cons.1 hh).elim hu along_nil]
      · have := h2 n (hsm n hn)
        unfold Small at this ⊢
        rw [b5]
        exact this
  | z :: rest, x, c, R, H, cur, W, hx, h, hW, hex, hlen, hfree, hE, hto, hd, h255, hri => by
    obtain ⟨hx1, hx2, hx3⟩ := hx x (by simp)
    obtain ⟨st, c0, hst, h1, hW0, e1, e2, e3, e4, e5, hsm, hfe⟩ :=
      h.begin (mv := mv) (hl := hl) (rule := ruleNone) hW hex hx1
    have hex' := hex
    obtain ⟨p, hp⟩ := hex
    have hlv : Level k st.trans x.2 := h1.level hx3 ((hW0 p).2 hp) hst (hfree p hp)
    have hWR : ∀ u, W u → R u := fun u hu => (h.reach u).1 (by rw [(hW u).2 hu]; rfl)
    have hnR : ∀ u, ext W (spread x.2) u → ¬ R u := by
      rintro u ⟨v, y, h1, h2, rfl⟩
      exact (hfree v h1 y h2).2
    rw [← e1] at h1
    rcases h1.links (mv := mv) hW0 (fun u hu => by rw [e1]; exact hlen u hu) hex' (by rw [e2]; exact hto)
        (by rw [e1, e3]; exact hd) hst hlv hx2 hE (fun u hu hT => hnR u hu (h.reached u hT)) with
      ⟨he, h2⟩ | ⟨s, c1, he, hi, hws, f1, f2, f3, f4, f5, h2⟩
    · left
      rw [List.map_cons, feedList, if_neg (by simp), hfe, he]
      refine ⟨rfl, fun n hn => ?_⟩
      have := h2 n (hsm n hn)
      simp only [List.map_cons, List.sum_cons]
      omega
    · simp only [List.length_cons] at h255
      obtain ⟨c', b1, b2, b3, b4, b5, b6, b7, b8⟩ := hi.bump (Nat.le_of_lt f3) (by rw [f1, e1]; omega)
      have hdep : c'.depth = c.depth + 1 := by rw [b3, f1, e1]
      rw [e1, ← hdep] at b2
      have hfe' : feedElem k mv sets hl ruleNone x.1.1 x.1.2 [cur] c = .ok ([s], c') := by
        rw [hfe, he, Res.ok_bind, b1, f2]
      have hne : ∃ y, y ∈ spread x.2 := by
        obtain ⟨q, qs, hq⟩ := List.exists_cons_of_ne_nil hx2
        exact ⟨q.1, mem_spread.2 ⟨q, by rw [hq]; simp, Nat.le_refl _, hx3.le q (by rw [hq]; simp)⟩⟩
      obtain ⟨y0, hy0⟩ := hne
      have ih := Bush.strand (k := k) (mv := mv) (sets := sets) (hl := hl) rest z (cur := s)
        (fun y hy => hx y (List.mem_cons_of_mem _ hy)) b2 (W := ext W (spread x.2)) (by rw [b5]; exact hws)
        ⟨p ++ [y0], ext_snoc.2 ⟨hp, hy0⟩⟩
        (by
          rintro u ⟨v, y, h1, _, rfl⟩
          rw [List.length_append, List.length_singleton, hlen v h1, hdep])
        (by
          intro u hu y hy
          have hn := hnR u hu
          refine ⟨h.nothing hn y, ?_⟩
          rintro (hh | hh)
          · exact hn (h.prefix hh)
          · obtain ⟨v, y', h1, _, rfl⟩ := hu
            have := hlen _ (ext_snoc.1 hh).1
            rw [List.length_append, hlen v h1] at this
            simp at this)
        (fun u hT hu => absurd (h.reached u hT) (hnR u hu)) b4 (by rw [hdep, b6]; have := e1; omega)
        (by rw [hdep]; omega) (by rw [b7, f4, e4]; exact hri)
      have hri' : c'.ruleIndex = c.ruleIndex := by rw [b7, f4, e4]
      exact Outcome.step (a := x.2.length) (by simp) (by simp) hfe' hri' (by rw [b8, f5, e5])
        (fun n hn => by
          have := h2 n (hsm n hn)
          unfold Small at this ⊢
          rw [b5]
          exact this) hWR ih

/-- Feeding the last element of a rule, in the tree. -/
theorem Bush.leaf {k : Kind} {mv : Nat → Bool} {sets : Sets} {hl : Nat} {last : Nat × Nat} {ls : List Nat}
    (h : Bush c c.depth R L H T E) {p : List Nat} {cur : Nat} (hp : walk c.states p = some cur) (hT : T p)
    (hri : c.ruleIndex ≠ ruleNone) (hd : c.depth ≤ c.byDepth.length)
    (hls : LevelOf k sets last (ls.map fun v => (v, v))) (hw : ∀ g ∈ ls, g + 1 < 2 ^ (8 * k.width) ∧ ¬ E p g)
    (h255 : c.depth + 1 < 256) :
    Outcome k mv sets hl [last] cur c R L H T E (fun u => u = p) [ls] ls.length := by
  have hW : ∀ u, walk c.states u = some cur ↔ u = p :=
    fun u => ⟨fun hu => h.inj p u cur hT hp hu, fun hu => by rw [hu]; exact hp⟩
  obtain ⟨st, c0, hst, h1, hW0, e1, e2, e3, e4, e5, hsm, hfe⟩ :=
    h.begin (mv := mv) (hl := hl) (rule := c.ruleIndex) (W := fun u => u = p) hW ⟨p, rfl⟩ hls
  have hf : feedList k mv sets hl [last] [cur] c = (do
      let (froms, c) ← feedElem k mv sets hl c.ruleIndex last.1 last.2 [cur] c
      feedList k mv sets hl [] froms c) := by
    rw [feedList, if_pos rfl]
  unfold Outcome
  rw [hf, hfe]
  rcases Bush.marks (k := k) (mv := mv) hri ls h1 hT ((hW0 p).2 rfl) hw with ⟨he, h2⟩ | ⟨n, S, he, hi, h2⟩
  · left
    rw [he]
    exact ⟨rfl, fun n hn => h2 n (hsm n hn)⟩
  · right
    obtain ⟨c', b1, b2, b3, b4, b5, b6, b7, b8⟩ := hi.bump (by simp only; rw [e1, e3]; exact hd)
      (by simp only; rw [e1]; exact h255)
    rw [he, Res.ok_bind, b1, Res.ok_bind]
    refine ⟨c', _, rfl, b2.congr ?_ ?_ ?_ (fun _ => Iff.rfl), by rw [b7]; exact e4, by rw [b8]; exact e5, fun n hn => ?_⟩
    · intro u
      rw [along_cons]
      exact ⟨Or.inl, fun hh => hh.elim id fun hh => hh.elim (fun hh => by rw [hh]; exact h.reached p hT)
        fun hh => absurd hh along_nil⟩
    · intro u y
      simp only [ends_last]
    · intro u
      by_cases hu : u = p
      · rw [if_pos hu, if_pos ((along_cons (W := fun u => u = p)).2 (Or.inl hu))]
      · rw [if_neg hu, if_neg fun hh => ((along_cons (W := fun u => u = p)).1 hh).elim hu along_nil]
    · have := h2 n (hsm n hn)
      unfold Small at this ⊢
      rw [b5]
      exact this

/-- Feeding plain elements and then the rest. -/
theorem Bush.front {k : Kind} {mv : Nat → Bool} {sets : Sets} {hl idx cost N : Nat} {q : List Nat}
    {tail : List (Nat × Nat)} {Ls : List (List Nat)} {R0 T0 : List Nat → Prop} (htail : tail ≠ []) (hLs : Ls ≠ [])
    (hE : ∀ u g, u ++ [g] <+: q → ¬ E u g) (hRT : ∀ u, R0 u → u <+: q → T0 u) (hq : q.length + N < 256) (hN : 0 < N)
    (hK : ∀ {c : Compiler} {R : List Nat → Prop} {H : List Nat → Nat × Nat} {T : List Nat → Prop} {cur : Nat},
      Bush c c.depth R L H T E → walk c.states q = some cur → T q → q.length = c.depth →
      (∀ u, R u → R0 u ∨ u <+: q) → c.toStates = [] → c.depth ≤ c.byDepth.length → c.ruleIndex = idx →
      Outcome k mv sets hl tail cur c R L H T E (fun u => u = q) Ls cost) :
    ∀ (gs : List Nat) {c : Compiler} {R : List Nat → Prop} {H : List Nat → Nat × Nat} {T : List Nat → Prop}
    {p : List Nat} {cur : Nat}, p ++ gs = q → Bush c c.depth R L H T E → walk c.states p = some cur → T p →
    p.length = c.depth → (∀ u, R u → R0 u ∨ u <+: p) → (∀ u, T0 u → T u) → c.toStates = [] →
    c.depth ≤ c.byDepth.length → (∀ g ∈ gs, Elem k g) → c.ruleIndex = idx →
    Outcome k mv sets hl ((gs.map fun g => (g, setNone)) ++ tail) cur c R L H
      (fun u => T u ∨ Between p q u) E (fun u => u = p) ((gs.map fun g => [g]) ++ Ls) (gs.length + cost)
  | [], c, R, H, T, p, cur, hpq, h, hp, hT, hlen, hR, hT0, hto, hd, hel, hi => by
    rw [List.append_nil] at hpq
    subst hpq
    have := hK h hp hT hlen hR hto hd hi
    have hTT : (fun u => T u ∨ Between p p u) = T := by
      funext u
      refine propext ⟨fun hh => hh.elim id fun hh => by rw [between_last.1 hh]; exact hT, Or.inl⟩
    simp only [List.map_nil, List.nil_append, List.length_nil, Nat.zero_add]
    rw [hTT]
    exact this
  | g :: gs, c, R, H, T, p, cur, hpq, h, hp, hT, hlen, hR, hT0, hto, hd, hel, hi => by
    obtain ⟨hw, hg⟩ := hel g (List.mem_cons_self ..)
    have happ : p ++ [g] ++ gs = q := by rw [← hpq]; simp
    have hpre : p ++ [g] <+: q := by rw [← happ]; exact List.prefix_append _ _
    have hql : q.length = p.length + (gs.length + 1) := by rw [← hpq]; simp
    rcases h.plain (k := k) (mv := mv) (sets := sets) (hl := hl) (g := g) hp hT hlen hto hd hw hg (by omega) (hE p g hpre)
        (fun hR' => by
          rcases hR _ hR' with h1 | h1
          · exact hT0 _ (hRT _ h1 hpre)
          · have := h1.length_le
            simp at this
            omega) with ⟨he, hs⟩ | ⟨s, c', he, hb, hws, hdep, hto', hd', hr', hc', hsm⟩
    · left
      rw [List.map_cons, List.cons_append, feedList, if_neg (by simp [htail]), he]
      refine ⟨rfl, fun n hn => ?_⟩
      have := hs n hn
      simp only [List.length_cons]
      omega
    · have hext : ext (fun v => v = p) [g] = fun u => u = p ++ [g] := by
        funext u
        refine propext ⟨?_, ?_⟩
        · rintro ⟨v, y, rfl, hy, rfl⟩
          rw [List.mem_singleton.1 hy]
        · rintro rfl
          exact ext_snoc.2 ⟨rfl, by simp⟩
      have ih := Bush.front (k := k) (mv := mv) (sets := sets) (hl := hl) htail hLs hE hRT hq hN hK gs happ hb hws
        (Or.inr rfl) (by simp [hdep, hlen])
        (fun u hu => by
          rcases hu with hu | hu
          · exact (hR u hu).imp id fun hh => hh.trans (List.prefix_append _ _)
          · rw [hext] at hu
            rw [hu]
            exact Or.inr (List.prefix_refl _))
        (fun u hu => Or.inl (hT0 u hu)) hto' hd' (fun x hx => hel x (List.mem_cons_of_mem _ hx)) (hr'.trans hi)
      have hTT : (fun u => (T u ∨ u = p ++ [g]) ∨ Between (p ++ [g]) q u) = fun u => T u ∨ Between p q u := by
        funext u
        refine propext ?_
        rw [← hpq, between_cons (p := p) (g := g)]
        constructor
        · rintro ((hu | hu) | hu)
          · exact Or.inl hu
          · refine Or.inr (Or.inr ?_)
            rw [hu]
            exact ⟨List.prefix_refl _, by rw [hpq]; exact hpre⟩
          · exact Or.inr (Or.inr hu)
        · rintro (hu | rfl | hu)
          · exact Or.inl (Or.inl hu)
          · exact Or.inl (Or.inl hT)
          · exact Or.inr hu
      rw [hTT] at ih
      rw [← hext] at ih
      have := Outcome.step (a := 1) (x := (g, setNone)) (by simp [htail]) (by simp [hLs]) he hr' hc' hsm
        (fun u (hu : u = p) => by rw [hu]; exact h.reached p hT) ih
      rw [List.length_cons, show gs.length + 1 + cost = 1 + (gs.length + cost) by omega]
      exact this

end TreeModel
