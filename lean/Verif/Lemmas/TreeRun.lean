import Verif.Lemmas.FeedAll
import Verif.Spec.KnownSets
import Verif.Spec.RuleScan

/-!
# Compiled rules without sets before the last element, and running the tree
-/

namespace TreeModel
open Go Helpers ScannerModel Spec

/-- What the states of a tree recognise. -/
structure Recognises (S : List State) (F : List Fed) : Prop where
  fires : ∀ st ∈ S, ∀ g, st.trigger g =
    .ok (match trig st.trans g with | some t => (t.next, t.rule) | none => (stateNone, ruleNone))
  bound : ∀ u s, walk S u = some s → s < S.length
  reach : ∀ u, (walk S u).isSome = true ↔ FedR F u
  look : ∀ u x, lookAt S u x = fedL F u x
  heads : ∀ u s st, walk S u = some s → S[s]? = some st → (st.minHead, st.maxHead) = fedH F u

theorem feedAll_ok {k : Kind} {mv : Nat → Bool} {sets : Sets} : ∀ (l : List (Bytes × Meal)) {c : Compiler} {F : List Fed},
    Ready c F → (∀ x ∈ l, Plain k sets x.1 x.2) →
    (∀ x ∈ l, ∀ f ∈ F, f.index < x.2.index) → (l.Pairwise fun a b => a.2.index < b.2.index) →
    (∀ x ∈ l, x.2.index ≠ ruleNone) →
    (feedAll k mv sets (l.map fun x => (x.1, x.2.index)) c = .err hitLimits ∧
      ∀ n, (∀ i, Small (enter c i) n) → 253 < n + (l.map (·.2.weight)).sum) ∨
    ∃ c', feedAll k mv sets (l.map fun x => (x.1, x.2.index)) c = .ok c' ∧ Ready c' (F ++ l.flatMap (·.2.feds)) ∧
      (l ≠ [] → c'.states ≠ [])
  | [], c, F, h, _, _, _, _ => Or.inr ⟨c, rfl, by simpa using h, fun h => absurd rfl h⟩
  | x :: l, c, F, h, hp, hF, hs, hi => by
    have hlt : ∀ y ∈ F, y.index < x.2.index := hF x (List.mem_cons_self ..)
    obtain ⟨hs1, hs2⟩ := List.pairwise_cons.1 hs
    simp only [List.map_cons, feedAll]
    rcases feed_ok (mv := mv) (sets := sets) h (hp x (List.mem_cons_self ..)) hlt (hi x (List.mem_cons_self ..)) with
      ⟨h1, h2⟩ | ⟨c', h1, h2, h3, h4⟩
    · left
      rw [h1]
      refine ⟨rfl, fun n hn => ?_⟩
      have := h2 n (hn _)
      simp only [List.sum_cons]
      omega
    · rw [h1, Res.ok_bind]
      have := feedAll_ok (mv := mv) (sets := sets) l h2 (fun y hy => hp y (List.mem_cons_of_mem _ hy))
        (fun y hy f hf => by
          rcases List.mem_append.1 hf with hf | hf
          · exact hF y (List.mem_cons_of_mem _ hy) f hf
          · obtain ⟨g, _, rfl⟩ := List.mem_map.1 hf
            exact hs1 y hy) hs2 (fun y hy => hi y (List.mem_cons_of_mem _ hy))
      rcases this with ⟨h5, h6⟩ | ⟨c2, h5, h6, h7⟩
      · left
        refine ⟨h5, fun n hn => ?_⟩
        have h8 := h4 n (hn _)
        have := h6 (n + x.2.weight) (fun i => by
          have hst : (enter c' i).states = c'.states := by
            simp only [enter]
            rw [if_neg]
            intro hh
            exact h3 (List.length_eq_zero_iff.1 hh)
          unfold Small
          rw [hst]
          exact h8)
        simp only [List.sum_cons]
        omega
      · right
        refine ⟨c2, h5, by simpa using h6, fun _ => ?_⟩
        by_cases hl : l = []
        · subst hl
          simp only [List.map_nil, feedAll, Res.ok.injEq] at h5
          rw [← h5]
          exact h3
        · exact h7 hl

theorem compile_ok {k : Kind} {mv : Nat → Bool} {sets : Sets} {l : List (Bytes × Meal)} {c : Compiler}
    (hc : c.compiling = false) (hp : ∀ x ∈ l, Plain k sets x.1 x.2)
    (hs : l.Pairwise fun a b => a.2.index < b.2.index) (hi : ∀ x ∈ l, x.2.index < 255) :
    (compile k mv sets (l.map fun x => (x.1, x.2.index)) c = .err hitLimits ∧ 253 < (l.map (·.2.weight)).sum) ∨
    ∃ S c', compile k mv sets (l.map fun x => (x.1, x.2.index)) c = .ok (S, c') ∧ c'.compiling = false ∧
      c'.states = [] ∧ (l ≠ [] → Recognises S (l.flatMap (·.2.feds))) := by
  unfold compile begin
  rw [if_neg (by simp [hc]), Res.ok_bind]
  generalize hc0 : ({ c with compiling := true, states := [], rules := [], uses := [], freed := [], byDepth := [] } : Compiler) = c0
  have h0 : Ready c0 [] := by rw [← hc0]; exact Ready.nil rfl rfl rfl rfl rfl rfl
  rcases feedAll_ok (mv := mv) (sets := sets) l h0 hp (by simp) hs
    (fun x hx => by have := hi x hx; simp only [ruleNone]; omega) with
    ⟨h1, h2⟩ | ⟨c', h1, h2, h3⟩
  · left
    rw [h1]
    refine ⟨rfl, ?_⟩
    have := h2 0 (fun i => by
      rw [← hc0]
      refine ⟨by simp [enter], ?_⟩
      intro st hst
      simp only [enter, List.length_nil, if_pos] at hst
      rw [List.mem_singleton.1 hst]
      exact Nat.le_refl _)
    simpa using this
  · right
    rw [h1, Res.ok_bind, finish, if_neg (by simp [h2.compiling])]
    refine ⟨_, _, rfl, rfl, rfl, fun hl => ?_⟩
    have hne := h3 hl
    have hinv := h2.inv 255 (by
      intro f hf
      simp only [List.nil_append, List.mem_flatMap] at hf
      obtain ⟨x, hx, hf⟩ := hf
      obtain ⟨g, _, rfl⟩ := List.mem_map.1 hf
      exact hi x hx)
    have hst : (enter c' 255).states = c'.states := by
      simp only [enter]
      rw [if_neg]
      intro hh
      exact hne (List.length_eq_zero_iff.1 hh)
    rw [List.nil_append] at hinv
    have h5 := hinv.single
    have h6 := hinv.bound
    have h7 := hinv.reach
    have h8 := hinv.look
    have h9 := hinv.heads
    rw [hst] at h5 h6 h7 h8 h9
    exact ⟨fun st hm => trigger_ok (h5 st hm), h6, h7, h8, h9⟩

/-- The best match for what was read so far. -/
def BestFor (F : List Fed) (u : List Nat) (b : Nat) : Prop := IsBest (F.map fun f => (f.path, f.index)) u b

theorem find_first {F : List Fed} {v : List Nat} {f : Fed} (hs : F.Pairwise fun a b => a.index ≤ b.index)
    (h : F.find? (fun f => decide (f.path = v)) = some f) :
    f ∈ F ∧ f.path = v ∧ ∀ x ∈ F, x.path = v → f.index ≤ x.index := by
  induction F with
  | nil => cases h
  | cons a F ih =>
    rw [List.find?_cons] at h
    obtain ⟨ha, hF⟩ := List.pairwise_cons.1 hs
    by_cases hav : a.path = v
    · simp only [hav, decide_true, Option.some.injEq] at h
      subst h
      refine ⟨List.mem_cons_self .., hav, ?_⟩
      intro x hx _
      rcases List.mem_cons.1 hx with rfl | hx
      · exact Nat.le_refl _
      · exact ha x hx
    · simp only [hav, decide_false] at h
      obtain ⟨h1, h2, h3⟩ := ih hF h
      refine ⟨List.mem_cons_of_mem _ h1, h2, ?_⟩
      intro x hx hxv
      rcases List.mem_cons.1 hx with rfl | hx
      · exact absurd hxv hav
      · exact h3 x hx hxv

/-- Prefixes of one more element. -/
theorem prefix_snoc {v u : List Nat} {g : Nat} : v <+: u ++ [g] ↔ v <+: u ∨ v = u ++ [g] := by
  rw [List.prefix_concat_iff]
  exact Or.comm

theorem BestFor.step {F : List Fed} {u : List Nat} {b g : Nat} (hs : F.Pairwise fun a b => a.index ≤ b.index)
    (hb : BestFor F u b) : BestFor F (u ++ [g]) ((fedL F u g).getD b) := by
  unfold BestFor IsBest at hb ⊢
  cases hf : fedL F u g with
  | some i =>
    unfold fedL at hf
    rw [Option.map_eq_some_iff] at hf
    obtain ⟨f, hf, hfi⟩ := hf
    obtain ⟨h1, h2, h3⟩ := find_first hs hf
    right
    refine ⟨(f.path, f.index), List.mem_map.2 ⟨f, h1, rfl⟩, hfi.symm, by rw [h2]; exact List.prefix_refl _, ?_⟩
    intro y hy hyp
    obtain ⟨x, hx, rfl⟩ := List.mem_map.1 hy
    simp only at hyp ⊢
    rcases prefix_snoc.1 hyp with hyp | hyp
    · left
      have := hyp.length_le
      rw [h2, List.length_append, List.length_singleton]
      omega
    · right
      exact ⟨by rw [hyp, h2], h3 x hx hyp⟩
  | none =>
    unfold fedL at hf
    rw [Option.map_eq_none_iff, List.find?_eq_none] at hf
    have hno : ∀ y ∈ F.map (fun f => (f.path, f.index)), y.1 <+: u ++ [g] → y.1 <+: u := by
      intro y hy hyp
      obtain ⟨x, hx, rfl⟩ := List.mem_map.1 hy
      rcases prefix_snoc.1 hyp with hyp | hyp
      · exact hyp
      · exact absurd (by simpa using hyp) (hf x hx)
    rcases hb with ⟨h1, h2⟩ | ⟨x, h1, h2, h3, h4⟩
    · exact Or.inl ⟨h1, fun y hy hyp => h2 y hy (hno y hy hyp)⟩
    · exact Or.inr ⟨x, h1, h2, h3.trans (List.prefix_append _ _), fun y hy hyp => h4 y hy (hno y hy hyp)⟩

/-- A tree that has read `u`. -/
structure At (S : List State) (F : List Fed) (u : List Nat) (t : Tree) : Prop where
  states : t.states = S
  best : BestFor F u t.best
  index : t.scanning = true → walk S u = some t.index
  stop : t.scanning = false → ∀ f ∈ F, u <+: f.path → u = f.path

theorem beginSeq_ok {S : List State} {F : List Fed} {t : Tree} (hS : t.states = S) (hp : ∀ f ∈ F, f.path ≠ [])
    (h : t.scanning = false) : ∃ t', t.beginSeq = .ok t' ∧ At S F [] t' ∧ t'.scanning = true := by
  refine ⟨{ t with index := 0, best := ruleNone, scanning := true }, ?_, ⟨hS, Or.inl ⟨rfl, ?_⟩, fun _ => rfl, ?_⟩, rfl⟩
  · unfold Tree.beginSeq
    rw [if_neg (by simp [h])]
  · intro x hx hxp
    obtain ⟨f, hf, rfl⟩ := List.mem_map.1 hx
    exact hp f hf (List.prefix_nil.1 hxp)
  · intro h; cases h

theorem treeFeed_ok {S : List State} {F : List Fed} {t : Tree} {u : List Nat} (hr : Recognises S F)
    (hs : F.Pairwise fun a b => a.index ≤ b.index) (ha : At S F u t) (hsc : t.scanning = true) (g : Nat) :
    ∃ t', t.feed g = .ok t' ∧ At S F (u ++ [g]) t' := by
  have hw := ha.index hsc
  have hlt := hr.bound u _ hw
  have hst := List.getElem?_eq_getElem hlt
  generalize S[t.index] = st at hst
  have hsing := hr.fires st (List.mem_of_getElem? hst)
  have hfe : t.feed g = .ok { t with
      index := ((trig st.trans g).map (·.next)).getD stateNone
      best := (fedL F u g).getD t.best
      scanning := if ((trig st.trans g).map (·.next)).getD stateNone = stateNone then false else t.scanning } := by
    unfold Tree.feed
    rw [if_neg (by simp [hsc]), ha.states, idx_eq_ok.2 hst, Res.ok_bind, hsing, Res.ok_bind]
    have hl : fedL F u g = (trig st.trans g).bind ruleOf := by
      rw [← hr.look, lookAt, hw, Option.bind_some, rule1, step, hst, Option.bind_some]
    rw [hl]
    cases trig st.trans g with
    | none => simp
    | some x =>
      simp only [Option.map_some, Option.getD_some, Option.bind_some, ruleOf, Res.pure_eq]
      by_cases h0 : x.rule = ruleNone
      · simp [h0]
      · simp [h0]
  rw [hfe]
  refine ⟨_, rfl, ha.states, ha.best.step hs, ?_, ?_⟩
  · intro h1
    simp only at h1 ⊢
    have hne : ((trig st.trans g).map (·.next)).getD stateNone ≠ stateNone := by
      intro h2; rw [if_pos h2] at h1; cases h1
    rw [walk_snoc, hw, Option.bind_some, next1, step, hst, Option.bind_some]
    cases ht : trig st.trans g with
    | none => rw [ht] at hne; simp at hne
    | some x =>
      rw [ht] at hne
      simp only [Option.map_some, Option.getD_some] at hne
      simp [nextOf, hne]
  · intro h1 f hf hp
    simp only at h1
    have h2 : ((trig st.trans g).map (·.next)).getD stateNone = stateNone := by
      refine Decidable.not_not.1 fun h2 => ?_
      rw [if_neg h2, hsc] at h1
      cases h1
    refine Decidable.not_not.1 fun hne => ?_
    have hR : FedR F (u ++ [g]) := Or.inr ⟨f, hf, hp, hne⟩
    rw [← hr.reach, walk_snoc, hw, Option.bind_some, next1, step, hst, Option.bind_some] at hR
    cases ht : trig st.trans g with
    | none => rw [ht] at hR; cases hR
    | some x =>
      rw [ht] at hR h2
      simp only [Option.map_some, Option.getD_some] at h2
      simp [nextOf, h2] at hR

/-- After stopping, nothing more is matched. -/
theorem At.rest {S : List State} {F : List Fed} {t : Tree} {u w : List Nat} (ha : At S F u t)
    (h : t.scanning = false) : BestFor F (u ++ w) t.best := by
  have hno : ∀ y ∈ F.map (fun f => (f.path, f.index)), y.1 <+: u ++ w → y.1 <+: u := by
    intro y hy hyp
    obtain ⟨x, hx, rfl⟩ := List.mem_map.1 hy
    rcases List.prefix_or_prefix_of_prefix hyp (List.prefix_append u w) with h1 | h1
    · exact h1
    · have := ha.stop h x hx h1
      rw [this]
      exact List.prefix_refl _
  rcases ha.best with ⟨h1, h2⟩ | ⟨x, h1, h2, h3, h4⟩
  · exact Or.inl ⟨h1, fun y hy hyp => h2 y hy (hno y hy hyp)⟩
  · exact Or.inr ⟨x, h1, h2, h3.trans (List.prefix_append _ _), fun y hy hyp => h4 y hy (hno y hy hyp)⟩

theorem matchLoop_ok {S : List State} {F : List Fed} (hr : Recognises S F)
    (hs : F.Pairwise fun a b => a.index ≤ b.index) : ∀ (w : List Nat) {u : List Nat} {t : Tree}, At S F u t →
    t.scanning = true → ∃ b, Tree.matchLoop w t = .ok b ∧ BestFor F (u ++ w) b
  | [], u, t, ha, hsc => by
    unfold Tree.matchLoop Tree.breakSeq
    rw [if_neg (by simp [hsc]), Res.ok_bind]
    exact ⟨_, rfl, by simpa using ha.best⟩
  | g :: w, u, t, ha, hsc => by
    obtain ⟨t', h1, h2⟩ := treeFeed_ok hr hs ha hsc g
    unfold Tree.matchLoop
    rw [h1, Res.ok_bind]
    by_cases h3 : t'.scanning = true
    · rw [if_neg (by simp [h3])]
      have := matchLoop_ok hr hs w h2 h3
      simpa using this
    · have h3 : t'.scanning = false := by simpa using h3
      rw [if_pos (by simp [h3])]
      refine ⟨_, rfl, ?_⟩
      have := h2.rest (w := w) h3
      simpa using this

theorem run_ok {S : List State} {F : List Fed} (hr : Recognises S F) (hp : ∀ f ∈ F, f.path ≠ [])
    (hs : F.Pairwise fun a b => a.index ≤ b.index) {t : Tree} (hS : t.states = S) (h : t.scanning = false)
    (w : List Nat) : ∃ b, t.run w = .ok b ∧ BestFor F w b := by
  obtain ⟨t', h1, h2, h3⟩ := beginSeq_ok hS hp h
  unfold Tree.run
  rw [h1, Res.ok_bind]
  have := matchLoop_ok hr hs w h2 h3
  simpa using this

theorem blockElems_length (fs : List Fragment) : (blockElems fs).length = blockSize fs := by
  induction fs with
  | nil => rfl
  | cons f fs ih =>
    simp only [blockElems, blockSize, List.flatMap_cons, List.map_cons, List.sum_cons, List.length_append] at ih ⊢
    rw [ih]
    simp [Fragment.elems, Fragment.size]

theorem elems_length (r : RuleCode) : r.elems.length = blockSize r.head + blockSize r.body + blockSize r.tail := by
  simp [RuleCode.elems, blockElems_length, Nat.add_assoc]

theorem block_one {ok : Nat → Prop} {fs : List Fragment} (h : ∀ f ∈ fs, f.Ok ok) {v : Nat}
    (hv : InElem.one v ∈ blockElems fs) : ok v := by
  rw [blockElems, List.mem_flatMap] at hv
  obtain ⟨f, hf, hv⟩ := hv
  refine (h f hf).one v ?_
  simpa [Fragment.elems] using hv

theorem elem_ok {ok : Nat → Prop} {r : RuleCode} (h : r.Ok ok) {b v : Nat} (hm : (b, InElem.one v) ∈ r.elems) : ok v := by
  simp only [RuleCode.elems, List.mem_append, List.mem_map] at hm
  rcases hm with (⟨x, hx, hxe⟩ | ⟨x, hx, hxe⟩) | ⟨x, hx, hxe⟩
  · rw [(Prod.mk.inj hxe).2] at hx; exact block_one h.head hx
  · rw [(Prod.mk.inj hxe).2] at hx; exact block_one h.body hx
  · rw [(Prod.mk.inj hxe).2] at hx; exact block_one h.tail hx

/-- The inputs of a rule as they are fed. -/
def fedsOf (S : Nat → List Nat) (x : RuleCode × Nat) : List Fed :=
  (x.1.inputs S).map fun p => ⟨p, blockSize x.1.head, x.2⟩

/-- What the elements of a list stand for when they are single. -/
def ones (l : List (Nat × InElem)) : List Nat :=
  l.filterMap fun x => match x.2 with
    | .one v => some v
    | .set _ => none

theorem ones_pair {k : Kind} {l : List (Nat × InElem)} (h : ∀ b i, (b, InElem.set i) ∉ l) :
    (l.map (pair k)).map (·.2) = (ones l).map fun g => (g, setNone) := by
  unfold ones
  induction l with
  | nil => rfl
  | cons x l ih =>
    obtain ⟨b, e⟩ := x
    have ih := ih fun b i hh => h b i (List.mem_cons_of_mem _ hh)
    cases e with
    | set i => exact absurd (List.mem_cons_self ..) (h b i)
    | one v =>
      simp only [List.map_cons, pair]
      rw [ih]
      rfl

theorem ones_length {l : List (Nat × InElem)} (h : ∀ b i, (b, InElem.set i) ∉ l) : (ones l).length = l.length := by
  have := congrArg List.length (ones_pair (k := glyphKind) h)
  simpa using this.symm

theorem picks_length {l : List (List Nat)} : ∀ {p : List Nat}, p ∈ RuleCode.picks l → p.length = l.length := by
  induction l with
  | nil => intro p hp; rw [List.mem_singleton.1 hp]; rfl
  | cons c cs ih =>
    intro p hp
    simp only [RuleCode.picks, List.mem_flatMap, List.mem_map] at hp
    obtain ⟨v, _, q, hq, rfl⟩ := hp
    simp [ih hq]

theorem picks_snoc {S : Nat → List Nat} {l : List (Nat × InElem)} (h : ∀ b i, (b, InElem.set i) ∉ l)
    (x : Nat × InElem) : RuleCode.picks ((l ++ [x]).map (RuleCode.choices S)) =
      (RuleCode.choices S x).map fun g => ones l ++ [g] := by
  unfold ones
  induction l with
  | nil =>
    simp only [List.nil_append, List.map_cons, List.map_nil, RuleCode.picks, List.filterMap_nil]
    induction RuleCode.choices S x with
    | nil => rfl
    | cons a l ih => rw [List.flatMap_cons, ih]; rfl
  | cons y l ih =>
    obtain ⟨b, e⟩ := y
    have ih := ih fun b i hh => h b i (List.mem_cons_of_mem _ hh)
    cases e with
    | set i => exact absurd (List.mem_cons_self ..) (h b i)
    | one v =>
      rw [List.cons_append, List.map_cons, RuleCode.picks, ih]
      simp [RuleCode.choices]

theorem inputs_size {S : Nat → List Nat} {r : RuleCode} {p : List Nat} (h : p ∈ r.inputs S) : p.length = r.size := by
  rw [picks_length h, List.length_map]
  rfl

/-- The rule as it is fed. -/
theorem plain_of {k : Kind} {word : Nat → Bytes} {ok : Nat → Prop} {sets : Sets} {S : Nat → List Nat}
    {x : RuleCode × Nat} (h : x.1.Ok ok) (hn : x.1.SetsLast) {max : Nat} (hS : Known sets S max x.1) (hmax : max < 2 ^ (8 * k.width))
    (hs : scanRule k (x.1.bytes word) = .ok (x.1.elems.map (pair k))) (hk : ∀ v, ok v → Elem k v) :
    ∃ m : Meal, Plain k sets (x.1.bytes word) m ∧ m.index = x.2 ∧ m.feds = fedsOf S x ∧ m.weight = x.1.weight S := by
  have hlen := elems_length x.1
  have ht := h.total
  have h1 := h.outPos
  have h2 := h.outLe
  have hne : x.1.elems ≠ [] := by
    intro hh
    rw [hh] at hlen
    simp at hlen
    omega
  obtain ⟨l, y, hly⟩ : ∃ l y, x.1.elems = l ++ [y] := ⟨_, _, (List.dropLast_concat_getLast hne).symm⟩
  have hl : ∀ b i, (b, InElem.set i) ∉ l := by
    have := hn
    unfold RuleCode.SetsLast at this
    rwa [hly, List.dropLast_concat] at this
  have hol := ones_length hl
  have hll : l.length + 1 = x.1.elems.length := by rw [hly]; simp
  refine ⟨⟨ones l, RuleCode.choices S y, blockSize x.1.head, x.2⟩, ⟨⟨_, (pair k y).2, hs, ?_, ?_⟩, ?_, ?_, ?_, ?_, ?_⟩, rfl, ?_, ?_⟩
  · rw [hly, List.map_append, List.map_append, ones_pair hl]
    rfl
  · obtain ⟨b, e⟩ := y
    cases e with
    | one v => exact Or.inl ⟨rfl, (hk v (elem_ok h (b := b) (by rw [hly]; simp))).2, rfl⟩
    | set i =>
      obtain ⟨e1, _, e3, _⟩ := hS b i (by rw [hly]; simp)
      exact Or.inr ⟨rfl, e1, e3⟩
  · simp only [rdb, RuleCode.bytes]
    rw [idx_eq_ok.2 rfl, Res.ok_bind]
    simp only [Res.pure_eq, UInt8.toNat_ofNat']
    rw [Nat.mod_eq_of_lt (by omega)]
  · obtain ⟨b, e⟩ := y
    cases e with
    | one v => simp [RuleCode.choices]
    | set i => exact (hS b i (by rw [hly]; simp)).2.1
  · intro g hg
    obtain ⟨⟨b, e⟩, hm, he⟩ := List.mem_filterMap.1 hg
    cases e with
    | set i => cases he
    | one v =>
      have hgv : v = g := by simpa using he
      subst hgv
      exact hk _ (elem_ok h (b := b) (by rw [hly]; exact List.mem_append_left _ hm))
  · obtain ⟨b, e⟩ := y
    cases e with
    | one v =>
      intro g hg
      rw [List.mem_singleton.1 hg]
      exact (hk v (elem_ok h (b := b) (by rw [hly]; simp))).1
    | set i =>
      intro g hg
      have := (hS b i (by rw [hly]; simp)).2.2.2 g hg
      omega
  · show (ones l).length + 1 < 256
    omega
  · unfold Meal.feds fedsOf RuleCode.inputs
    rw [hly, picks_snoc hl, List.map_map]
    rfl
  · unfold Meal.weight RuleCode.weight
    rw [hly, List.map_append, List.sum_append]
    have : ∀ l : List (Nat × InElem), (∀ b i, (b, InElem.set i) ∉ l) →
        (l.map fun x => (RuleCode.choices S x).length).sum = l.length := by
      intro l hl
      induction l with
      | nil => rfl
      | cons z l ih =>
        obtain ⟨b, e⟩ := z
        cases e with
        | set i => exact absurd (List.mem_cons_self ..) (hl b i)
        | one v =>
          rw [List.map_cons, List.sum_cons, ih fun b i hh => hl b i (List.mem_cons_of_mem _ hh), List.length_cons]
          simp [RuleCode.choices]
          omega
    rw [this l hl, hol]
    simp

/-- The rules as they are fed. -/
theorem meals_of {k : Kind} {word : Nat → Bytes} {sets : Sets} {S : Nat → List Nat} : ∀ {l : List (RuleCode × Nat)},
    (∀ x ∈ l, ∃ m : Meal, Plain k sets (x.1.bytes word) m ∧ m.index = x.2 ∧ m.feds = fedsOf S x ∧
      m.weight = x.1.weight S) →
    ∃ L : List (Bytes × Meal), (L.map fun x => (x.1, x.2.index)) = l.map (fun x => (x.1.bytes word, x.2)) ∧
      L.flatMap (·.2.feds) = l.flatMap (fedsOf S) ∧ L.map (·.2.weight) = l.map (fun x => x.1.weight S) ∧
      ∀ x ∈ L, Plain k sets x.1 x.2
  | [], _ => ⟨[], rfl, rfl, rfl, by simp⟩
  | x :: l, h => by
    obtain ⟨m, h1, h2, h3, h4⟩ := h x (by simp)
    obtain ⟨L, i1, i2, i3, i4⟩ := meals_of (l := l) fun y hy => h y (by simp [hy])
    refine ⟨(x.1.bytes word, m) :: L, ?_, ?_, ?_, ?_⟩
    · simp only [List.map_cons]; rw [i1, h2]
    · simp only [List.flatMap_cons]; rw [i2, h3]
    · simp only [List.map_cons]; rw [i3, h4]
    · intro y hy
      rcases List.mem_cons.1 hy with rfl | hy
      · exact h1
      · exact i4 y hy

theorem feds_sorted {S : Nat → List Nat} {l : List (RuleCode × Nat)} (hs : l.Pairwise fun a b => a.2 < b.2) :
    (l.flatMap (fedsOf S)).Pairwise fun a b => a.index ≤ b.index := by
  rw [List.pairwise_flatMap]
  refine ⟨?_, ?_⟩
  · intro x _
    unfold fedsOf
    rw [List.pairwise_map]
    exact List.pairwise_iff_getElem.2 fun _ _ _ _ _ => Nat.le_refl _
  · refine hs.imp ?_
    intro a b hab f hf g hg
    obtain ⟨_, _, rfl⟩ := List.mem_map.1 hf
    obtain ⟨_, _, rfl⟩ := List.mem_map.1 hg
    exact Nat.le_of_lt hab

/-- Compiling rules. -/
theorem compile_rules {k : Kind} {mv : Nat → Bool} {sets : Sets} {word : Nat → Bytes} {S : Nat → List Nat}
    {l : List (RuleCode × Nat)} {c : Compiler} (hc : c.compiling = false)
    (hp : ∀ x ∈ l, ∃ m : Meal, Plain k sets (x.1.bytes word) m ∧ m.index = x.2 ∧ m.feds = fedsOf S x ∧
      m.weight = x.1.weight S)
    (hs : l.Pairwise fun a b => a.2 < b.2) (hi : ∀ x ∈ l, x.2 < 255) :
    (compile k mv sets (l.map fun x => (x.1.bytes word, x.2)) c = .err hitLimits ∧
      253 < (l.map fun x => x.1.weight S).sum) ∨
    ∃ T c', compile k mv sets (l.map fun x => (x.1.bytes word, x.2)) c = .ok (T, c') ∧ c'.compiling = false ∧
      (l ≠ [] → Recognises T (l.flatMap (fedsOf S))) := by
  obtain ⟨L, h1, h2, h3, h4⟩ := meals_of hp
  have hx : ∀ (l : List (RuleCode × Nat)) (L : List (Bytes × Meal)),
      (L.map fun x => (x.1, x.2.index)) = l.map (fun x => (x.1.bytes word, x.2)) →
      L.map (·.2.index) = l.map (·.2) := by
    intro l L h
    have := congrArg (List.map Prod.snd) h
    simpa [Function.comp_def] using this
  have hx := hx l L h1
  have hs' : L.Pairwise fun a b => a.2.index < b.2.index := by
    have : (L.map (·.2.index)).Pairwise (· < ·) := by
      rw [hx]
      exact List.pairwise_map.2 hs
    exact List.pairwise_map.1 this
  have hi' : ∀ x ∈ L, x.2.index < 255 := by
    intro x hxL
    have : x.2.index ∈ l.map (·.2) := by
      rw [← hx]
      exact List.mem_map.2 ⟨x, hxL, rfl⟩
    obtain ⟨y, hy, hye⟩ := List.mem_map.1 this
    rw [← hye]
    exact hi y hy
  have hnil : l ≠ [] → L ≠ [] := by
    intro hl hL
    rw [hL] at hx
    exact hl (List.map_eq_nil_iff.1 hx.symm)
  rcases compile_ok (mv := mv) hc h4 hs' hi' with ⟨g1, g2⟩ | ⟨T, c', g1, g2, _, g3⟩
  · rw [h1] at g1
    rw [h3] at g2
    exact Or.inl ⟨g1, g2⟩
  · rw [h1] at g1
    rw [h2] at g3
    exact Or.inr ⟨T, c', g1, g2, fun hl => g3 (hnil hl)⟩

theorem fed_path {S : Nat → List Nat} {r : RuleCode} {i : Nat} {ok : Nat → Prop} (h : r.Ok ok) :
    ∀ f ∈ fedsOf S (r, i), f.path ≠ [] := by
  intro f hf hh
  obtain ⟨p, hp, rfl⟩ := List.mem_map.1 hf
  have h1 := inputs_size hp
  have h2 := elems_length r
  have h3 := h.outPos
  have h4 := h.outLe
  simp only at hh
  rw [hh] at h1
  simp only [List.length_nil, RuleCode.size] at h1
  omega

end TreeModel
