import Verif.Lemmas.ChainFeed
import Verif.Lemmas.TreeRun
import Verif.Spec.Ranges

/-!
# What is recognised after feeding rules that start apart
-/

namespace TreeModel
open Go Helpers ScannerModel Spec

theorem mem_spread {P : List (Nat × Nat)} {g : Nat} : g ∈ spread P ↔ ∃ p ∈ P, p.1 ≤ g ∧ g ≤ p.2 := by
  unfold spread
  rw [List.mem_flatMap]
  constructor
  · rintro ⟨p, hp, hg⟩
    rw [List.mem_range'_1] at hg
    exact ⟨p, hp, by omega, by omega⟩
  · rintro ⟨p, hp, h1, h2⟩
    exact ⟨p, hp, by rw [List.mem_range'_1]; omega⟩

theorem mem_insAll {r n : Nat} {t : Transition} : ∀ {ps : List (Nat × Nat)} {l : List Transition},
    t ∈ insAll l ps r n ↔ t ∈ l ∨ ∃ p ∈ ps, t = ⟨p.1, p.2, r, n⟩
  | [], l => by simp [insAll]
  | p :: ps, l => by
    have : insAll l (p :: ps) r n = insAll (ins l ⟨p.1, p.2, r, n⟩) ps r n := rfl
    rw [this, mem_insAll, mem_ins]
    simp only [List.mem_cons, exists_eq_or_imp]
    constructor
    · rintro ((h | h) | h)
      · exact Or.inr (Or.inl h)
      · exact Or.inl h
      · exact Or.inr (Or.inr h)
    · rintro (h | h | h)
      · exact Or.inl (Or.inr h)
      · exact Or.inl (Or.inl h)
      · exact Or.inr h

/-- A rule with the ranges of its elements. -/
structure Strand where
  first : List (Nat × Nat)
  rest : List (List (Nat × Nat))
  head : Nat
  index : Nat

namespace Strand

def levels (s : Strand) : List (List Nat) := (s.first :: s.rest).map spread

def feds (s : Strand) : List Fed := (RuleCode.picks s.levels).map fun p => ⟨p, s.head, s.index⟩

def extent (s : Strand) : Nat := ((s.first :: s.rest).map (·.length)).sum

end Strand

theorem mem_picks_cons {c : List Nat} {cs : List (List Nat)} {v : Nat} {l : List Nat} :
    v :: l ∈ RuleCode.picks (c :: cs) ↔ v ∈ c ∧ l ∈ RuleCode.picks cs := by
  simp [RuleCode.picks]

/-- The elements that some pick starts with, when more is to follow. -/
def Pre : List (List Nat) → List Nat → Prop
  | [], _ => False
  | _ :: _, [] => True
  | c :: cs, x :: u => x ∈ c ∧ Pre cs u

theorem picks_ne {cs : List (List Nat)} (h : ∀ c ∈ cs, c ≠ []) : ∃ p, p ∈ RuleCode.picks cs := by
  induction cs with
  | nil => exact ⟨[], by simp [RuleCode.picks]⟩
  | cons c cs ih =>
    obtain ⟨p, hp⟩ := ih fun c hc => h c (by simp [hc])
    obtain ⟨v, hv⟩ := List.exists_mem_of_ne_nil _ (h c (by simp))
    exact ⟨v :: p, mem_picks_cons.2 ⟨hv, hp⟩⟩

theorem pre_iff {cs : List (List Nat)} (h : ∀ c ∈ cs, c ≠ []) {u : List Nat} :
    Pre cs u ↔ ∃ p ∈ RuleCode.picks cs, u <+: p ∧ u ≠ p := by
  induction cs generalizing u with
  | nil =>
    simp only [Pre, RuleCode.picks, List.mem_singleton, exists_eq_left, List.prefix_nil, ne_eq, false_iff]
    exact fun h => h.2 h.1
  | cons c cs ih =>
    have ih := @ih fun c hc => h c (by simp [hc])
    cases u with
    | nil =>
      obtain ⟨p, hp⟩ := picks_ne h
      have hl := picks_length hp
      refine ⟨fun _ => ⟨p, hp, List.nil_prefix, ?_⟩, fun _ => trivial⟩
      rintro rfl
      simp at hl
    | cons x u =>
      simp only [Pre]
      rw [ih]
      constructor
      · rintro ⟨hx, p, hp, h1, h2⟩
        exact ⟨x :: p, mem_picks_cons.2 ⟨hx, hp⟩, List.cons_prefix_cons.2 ⟨rfl, h1⟩, by simpa using h2⟩
      · rintro ⟨p, hp, h1, h2⟩
        cases p with
        | nil => simp at h1
        | cons y p =>
          obtain ⟨rfl, h3⟩ := List.cons_prefix_cons.1 h1
          obtain ⟨hx, hp⟩ := mem_picks_cons.1 hp
          exact ⟨hx, p, hp, h3, by simpa using h2⟩

/-- The state reached from a state. -/
def walkFrom (S : List State) (n : Nat) (u : List Nat) : Option Nat :=
  u.foldl (fun o h => o.bind fun s => next1 S s h) (some n)

theorem walkFrom_cons (S : List State) (n x : Nat) (u : List Nat) :
    walkFrom S n (x :: u) = (next1 S n x).bind fun m => walkFrom S m u := by
  have hnone : ∀ u : List Nat, u.foldl (fun o h => o.bind fun s => next1 S s h) none = none := by
    intro u
    induction u with
    | nil => rfl
    | cons a u ih => exact ih
  unfold walkFrom
  rw [List.foldl_cons, Option.bind_some]
  cases next1 S n x with
  | none => exact hnone u
  | some m => rfl

theorem trig_hit {l : List Transition} {P : List (Nat × Nat)} {r n x : Nat} (hR : Ranged l) (hl : l = insAll [] P r n)
    (hx : x ∈ spread P) : ∃ t, trig l x = some t ∧ t.rule = r ∧ t.next = n := by
  obtain ⟨p, hp, h1⟩ := mem_spread.1 hx
  exact ⟨⟨p.1, p.2, r, n⟩, hR.trig_some.2 ⟨by rw [hl]; exact mem_insAll.2 (Or.inr ⟨p, hp, rfl⟩), h1⟩, rfl, rfl⟩

theorem trig_miss {l : List Transition} {P : List (Nat × Nat)} {r n x : Nat} (hl : l = insAll [] P r n)
    (hx : x ∉ spread P) : trig l x = none := by
  rw [Ranged.trig_none]
  intro t ht h1
  rw [hl] at ht
  rcases mem_insAll.1 ht with ht | ⟨p, hp, rfl⟩
  · cases ht
  · exact hx (mem_spread.2 ⟨p, hp, h1⟩)

/-- What a chain of states recognises. -/
theorem chain_run {S : List State} (hR : ∀ st ∈ S, Ranged st.trans) {h q : Nat} (hq : q ≠ ruleNone) :
    ∀ (u : List Nat) {P : List (Nat × Nat)} {Ps : List (List (Nat × Nat))} {r n : Nat}, Leads S h q (P :: Ps) r n →
    ((walkFrom S n u).isSome = true ↔ Pre ((P :: Ps).map spread) u) ∧
    (∀ x, ((walkFrom S n u).bind fun s => rule1 S s x) =
      if u ++ [x] ∈ RuleCode.picks ((P :: Ps).map spread) then some q else none) ∧
    ∀ s, walkFrom S n u = some s → ∃ st, S[s]? = some st ∧ (st.minHead, st.maxHead) = headUpd h (255, 0)
  | [], P, Ps, r, n, hl => by
    obtain ⟨h1, h2, h3, st, r', n', h4, h5, h6, h7⟩ := hl
    refine ⟨by simp [walkFrom, Pre], fun x => ?_, fun s hs => ?_⟩
    · show rule1 S n x = _
      rw [rule1, step, h4, Option.bind_some]
      have hst := hR st (List.mem_of_getElem? h4)
      by_cases hx : x ∈ spread P
      · obtain ⟨t, t1, t2, t3⟩ := trig_hit hst h6 hx
        rw [t1, Option.bind_some, ruleOf, t2]
        cases Ps with
        | nil =>
          rw [h7.1, if_neg hq, if_pos]
          exact mem_picks_cons.2 ⟨hx, by simp [RuleCode.picks]⟩
        | cons Q Ps =>
          rw [if_pos h7.1, if_neg]
          intro hm
          have := picks_length hm
          simp at this
      · rw [trig_miss h6 hx, if_neg]
        · rfl
        · intro hm
          exact hx (mem_picks_cons.1 hm).1
    · have : n = s := by simpa [walkFrom] using hs
      subst this
      exact ⟨st, h4, h5⟩
  | y :: u, P, Ps, r, n, hl => by
    obtain ⟨h1, h2, h3, st, r', n', h4, h5, h6, h7⟩ := hl
    have hst := hR st (List.mem_of_getElem? h4)
    rw [walkFrom_cons, next1, step, h4, Option.bind_some]
    have key : ∀ x, ((y :: u) ++ [x] ∈ RuleCode.picks ((P :: Ps).map spread)) ↔
        y ∈ spread P ∧ u ++ [x] ∈ RuleCode.picks (Ps.map spread) := fun x => by
      rw [List.cons_append, List.map_cons, mem_picks_cons]
    by_cases hy : y ∈ spread P
    · obtain ⟨t, t1, t2, t3⟩ := trig_hit hst h6 hy
      rw [t1, Option.bind_some, nextOf, t3]
      cases Ps with
      | nil =>
        rw [if_pos h7.2, Option.bind_none]
        refine ⟨by simp [Pre], fun x => ?_, fun s hs => by cases hs⟩
        rw [if_neg]
        · rfl
        · intro hm
          have := picks_length ((key x).1 hm).2
          simp at this
      | cons Q Ps =>
        obtain ⟨i1, i2, i3⟩ := chain_run hR hq u h7
        rw [if_neg h7.2.2.1, Option.bind_some]
        refine ⟨?_, fun x => ?_, i3⟩
        · rw [i1, List.map_cons (l := Q :: Ps), Pre]
          simp [hy]
        · rw [i2 x]
          by_cases hm : u ++ [x] ∈ RuleCode.picks ((Q :: Ps).map spread)
          · rw [if_pos hm, if_pos ((key x).2 ⟨hy, hm⟩)]
          · rw [if_neg hm, if_neg fun hh => hm ((key x).1 hh).2]
    · rw [trig_miss h6 hy]
      refine ⟨by simp [Pre, hy], fun x => ?_, fun s hs => by cases hs⟩
      rw [if_neg fun hm => hy ((key x).1 hm).1]
      rfl

/-- Two rules start with different elements. -/
def Apart (s t : Strand) : Prop := ∀ p ∈ s.first, ∀ q ∈ t.first, q.2 < p.1 ∨ p.2 < q.1

/-- The states recognise the rules. -/
structure Rooted (S : List State) (T : List Strand) : Prop where
  ranged : ∀ st ∈ S, Ranged st.trans
  root : ∃ st0, S[0]? = some st0 ∧ (st0.minHead, st0.maxHead) = T.foldl (fun b s => headUpd s.head b) (255, 0) ∧
    (∀ t ∈ st0.trans, ∃ s ∈ T, (t.first, t.last) ∈ s.first ∧ Leads S s.head s.index s.rest t.rule t.next) ∧
    ∀ s ∈ T, ∀ p ∈ s.first, ∃ t ∈ st0.trans, t.first = p.1 ∧ t.last = p.2 ∧ Leads S s.head s.index s.rest t.rule t.next

theorem only {T : List Strand} (hT : T.Pairwise Apart) {s t : Strand} (hs : s ∈ T) (ht : t ∈ T) {x : Nat}
    (h1 : x ∈ spread s.first) (h2 : x ∈ spread t.first) : s = t := by
  obtain ⟨p, hp, h1⟩ := mem_spread.1 h1
  obtain ⟨q, hq, h2⟩ := mem_spread.1 h2
  obtain ⟨i, hi, rfl⟩ := List.getElem_of_mem hs
  obtain ⟨j, hj, rfl⟩ := List.getElem_of_mem ht
  rcases Nat.lt_trichotomy i j with hij | hij | hij
  · have := List.pairwise_iff_getElem.1 hT i j hi hj hij p hp q hq
    omega
  · subst hij; rfl
  · have := List.pairwise_iff_getElem.1 hT j i hj hi hij q hq p hp
    omega

theorem fedL_of {F : List Fed} {u : List Nat} {x : Nat} {P : Prop} [Decidable P] {q : Nat}
    (h1 : ∀ f ∈ F, f.path = u ++ [x] → P ∧ f.index = q) (h2 : P → ∃ f ∈ F, f.path = u ++ [x]) :
    fedL F u x = if P then some q else none := by
  unfold fedL
  cases hf : F.find? fun f => decide (f.path = u ++ [x]) with
  | none =>
    rw [List.find?_eq_none] at hf
    rw [if_neg]
    · rfl
    · intro hp
      obtain ⟨f, hm, he⟩ := h2 hp
      exact hf f hm (by simpa using he)
  | some f =>
    have hm := List.mem_of_find?_eq_some hf
    have he := List.find?_some hf
    simp only [decide_eq_true_eq] at he
    obtain ⟨hp, hi⟩ := h1 f hm he
    rw [if_pos hp, Option.map_some, hi]

theorem mem_feds {T : List Strand} {f : Fed} :
    f ∈ T.flatMap Strand.feds ↔ ∃ s ∈ T, ∃ p ∈ RuleCode.picks s.levels, f = ⟨p, s.head, s.index⟩ := by
  simp only [Strand.feds, List.mem_flatMap, List.mem_map]
  constructor
  · rintro ⟨s, hs, p, hp, rfl⟩; exact ⟨s, hs, p, hp, rfl⟩
  · rintro ⟨s, hs, p, hp, rfl⟩; exact ⟨s, hs, p, hp, rfl⟩

theorem fedL_one {T : List Strand} (hT : T.Pairwise Apart) {s : Strand} (hs : s ∈ T) {u v : List Nat} {x y : Nat}
    (hv : u ++ [x] = y :: v) (hy : y ∈ spread s.first) :
    fedL (T.flatMap Strand.feds) u x =
      if v ∈ RuleCode.picks (s.rest.map spread) then some s.index else none := by
  refine fedL_of ?_ ?_
  · intro f hf hp
    obtain ⟨s', hs', p, hpk, rfl⟩ := mem_feds.1 hf
    simp only at hp
    rw [hp, hv] at hpk
    obtain ⟨h1, h2⟩ := mem_picks_cons.1 hpk
    have := only hT hs hs' hy h1
    subst this
    exact ⟨h2, rfl⟩
  · intro hp
    exact ⟨_, mem_feds.2 ⟨s, hs, y :: v, mem_picks_cons.2 ⟨hy, hp⟩, rfl⟩, hv.symm⟩

theorem fedL_zero {T : List Strand} {u v : List Nat} {x y : Nat} (hv : u ++ [x] = y :: v)
    (hy : ¬ ∃ s ∈ T, y ∈ spread s.first) : fedL (T.flatMap Strand.feds) u x = none := by
  have := fedL_of (F := T.flatMap Strand.feds) (u := u) (x := x) (P := False) (q := 0) ?_ (fun h => h.elim)
  · simpa using this
  · intro f hf hp
    obtain ⟨s', hs', p, hpk, rfl⟩ := mem_feds.1 hf
    simp only at hp
    rw [hp, hv] at hpk
    exact absurd ⟨s', hs', (mem_picks_cons.1 hpk).1⟩ hy

open Classical in
theorem fedH_feds {T : List Strand} (hne : ∀ s ∈ T, ∀ c ∈ s.levels, c ≠ []) (u : List Nat) :
    fedH (T.flatMap Strand.feds) u =
      T.foldl (fun b s => if Pre s.levels u then headUpd s.head b else b) (255, 0) := by
  unfold fedH
  generalize (255, 0) = b
  induction T generalizing b with
  | nil => rfl
  | cons s T ih =>
    rw [List.flatMap_cons, List.foldl_append, List.foldl_cons, ih fun t ht => hne t (by simp [ht])]
    congr 1
    have h := @pre_iff _ (hne s (by simp)) u
    unfold Strand.feds
    rw [List.foldl_map]
    have hidem : ∀ l : List (List Nat), ∀ b, headUpd s.head b = b →
        l.foldl (fun b p => if u <+: p ∧ u ≠ p then headUpd s.head b else b) b = b := by
      intro l
      induction l with
      | nil => intro b _; rfl
      | cons p l ih =>
        intro b hb
        rw [List.foldl_cons]
        split
        · rw [hb]; exact ih b hb
        · exact ih b hb
    have key : ∀ l : List (List Nat), ∀ b, (∃ p ∈ l, u <+: p ∧ u ≠ p) →
        l.foldl (fun b p => if u <+: p ∧ u ≠ p then headUpd s.head b else b) b = headUpd s.head b := by
      intro l
      induction l with
      | nil => rintro b ⟨p, hp, _⟩; cases hp
      | cons p l ih =>
        rintro b ⟨p', hp', hx⟩
        rw [List.foldl_cons]
        by_cases hc : u <+: p ∧ u ≠ p
        · rw [if_pos hc]
          exact hidem l _ (headUpd_idem _ _)
        · rw [if_neg hc]
          rcases List.mem_cons.1 hp' with rfl | hp'
          · exact absurd hx hc
          · exact ih b ⟨p', hp', hx⟩
    have key0 : ∀ l : List (List Nat), ∀ b, (¬ ∃ p ∈ l, u <+: p ∧ u ≠ p) →
        l.foldl (fun b p => if u <+: p ∧ u ≠ p then headUpd s.head b else b) b = b := by
      intro l
      induction l with
      | nil => intro b _; rfl
      | cons p l ih =>
        intro b hn
        rw [List.foldl_cons, if_neg fun hc => hn ⟨p, by simp, hc⟩]
        exact ih b fun ⟨p', hp', hx⟩ => hn ⟨p', by simp [hp'], hx⟩
    by_cases hp : Pre s.levels u
    · rw [if_pos hp]
      exact key _ b (h.1 hp)
    · rw [if_neg hp]
      exact key0 _ b fun hh => hp (h.2 hh)

theorem foldl_heads {T : List Strand} {Q : Strand → Prop} [DecidablePred Q] {h : Nat} (hQ : ∀ s ∈ T, Q s → s.head = h) :
    ∀ b, (headUpd h b = b → T.foldl (fun b s => if Q s then headUpd s.head b else b) b = b) ∧
      ((∃ s ∈ T, Q s) → T.foldl (fun b s => if Q s then headUpd s.head b else b) b = headUpd h b) := by
  induction T with
  | nil => exact fun b => ⟨fun _ => rfl, fun ⟨s, hs, _⟩ => by cases hs⟩
  | cons s T ih =>
    have ih := ih fun t ht => hQ t (by simp [ht])
    intro b
    rw [List.foldl_cons]
    by_cases hs : Q s
    · rw [if_pos hs, hQ s (by simp) hs]
      have := (ih (headUpd h b)).1 (headUpd_idem _ _)
      exact ⟨fun hb => by rw [this, hb], fun _ => this⟩
    · rw [if_neg hs]
      refine ⟨(ih b).1, fun ⟨t, ht, hq⟩ => (ih b).2 ?_⟩
      rcases List.mem_cons.1 ht with rfl | ht
      · exact absurd hq hs
      · exact ⟨t, ht, hq⟩

open Classical in
theorem Rooted.recognises {S : List State} {T : List Strand} (h : Rooted S T) (hT : T.Pairwise Apart)
    (hne : ∀ s ∈ T, ∀ c ∈ s.levels, c ≠ []) (hi : ∀ s ∈ T, s.index ≠ ruleNone) :
    Recognises S (T.flatMap Strand.feds) := by
  obtain ⟨st0, h0, hh, ha, hb⟩ := h.root
  have hR0 := h.ranged st0 (List.mem_of_getElem? h0)
  have hlen0 : 0 < S.length := (List.getElem?_eq_some_iff.1 h0).1
  -- what the root does
  have hit : ∀ y s, s ∈ T → y ∈ spread s.first → ∃ t, trig st0.trans y = some t ∧
      Leads S s.head s.index s.rest t.rule t.next := by
    intro y s hs hy
    obtain ⟨p, hp, hy⟩ := mem_spread.1 hy
    obtain ⟨t, ht, t1, t2, t3⟩ := hb s hs p hp
    exact ⟨t, hR0.trig_some.2 ⟨ht, by omega⟩, t3⟩
  have miss : ∀ y, (¬ ∃ s ∈ T, y ∈ spread s.first) → trig st0.trans y = none := by
    intro y hy
    rw [Ranged.trig_none]
    intro t ht h1
    obtain ⟨s, hs, h2, _⟩ := ha t ht
    exact hy ⟨s, hs, mem_spread.2 ⟨_, h2, h1⟩⟩
  have hwalk : ∀ u, walk S u = walkFrom S 0 u := fun _ => rfl
  have hlast : ∀ y s, s ∈ T → y ∈ spread s.first → s.rest = [] → next1 S 0 y = none := by
    intro y s hs hy hr
    obtain ⟨t, t1, t2⟩ := hit y s hs hy
    rw [hr] at t2
    rw [next1, step, h0, Option.bind_some, t1, Option.bind_some, nextOf, if_pos t2.2]
  have hmore : ∀ y s P Ps, s ∈ T → y ∈ spread s.first → s.rest = P :: Ps →
      ∃ n, next1 S 0 y = some n ∧ Leads S s.head s.index (P :: Ps) ruleNone n := by
    intro y s P Ps hs hy hr
    obtain ⟨t, t1, t2⟩ := hit y s hs hy
    rw [hr] at t2
    refine ⟨t.next, ?_, by rw [← t2.1]; exact t2⟩
    rw [next1, step, h0, Option.bind_some, t1, Option.bind_some, nextOf, if_neg t2.2.2.1]
  have hout : ∀ y, (¬ ∃ s ∈ T, y ∈ spread s.first) → next1 S 0 y = none := by
    intro y hy
    rw [next1, step, h0, Option.bind_some, miss y hy]
    rfl
  have hpre : ∀ s : Strand, ∀ y u, Pre s.levels (y :: u) ↔ y ∈ spread s.first ∧ Pre (s.rest.map spread) u :=
    fun s y u => Iff.rfl
  have hreach : ∀ u, (walk S u).isSome = true ↔ u = [] ∨ ∃ s ∈ T, Pre s.levels u := by
    intro u
    rw [hwalk]
    cases u with
    | nil => simp [walkFrom]
    | cons y u =>
      rw [walkFrom_cons]
      simp only [List.cons_ne_nil, false_or, hpre]
      by_cases hy : ∃ s ∈ T, y ∈ spread s.first
      · obtain ⟨s, hs, hy⟩ := hy
        cases hr : s.rest with
        | nil =>
          rw [hlast y s hs hy hr]
          simp only [Option.bind_none, Option.isSome_none, Bool.false_eq_true, false_iff]
          rintro ⟨s', hs', h1, h2⟩
          rw [← only hT hs hs' hy h1, hr] at h2
          exact h2
        | cons P Ps =>
          obtain ⟨n, n1, n2⟩ := hmore y s P Ps hs hy hr
          rw [n1, Option.bind_some, (chain_run h.ranged (hi s hs) u n2).1]
          constructor
          · intro hp; exact ⟨s, hs, hy, by rw [hr]; exact hp⟩
          · rintro ⟨s', hs', h1, h2⟩
            rw [← only hT hs hs' hy h1, hr] at h2
            exact h2
      · rw [hout y hy]
        simp only [Option.bind_none, Option.isSome_none, Bool.false_eq_true, false_iff]
        rintro ⟨s', hs', h1, _⟩
        exact hy ⟨s', hs', h1⟩
  have hheads : ∀ u s, walk S u = some s → ∃ st, S[s]? = some st ∧
      (st.minHead, st.maxHead) = fedH (T.flatMap Strand.feds) u := by
    intro u s hw
    rw [fedH_feds hne]
    cases u with
    | nil =>
      have : 0 = s := by simpa using hw
      subst this
      refine ⟨st0, h0, hh.trans ?_⟩
      have : ∀ s : Strand, Pre s.levels [] := fun s => trivial
      simp only [this, if_true]
    | cons y u =>
      rw [hwalk, walkFrom_cons] at hw
      by_cases hy : ∃ s ∈ T, y ∈ spread s.first
      · obtain ⟨s0, hs, hy⟩ := hy
        cases hr : s0.rest with
        | nil => rw [hlast y s0 hs hy hr] at hw; cases hw
        | cons P Ps =>
          obtain ⟨n, n1, n2⟩ := hmore y s0 P Ps hs hy hr
          rw [n1, Option.bind_some] at hw
          obtain ⟨c1, _, c3⟩ := chain_run h.ranged (hi s0 hs) u n2
          obtain ⟨st, e1, e2⟩ := c3 s hw
          refine ⟨st, e1, e2.trans ?_⟩
          have := (foldl_heads (T := T) (Q := fun s => Pre s.levels (y :: u)) (h := s0.head)
            (fun s' hs' hp => by rw [only hT hs hs' hy hp.1]) (255, 0)).2
            ⟨s0, hs, hy, by rw [hr]; exact c1.1 (by rw [hw]; rfl)⟩
          exact this.symm
      · rw [hout y hy] at hw; cases hw
  refine ⟨fun st hst => trigger_ranged (h.ranged st hst), ?_, ?_, ?_, ?_⟩
  · intro u s hw
    obtain ⟨st, e, _⟩ := hheads u s hw
    exact (List.getElem?_eq_some_iff.1 e).1
  · intro u
    rw [hreach]
    unfold FedR
    constructor
    · rintro (hu | ⟨s, hs, hp⟩)
      · exact Or.inl hu
      · obtain ⟨p, p1, p2⟩ := (pre_iff (hne s hs)).1 hp
        exact Or.inr ⟨_, mem_feds.2 ⟨s, hs, p, p1, rfl⟩, p2⟩
    · rintro (hu | ⟨f, hf, hp⟩)
      · exact Or.inl hu
      · obtain ⟨s, hs, p, p1, rfl⟩ := mem_feds.1 hf
        exact Or.inr ⟨s, hs, (pre_iff (hne s hs)).2 ⟨p, p1, hp⟩⟩
  · intro u x
    unfold lookAt
    rw [hwalk]
    cases u with
    | nil =>
      show rule1 S 0 x = _
      rw [rule1, step, h0, Option.bind_some]
      by_cases hy : ∃ s ∈ T, x ∈ spread s.first
      · obtain ⟨s, hs, hy⟩ := hy
        rw [fedL_one hT hs (v := []) rfl hy]
        obtain ⟨t, t1, t2⟩ := hit x s hs hy
        rw [t1, Option.bind_some, ruleOf]
        cases hr : s.rest with
        | nil =>
          rw [hr] at t2
          rw [t2.1, if_neg (hi s hs), if_pos (by simp [RuleCode.picks])]
        | cons P Ps =>
          rw [hr] at t2
          rw [if_pos t2.1, if_neg]
          intro hm
          have := picks_length hm
          simp at this
      · rw [fedL_zero (v := []) rfl hy, miss x hy]
        rfl
    | cons y u =>
      rw [walkFrom_cons]
      by_cases hy : ∃ s ∈ T, y ∈ spread s.first
      · obtain ⟨s, hs, hy⟩ := hy
        rw [fedL_one hT hs (v := u ++ [x]) rfl hy]
        cases hr : s.rest with
        | nil =>
          rw [hlast y s hs hy hr, if_neg]
          · rfl
          · intro hm
            have := picks_length hm
            simp at this
        | cons P Ps =>
          obtain ⟨n, n1, n2⟩ := hmore y s P Ps hs hy hr
          rw [n1, Option.bind_some]
          exact (chain_run h.ranged (hi s hs) u n2).2.1 x
      · rw [fedL_zero (v := u ++ [x]) rfl hy, hout y hy]
        rfl
  · intro u s st hw hst
    obtain ⟨st', e1, e2⟩ := hheads u s hw
    rw [hst] at e1
    cases e1
    exact e2

end TreeModel
