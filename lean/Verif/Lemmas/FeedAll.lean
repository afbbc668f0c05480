import Verif.Lemmas.FeedRule

/-!
# Feeding rules without sets before the last element, and what the states then recognise
-/

namespace TreeModel
open Go Helpers ScannerModel

/-- The loop over the elements of a rule, given them. -/
def feedList (k : Kind) (mv : Nat → Bool) (sets : Sets) (hl : Nat) : List (Nat × Nat) → List Nat → Compiler → Res Compiler
  | [], _, c => .ok c
  | x :: rest, froms, c => do
    let (froms, c) ← feedElem k mv sets hl (if rest = [] then c.ruleIndex else ruleNone) x.1 x.2 froms c
    feedList k mv sets hl rest froms c

theorem feedLoop_list {k : Kind} {mv : Nat → Bool} {sets : Sets} {hl : Nat} : ∀ {fuel : Nat} {s : Scanner}
    {es : List (Nat × Nat × Nat)} {froms : List Nat} {c : Compiler}, scan k fuel s = .ok es →
    feedLoop k mv sets hl fuel s froms c = feedList k mv sets hl (es.map (·.2)) froms c
  | 0, s, es, froms, c, h => by
    unfold scan at h
    unfold feedLoop
    split at h
    · cases h
    · rename_i hn
      rw [if_neg hn]
      cases h
      rfl
  | fuel + 1, s, es, froms, c, h => by
    unfold scan at h
    unfold feedLoop
    split at h
    · rename_i hn
      rw [if_pos hn]
      simp only [Res.bind_eq_ok, Res.pure_eq] at h
      obtain ⟨⟨s', e, g⟩, hnx, rest, hr, he⟩ := h
      cases he
      have hrest : (hasNext s' = true) ↔ ¬ (rest.map (·.2)) = [] := by
        cases fuel with
        | zero =>
          unfold scan at hr
          split at hr
          · cases hr
          · rename_i h1
            cases hr
            simp [h1]
        | succ fuel =>
          unfold scan at hr
          split at hr
          · rename_i h1
            simp only [Res.bind_eq_ok, Res.pure_eq] at hr
            obtain ⟨_, _, _, _, hr⟩ := hr
            cases hr
            simp [h1]
          · rename_i h1
            cases hr
            simp [h1]
      rw [hnx, Res.ok_bind]
      simp only [List.map_cons, feedList]
      have hif : (if hasNext s' = true then ruleNone else c.ruleIndex) =
          if rest.map (·.2) = [] then c.ruleIndex else ruleNone := by
        by_cases h1 : rest.map (·.2) = []
        · rw [if_pos h1, if_neg (fun h2 => hrest.1 h2 h1)]
        · rw [if_neg h1, if_pos (hrest.2 h1)]
      rw [hif]
      cases hfe : feedElem k mv sets hl (if rest.map (·.2) = [] then c.ruleIndex else ruleNone) e g froms c with
      | ok v =>
        obtain ⟨f', c'⟩ := v
        simp only [Res.ok_bind]
        exact feedLoop_list hr
      | err e => rfl
      | panic e => rfl
    · rename_i hn
      rw [if_neg hn]
      cases h
      rfl

/-- The prefixes of `full` from `p` on. -/
def Between (p full u : List Nat) : Prop := p <+: u ∧ u <+: full

instance (p full u : List Nat) : Decidable (Between p full u) := inferInstanceAs (Decidable (_ ∧ _))

theorem between_cons {p rest u : List Nat} {g : Nat} :
    Between p (p ++ g :: rest) u ↔ u = p ∨ Between (p ++ [g]) (p ++ g :: rest) u := by
  constructor
  · rintro ⟨⟨v, rfl⟩, h2⟩
    rw [List.prefix_append_right_inj] at h2
    cases v with
    | nil => left; simp
    | cons a v =>
      right
      rw [List.cons_prefix_cons] at h2
      obtain ⟨rfl, h2⟩ := h2
      exact ⟨by rw [List.prefix_append_right_inj]; simp, by simpa using h2⟩
  · rintro (rfl | ⟨h1, h2⟩)
    · exact ⟨List.prefix_refl _, List.prefix_append _ _⟩
    · exact ⟨(List.prefix_append _ _).trans h1, h2⟩

theorem between_last {p u : List Nat} : Between p p u ↔ u = p := by
  constructor
  · rintro ⟨h1, h2⟩
    exact h2.eq_of_length (Nat.le_antisymm h2.length_le h1.length_le)
  · rintro rfl
    exact ⟨List.prefix_refl _, List.prefix_refl _⟩

theorem between_self {p full : List Nat} {g : Nat} : ¬ Between (p ++ [g]) full p := by
  rintro ⟨h, _⟩
  have := h.length_le
  simp only [List.length_append, List.length_singleton] at this
  omega

variable {R : List Nat → Prop} {L : List Nat → Nat → Option Nat} {H : List Nat → Nat × Nat}

/-- An element that may stand in a rule. -/
def Elem (k : Kind) (g : Nat) : Prop := g + 1 < 2 ^ (8 * k.width) ∧ g ≠ k.none

theorem feedList_ok {k : Kind} {mv : Nat → Bool} {sets : Sets} {hl : Nat} {last : Nat × Nat} {ls : List Nat}
    (hls : LastOf k sets last ls) (hlw : ∀ g ∈ ls, g + 1 < 2 ^ (8 * k.width)) : ∀ (rest : List Nat) {c : Compiler}
    {R : List Nat → Prop} {H : List Nat → Nat × Nat} {p : List Nat} {cur : Nat},
    Inv c c.depth R L H → walk c.states p = some cur → p.length = c.depth → c.toStates = [] →
    c.depth ≤ c.byDepth.length → (∀ g ∈ rest, Elem k g) → c.depth + (rest.length + 1) < 256 → c.ruleIndex ≠ ruleNone →
    (feedList k mv sets hl ((rest.map fun g => (g, setNone)) ++ [last]) [cur] c = .err hitLimits ∧
      ∀ n, Small c n → 253 < n + (rest.length + ls.length)) ∨
    ∃ c' d, feedList k mv sets hl ((rest.map fun g => (g, setNone)) ++ [last]) [cur] c = .ok c' ∧
      Inv c' d (fun u => R u ∨ Between p (p ++ rest) u)
        (fun u x => if u = p ++ rest ∧ x ∈ ls then (L u x).or (some c.ruleIndex) else L u x)
        (fun u => if Between p (p ++ rest) u then headUpd hl (H u) else H u) ∧
      c'.ruleIndex = c.ruleIndex ∧ c'.compiling = c.compiling ∧
      ∀ n, Small c n → Small c' (n + (rest.length + ls.length))
  | [], c, R, H, p, cur, h, hp, hlen, hto, hd, hel, h255, hri => by
    rcases feedElem_rule (k := k) (mv := mv) (sets := sets) (hl := hl) h hp hto hri hd hls hlw h255 with
      ⟨he, hs⟩ | ⟨c', he, hi, h1, h2, h3⟩
    · left
      simp only [List.map_nil, List.nil_append, feedList]
      rw [if_pos trivial, he]
      refine ⟨rfl, fun n hn => ?_⟩
      have := hs n hn
      simp only [List.length_nil]
      omega
    · right
      simp only [List.map_nil, List.nil_append, feedList]
      rw [if_pos trivial, he]
      refine ⟨c', _, rfl, hi.congr ?_ ?_ ?_, h1, h2, by simpa using h3⟩
      · intro u
        rw [List.append_nil, between_last]
        constructor
        · exact Or.inl
        · rintro (hu | rfl)
          · exact hu
          · exact (h.reach _).1 (by rw [hp]; rfl)
      · intro u x
        rw [List.append_nil]
      · intro u
        rw [List.append_nil]
        by_cases hc : u = p
        · rw [if_pos hc, if_pos (between_last.2 hc)]
        · rw [if_neg hc, if_neg (fun hh => hc (between_last.1 hh))]
  | g :: rest, c, R, H, p, cur, h, hp, hlen, hto, hd, hel, h255, hri => by
    obtain ⟨hw, hg⟩ := hel g (List.mem_cons_self ..)
    simp only [List.length_cons] at h255
    rcases feedElem_link (k := k) (mv := mv) (sets := sets) (hl := hl) h hp hlen hto hd hw hg (by omega) with
      ⟨he, hs⟩ | ⟨s, c', he, hi, hws, hdep, hto', hd', hr', hc', hsm⟩
    · left
      rw [List.map_cons, List.cons_append, feedList, if_neg (by simp), he]
      refine ⟨rfl, fun n hn => ?_⟩
      have := hs n hn
      simp only [List.length_cons]
      omega
    · have ih := feedList_ok (k := k) (mv := mv) (sets := sets) (hl := hl) hls hlw rest hi hws
        (by simp [hdep, hlen]) hto' hd' (fun x hx => hel x (List.mem_cons_of_mem _ hx))
        (by omega) (by rw [hr']; exact hri)
      rw [List.map_cons, List.cons_append, feedList, if_neg (by simp), he, Res.ok_bind]
      simp only
      have happ : p ++ [g] ++ rest = p ++ g :: rest := by simp
      rw [happ] at ih
      rcases ih with ⟨he', hs'⟩ | ⟨c2, d2, he', hi', h1, h2, h3⟩
      · left
        refine ⟨he', fun n hn => ?_⟩
        have := hs' _ (hsm n hn)
        simp only [List.length_cons]
        omega
      · right
        refine ⟨c2, d2, he', hi'.congr ?_ ?_ ?_, by rw [h1, hr'], by rw [h2, hc'], ?_⟩
        · intro u
          rw [between_cons (p := p) (g := g)]
          constructor
          · rintro ((hu | hu) | hu)
            · exact Or.inl hu
            · right; right
              rw [hu]
              exact ⟨List.prefix_refl _, by rw [← happ]; exact List.prefix_append _ _⟩
            · exact Or.inr (Or.inr hu)
          · rintro (hu | rfl | hu)
            · exact Or.inl (Or.inl hu)
            · exact Or.inl (Or.inl ((h.reach _).1 (by rw [hp]; rfl)))
            · exact Or.inr hu
        · intro u x
          rw [hr']
        · intro u
          by_cases hup : u = p
          · subst hup
            rw [if_neg between_self, if_pos rfl, if_pos (between_cons.2 (Or.inl rfl))]
          · rw [if_neg hup]
            by_cases hb : Between (p ++ [g]) (p ++ g :: rest) u
            · rw [if_pos hb, if_pos (between_cons.2 (Or.inr hb))]
            · rw [if_neg hb, if_neg]
              intro hh
              rcases between_cons.1 hh with hh | hh
              · exact hup hh
              · exact hb hh
        · intro n hn
          have := h3 _ (hsm n hn)
          rw [List.length_cons, show n + (rest.length + 1 + ls.length) = n + 1 + (rest.length + ls.length) by omega]
          exact this

/-- A rule as it is fed: the elements before the last one, what the last one stands for, the length of the head and
the index. -/
structure Meal where
  front : List Nat
  alts : List Nat
  head : Nat
  index : Nat

/-- An input that was fed: its elements, the length of its head and its index. -/
structure Fed where
  path : List Nat
  head : Nat
  index : Nat

/-- The inputs with a state, the rules matched and the bounds on heads after feeding rules. -/
def FedR (F : List Fed) (u : List Nat) : Prop := u = [] ∨ ∃ f ∈ F, u <+: f.path ∧ u ≠ f.path
def fedL (F : List Fed) (u : List Nat) (x : Nat) : Option Nat :=
  (F.find? fun f => decide (f.path = u ++ [x])).map (·.index)
def fedH (F : List Fed) (u : List Nat) : Nat × Nat :=
  F.foldl (fun b f => if u <+: f.path ∧ u ≠ f.path then headUpd f.head b else b) (255, 0)

/-- The inputs of a rule. -/
def Meal.feds (m : Meal) : List Fed := m.alts.map fun g => ⟨m.front ++ [g], m.head, m.index⟩

/-- The number of elements in a rule, with those of the set. -/
def Meal.weight (m : Meal) : Nat := m.front.length + m.alts.length

theorem proper_snoc {u p : List Nat} {g : Nat} : (u <+: p ++ [g] ∧ u ≠ p ++ [g]) ↔ u <+: p := by
  rw [List.prefix_concat_iff]
  constructor
  · rintro ⟨h | h, hne⟩
    · exact absurd h hne
    · exact h
  · intro h
    refine ⟨Or.inr h, fun e => ?_⟩
    have := h.length_le
    rw [e] at this
    simp at this
    omega

theorem FedR_meal {F : List Fed} {m : Meal} (hm : m.alts ≠ []) {u : List Nat} :
    FedR (F ++ m.feds) u ↔ FedR F u ∨ Between [] ([] ++ m.front) u := by
  unfold FedR Between
  constructor
  · rintro (h | ⟨x, hx, h⟩)
    · exact Or.inl (Or.inl h)
    · rcases List.mem_append.1 hx with hx | hx
      · exact Or.inl (Or.inr ⟨x, hx, h⟩)
      · obtain ⟨g, _, rfl⟩ := List.mem_map.1 hx
        exact Or.inr ⟨List.nil_prefix, proper_snoc.1 h⟩
  · rintro ((h | ⟨x, hx, h⟩) | ⟨_, h⟩)
    · exact Or.inl h
    · exact Or.inr ⟨x, List.mem_append_left _ hx, h⟩
    · obtain ⟨g, hg⟩ := List.exists_mem_of_ne_nil _ hm
      exact Or.inr ⟨_, List.mem_append_right _ (List.mem_map.2 ⟨g, hg, rfl⟩), proper_snoc.2 h⟩

theorem fedL_meal {F : List Fed} {m : Meal} {u : List Nat} {x : Nat} :
    fedL (F ++ m.feds) u x =
      if u = [] ++ m.front ∧ x ∈ m.alts then (fedL F u x).or (some m.index) else fedL F u x := by
  unfold fedL Meal.feds
  rw [List.find?_append, List.nil_append, Option.map_or]
  have key : ∀ l : List Nat, ((l.map fun g => (⟨m.front ++ [g], m.head, m.index⟩ : Fed)).find?
      fun f => decide (f.path = u ++ [x])).map (·.index) = if u = m.front ∧ x ∈ l then some m.index else none := by
    intro l
    induction l with
    | nil => simp
    | cons g l ih =>
      rw [List.map_cons, List.find?_cons]
      by_cases h : m.front ++ [g] = u ++ [x]
      · obtain ⟨h1, h2⟩ := List.append_inj' h rfl
        have h2 : g = x := by simpa using h2
        subst h1 h2
        simp
      · have hn : ¬ (u = m.front ∧ x = g) := by
          rintro ⟨rfl, rfl⟩
          exact h rfl
        simp only [h, decide_false]
        rw [ih]
        by_cases hu : u = m.front
        · have : x ≠ g := fun e => hn ⟨hu, e⟩
          simp [hu, this]
        · simp [hu]
  rw [key]
  split
  · rfl
  · simp

theorem headUpd_idem (n : Nat) (b : Nat × Nat) : headUpd n (headUpd n b) = headUpd n b := by
  unfold headUpd
  simp only [Prod.mk.injEq]
  constructor
  · split <;> simp
  · split <;> simp

theorem fedH_meal {F : List Fed} {m : Meal} (hm : m.alts ≠ []) {u : List Nat} :
    fedH (F ++ m.feds) u = if Between [] ([] ++ m.front) u then headUpd m.head (fedH F u) else fedH F u := by
  unfold fedH Meal.feds
  rw [List.foldl_append]
  generalize F.foldl (fun b f => if u <+: f.path ∧ u ≠ f.path then headUpd f.head b else b) (255, 0) = b
  rw [List.foldl_map]
  simp only [proper_snoc, List.nil_append]
  by_cases h : u <+: m.front
  · rw [if_pos ⟨List.nil_prefix, h⟩]
    simp only [h, if_true]
    have key : ∀ (l : List Nat), l.foldl (fun x _ => headUpd m.head x) (headUpd m.head b) = headUpd m.head b := by
      intro l
      induction l with
      | nil => rfl
      | cons a l ih => rw [List.foldl_cons, headUpd_idem, ih]
    obtain ⟨g, l, e⟩ := List.exists_cons_of_ne_nil hm
    rw [e, List.foldl_cons, key]
  · rw [if_neg (fun hh => h hh.2)]
    simp only [h, if_false]
    induction m.alts with
    | nil => rfl
    | cons a l ih => exact ih

/-- The compiler at the start of feeding a rule. -/
def enter (c : Compiler) (index : Nat) : Compiler := { c with
    depth := 0, ruleIndex := index, toStates := []
    states := if c.states.length = 0 then [State.reset] else c.states
    clock := if c.states.length = 0 then c.clock + 1 else c.clock }

/-- The compiler after feeding rules. -/
structure Ready (c : Compiler) (F : List Fed) : Prop where
  compiling : c.compiling = true
  inv : ∀ index, (∀ f ∈ F, f.index < index) → Inv (enter c index) 0 (FedR F) (fedL F) (fedH F)

theorem walk_reset {u : List Nat} (h : u ≠ []) : walk [State.reset] u = none := by
  induction u using snoc_induction with
  | nil => exact absurd rfl h
  | snoc v x ih =>
    rw [walk_snoc]
    by_cases hv : v = []
    · subst hv; rfl
    · rw [ih hv]; rfl

theorem Ready.nil {c : Compiler} (hc : c.compiling = true) (hs : c.states = []) (hu : c.uses = []) (hr : c.rules = [])
    (hf : c.freed = []) (hb : c.byDepth = []) : Ready c [] := by
  refine ⟨hc, fun index _ => ?_⟩
  have hst : (enter c index).states = [State.reset] := by simp [enter, hs]
  have hw : ∀ u s, walk (enter c index).states u = some s → u = [] ∧ s = 0 := by
    intro u s h
    rw [hst] at h
    by_cases hu : u = []
    · subst hu; exact ⟨rfl, (Option.some.inj h).symm⟩
    · rw [walk_reset hu] at h; cases h
  refine ⟨by simp [hst], by simp [hst], ?_, ?_, ?_, ?_, ?_, ?_, ?_, ?_, ?_, ?_, ?_, ?_, ?_, ?_⟩
  · intro st h
    rw [hst] at h
    rw [List.mem_singleton.1 h]
    exact Single.nil
  · intro u s h
    rw [(hw u s h).2, hst]
    decide
  · intro u v s h1 h2
    rw [(hw u s h1).1, (hw v s h2).1]
  · intro u
    rw [hst]
    by_cases hu : u = []
    · subst hu; simp [FedR]
    · rw [walk_reset hu]; simp [FedR, hu]
  · intro u x
    rw [hst, lookAt]
    by_cases hu : u = []
    · subst hu; rfl
    · rw [walk_reset hu]; rfl
  · intro u s st h1 h2
    rw [(hw u s h1).2, hst] at h2
    rw [← Option.some.inj h2]
    rfl
  · intro u _; rfl
  · show c.uses.length + 1 = (enter c index).states.length
    rw [hst, hu]; rfl
  · show c.rules.length + 1 = (enter c index).states.length
    rw [hst, hr]; rfl
  · show (c.byDepth.flatten ++ c.freed).Nodup
    rw [hb, hf]; simp
  · show ∀ s ∈ c.byDepth.flatten ++ c.freed, _
    rw [hb, hf]; simp
  · show ∀ s ∈ c.freed, _
    rw [hf]; simp
  · intro u s h1 h2
    exact absurd (hw u s h1).1 h2
  · show ∀ i l, c.byDepth[i]? = some l → _
    rw [hb]; simp

/-- What it means for a rule to have no sets before its last element, which stands for some elements. -/
structure Plain (k : Kind) (sets : Sets) (rule : Bytes) (m : Meal) : Prop where
  scan : ∃ es last, scanRule k rule = .ok es ∧ es.map (·.2) = (m.front.map fun g => (g, setNone)) ++ [last] ∧
    LastOf k sets last m.alts
  head : rdb rule 1 = .ok m.head
  some : m.alts ≠ []
  elem : ∀ g ∈ m.front, Elem k g
  alt : ∀ g ∈ m.alts, g + 1 < 2 ^ (8 * k.width)
  len : m.front.length + 1 < 256

theorem feed_ok {k : Kind} {mv : Nat → Bool} {sets : Sets} {c : Compiler} {F : List Fed} (h : Ready c F)
    {rule : Bytes} {m : Meal} (hf : Plain k sets rule m) (hlt : ∀ x ∈ F, x.index < m.index)
    (hr : m.index ≠ ruleNone) :
    (feed k mv sets c rule m.index = .err hitLimits ∧ ∀ n, Small (enter c m.index) n → 253 < n + m.weight) ∨
    ∃ c', feed k mv sets c rule m.index = .ok c' ∧ Ready c' (F ++ m.feds) ∧ c'.states ≠ [] ∧
      ∀ n, Small (enter c m.index) n → Small c' (n + m.weight) := by
  obtain ⟨es, last, hs, he, hls⟩ := hf.scan
  unfold scanRule at hs
  rw [Res.bind_eq_ok] at hs
  obtain ⟨s, hs1, hs2⟩ := hs
  have hfeed : feed k mv sets c rule m.index =
      feedList k mv sets m.head ((m.front.map fun g => (g, setNone)) ++ [last]) [0] (enter c m.index) := by
    unfold feed
    rw [if_neg (by simp [h.compiling]), hs1, Res.ok_bind, hf.head, Res.ok_bind, feedLoop_list hs2, he]
    rfl
  have hi := h.inv m.index hlt
  rw [hfeed]
  rcases feedList_ok (k := k) (mv := mv) (sets := sets) (hl := m.head) hls hf.alt m.front (c := enter c m.index) hi
    (walk_nil _) rfl rfl (Nat.zero_le _) hf.elem
    (by rw [show (enter c m.index).depth = 0 from rfl]; have := hf.len; omega)
    (by show m.index ≠ ruleNone; exact hr) with ⟨h1, h2⟩ | ⟨c', d, h1, h2, h3, h4, h5⟩
  · exact Or.inl ⟨h1, h2⟩
  · right
    have hpos := h2.pos
    have hne : c'.states ≠ [] := by intro hh; rw [hh] at hpos; cases hpos
    refine ⟨c', h1, ⟨by rw [h4]; exact h.compiling, fun index' hlt' => ?_⟩, hne, h5⟩
    have hnew : m.index < index' := by
      obtain ⟨g, hg⟩ := List.exists_mem_of_ne_nil _ hf.some
      exact hlt' _ (List.mem_append_right _ (List.mem_map.2 ⟨g, hg, rfl⟩))
    have h3' : c'.ruleIndex = m.index := h3
    have hst : (enter c' index').states = c'.states := by
      simp only [enter]
      rw [if_neg (by omega)]
    have h6 : Inv (enter c' index') 0 (fun u => FedR F u ∨ Between [] ([] ++ m.front) u)
        (fun u x => if u = [] ++ m.front ∧ x ∈ m.alts then (fedL F u x).or (Option.some m.index) else fedL F u x)
        (fun u => if Between [] ([] ++ m.front) u then headUpd m.head (fedH F u) else fedH F u) := by
      refine ⟨?_, ?_, ?_, ?_, ?_, ?_, ?_, ?_, h2.noHeads, ?_, ?_, h2.nodup, ?_, h2.freeUses, ?_, ?_⟩
      · rw [hst]; exact h2.pos
      · rw [hst]; exact h2.len
      · rw [hst]; exact h2.single
      · rw [hst]; exact h2.bound
      · rw [hst]; exact h2.inj
      · rw [hst]; exact h2.reach
      · rw [hst]; exact h2.look
      · rw [hst]; exact h2.heads
      · rw [hst]; exact h2.usesLen
      · rw [hst]; exact h2.rulesLen
      · rw [hst]; exact h2.range
      · rw [hst]; exact h2.live
      · intro i l hl y hy
        obtain ⟨rs, hrs, hne', hq⟩ := h2.rules i l hl y hy
        refine ⟨rs, hrs, hne', fun q hq' => ?_⟩
        have := (hq q hq').1
        show q ≤ index' ∧ (0 ≤ i → q < index')
        omega
    refine h6.congr ?_ ?_ ?_
    · intro u; rw [FedR_meal hf.some]
    · intro u x; rw [fedL_meal]
    · intro u; rw [fedH_meal hf.some]

end TreeModel
