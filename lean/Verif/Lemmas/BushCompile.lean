import Verif.Lemmas.BushFeed
import Verif.Lemmas.ChainCompile
import Verif.Spec.Forks

/-!
# Compiling rules that share single elements and then part
-/

namespace TreeModel
open Go Helpers ScannerModel Spec
open Classical

/-- A rule as it is fed: single elements, and then the ranges of the others. -/
structure Branch where
  front : List Nat
  body : List (List (Nat × Nat))
  strand : Bool
  head : Nat
  index : Nat
deriving Inhabited

namespace Branch

def levels (b : Branch) : List (List Nat) := (b.front.map fun g => [g]) ++ b.body.map spread

def feds (b : Branch) : List Fed := (RuleCode.picks b.levels).map fun p => ⟨p, b.head, b.index⟩

def cost (b : Branch) : Nat := b.front.length + (b.body.map (·.length)).sum

/-- The rule leaves the single elements there. -/
def Turn (b : Branch) (u : List Nat) (x : Nat) : Prop :=
  b.strand = true ∧ u = b.front ∧ ∃ P Ps, b.body = P :: Ps ∧ x ∈ spread P

/-- The second does not follow the first where it leaves the single elements. -/
def Sep (a b : Branch) : Prop := ∀ y, a.Turn a.front y → ∀ q ∈ RuleCode.picks b.levels, ¬ a.front ++ [y] <+: q

structure Shape (b : Branch) : Prop where
  body : b.body ≠ []
  some : ∀ c ∈ b.levels, c ≠ []
  leaf : b.strand = false → ∃ ls : List Nat, b.body = [ls.map fun v => (v, v)]

end Branch

def TreeOf (B : List Branch) (u : List Nat) : Prop := u = [] ∨ ∃ b ∈ B, u <+: b.front
def EntryOf (B : List Branch) (u : List Nat) (x : Nat) : Prop := ∃ b ∈ B, b.Turn u x

theorem spread_dup (ls : List Nat) : spread (ls.map fun v => (v, v)) = ls := by
  induction ls with
  | nil => rfl
  | cons v ls ih =>
    have : spread ((v :: ls).map fun v => (v, v)) = List.range' v (v + 1 - v) ++ spread (ls.map fun v => (v, v)) := rfl
    rw [this, ih, show v + 1 - v = 1 by omega]
    rfl

theorem picks_front {Ls : List (List Nat)} {p : List Nat} : ∀ {front : List Nat},
    p ∈ RuleCode.picks ((front.map fun g => [g]) ++ Ls) ↔ ∃ z ∈ RuleCode.picks Ls, p = front ++ z := by
  intro front
  induction front generalizing p with
  | nil => simp
  | cons g front ih =>
    rw [List.map_cons, List.cons_append]
    cases p with
    | nil =>
      constructor
      · intro h
        have := picks_length h
        simp at this
      · rintro ⟨z, _, h⟩
        simp at h
    | cons x p =>
      rw [mem_picks_cons, ih]
      constructor
      · rintro ⟨h1, z, h2, rfl⟩
        exact ⟨z, h2, by rw [List.mem_singleton.1 h1]; rfl⟩
      · rintro ⟨z, h2, h3⟩
        simp only [List.cons_append, List.cons.injEq] at h3
        exact ⟨by simp [h3.1], z, h2, h3.2⟩

theorem along_root {Ls : List (List Nat)} {u : List Nat} : Along (fun u => u = []) Ls u ↔ Pre Ls u := by
  constructor
  · rintro ⟨v, z, h1, rfl, h3⟩
    subst h1
    exact h3
  · intro h
    exact ⟨[], u, rfl, rfl, h⟩

theorem ends_root {Ls : List (List Nat)} {u : List Nat} {y : Nat} :
    Ends (fun u => u = []) Ls u y ↔ u ++ [y] ∈ RuleCode.picks Ls := by
  constructor
  · rintro ⟨v, z, h1, rfl, h3⟩
    subst h1
    exact h3
  · intro h
    exact ⟨[], u, rfl, rfl, h⟩

theorem FedR_branch {F : List Fed} {b : Branch} (hb : ∀ c ∈ b.levels, c ≠ []) {u : List Nat} :
    FedR (F ++ b.feds) u ↔ FedR F u ∨ Along (fun u => u = []) b.levels u := by
  rw [along_root, pre_iff hb]
  unfold FedR Branch.feds
  constructor
  · rintro (h | ⟨f, hf, h⟩)
    · exact .inl (.inl h)
    · rcases List.mem_append.1 hf with hf | hf
      · exact .inl (.inr ⟨f, hf, h⟩)
      · obtain ⟨p, hp, rfl⟩ := List.mem_map.1 hf
        exact .inr ⟨p, hp, h⟩
  · rintro ((h | ⟨f, hf, h⟩) | ⟨p, hp, h⟩)
    · exact .inl h
    · exact .inr ⟨f, List.mem_append_left _ hf, h⟩
    · exact .inr ⟨_, List.mem_append_right _ (List.mem_map.2 ⟨p, hp, rfl⟩), h⟩

theorem fedL_branch {F : List Fed} {b : Branch} {u : List Nat} {x : Nat} :
    fedL (F ++ b.feds) u x =
      if Ends (fun u => u = []) b.levels u x then (fedL F u x).or (some b.index) else fedL F u x := by
  have h1 : fedL b.feds u x = if Ends (fun u => u = []) b.levels u x then some b.index else none := by
    refine fedL_of ?_ ?_
    · intro f hf hp
      obtain ⟨p, hpk, rfl⟩ := List.mem_map.1 hf
      simp only at hp
      rw [hp] at hpk
      exact ⟨ends_root.2 hpk, rfl⟩
    · intro h
      exact ⟨_, List.mem_map.2 ⟨_, ends_root.1 h, rfl⟩, rfl⟩
  have h2 : fedL (F ++ b.feds) u x = (fedL F u x).or (fedL b.feds u x) := by
    unfold fedL
    rw [List.find?_append]
    cases F.find? fun f => decide (f.path = u ++ [x]) <;> simp
  rw [h2, h1]
  split
  · rfl
  · simp

theorem fedH_branch {F : List Fed} {b : Branch} (hb : ∀ c ∈ b.levels, c ≠ []) {u : List Nat} :
    fedH (F ++ b.feds) u = if Along (fun u => u = []) b.levels u then headUpd b.head (fedH F u) else fedH F u := by
  unfold fedH
  rw [List.foldl_append]
  generalize F.foldl (fun b f => if u <+: f.path ∧ u ≠ f.path then headUpd f.head b else b) (255, 0) = e
  have h := @pre_iff _ hb u
  unfold Branch.feds
  rw [List.foldl_map]
  have hidem : ∀ l : List (List Nat), ∀ e, headUpd b.head e = e →
      l.foldl (fun e p => if u <+: p ∧ u ≠ p then headUpd b.head e else e) e = e := by
    intro l
    induction l with
    | nil => intro e _; rfl
    | cons p l ih =>
      intro e he
      rw [List.foldl_cons]
      split
      · rw [he]; exact ih e he
      · exact ih e he
  have key : ∀ l : List (List Nat), ∀ e, (∃ p ∈ l, u <+: p ∧ u ≠ p) →
      l.foldl (fun e p => if u <+: p ∧ u ≠ p then headUpd b.head e else e) e = headUpd b.head e := by
    intro l
    induction l with
    | nil => rintro e ⟨p, hp, _⟩; cases hp
    | cons p l ih =>
      rintro e ⟨p', hp', hx⟩
      rw [List.foldl_cons]
      by_cases hc : u <+: p ∧ u ≠ p
      · rw [if_pos hc]
        exact hidem l _ (headUpd_idem _ _)
      · rw [if_neg hc]
        rcases List.mem_cons.1 hp' with rfl | hp'
        · exact absurd hx hc
        · exact ih e ⟨p', hp', hx⟩
  have key0 : ∀ l : List (List Nat), ∀ e, (¬ ∃ p ∈ l, u <+: p ∧ u ≠ p) →
      l.foldl (fun e p => if u <+: p ∧ u ≠ p then headUpd b.head e else e) e = e := by
    intro l
    induction l with
    | nil => intro e _; rfl
    | cons p l ih =>
      intro e hn
      rw [List.foldl_cons, if_neg fun hc => hn ⟨p, by simp, hc⟩]
      exact ih e fun ⟨p', hp', hx⟩ => hn ⟨p', by simp [hp'], hx⟩
  by_cases hp : Pre b.levels u
  · rw [if_pos (along_root.2 hp)]
    exact key _ e (h.1 hp)
  · rw [if_neg fun hh => hp (along_root.1 hh)]
    exact key0 _ e fun hh => hp (h.2 hh)

/-- What is needed of a rule. -/
structure Sprout (k : Kind) (sets : Sets) (rule : Bytes) (b : Branch) : Prop where
  scan : ∃ es, ∃ tail : List ((Nat × Nat) × List (Nat × Nat)), scanRule k rule = .ok es ∧
    es.map (·.2) = (b.front.map fun g => (g, setNone)) ++ tail.map (·.1) ∧ tail.map (·.2) = b.body ∧
    ∀ y ∈ tail, LevelOf k sets y.1 y.2
  head : rdb rule 1 = .ok b.head
  shape : b.Shape
  elem : ∀ g ∈ b.front, Elem k g
  some : ∀ P ∈ b.body, P ≠ []
  level : b.strand = true → ∀ P ∈ b.body, Level k [] P
  alts : b.strand = false → ∀ P ∈ b.body, ∀ p ∈ P, p.2 + 1 < 2 ^ (8 * k.width)
  len : b.front.length + b.body.length < 256

/-- The compiler after feeding such rules. -/
structure Grown (c : Compiler) (B : List Branch) : Prop where
  compiling : c.compiling = true
  shape : ∀ b ∈ B, b.Shape
  bush : ∀ index, (∀ b ∈ B, b.index < index) →
    Bush (enter c index) 0 (FedR (B.flatMap Branch.feds)) (fedL (B.flatMap Branch.feds)) (fedH (B.flatMap Branch.feds))
      (TreeOf B) (EntryOf B)

theorem mem_branches {B : List Branch} {f : Fed} :
    f ∈ B.flatMap Branch.feds ↔ ∃ s ∈ B, ∃ p ∈ RuleCode.picks s.levels, f = ⟨p, s.head, s.index⟩ := by
  simp only [Branch.feds, List.mem_flatMap, List.mem_map]
  constructor
  · rintro ⟨s, hs, p, hp, rfl⟩; exact ⟨s, hs, p, hp, rfl⟩
  · rintro ⟨s, hs, p, hp, rfl⟩; exact ⟨s, hs, p, hp, rfl⟩

theorem Bush.enter {c : Compiler} {d index : Nat} {R : List Nat → Prop} {L : List Nat → Nat → Option Nat}
    {H : List Nat → Nat × Nat} {T : List Nat → Prop} {E : List Nat → Nat → Prop} (h : Bush c d R L H T E)
    (hi : c.ruleIndex < index) : Bush (TreeModel.enter c index) 0 R L H T E := by
  have hpos := h.pos
  have hst : (TreeModel.enter c index).states = c.states := by
    simp only [TreeModel.enter]
    rw [if_neg (by omega)]
  constructor
  · rw [hst]; exact h.pos
  · rw [hst]; exact h.len
  · rw [hst]; exact h.ranged
  · rw [hst]; exact h.bound
  · rw [hst]; exact h.reach
  · rw [hst]; exact h.look
  · rw [hst]; exact h.heads
  · exact h.noHeads
  · rw [hst]; exact h.usesLen
  · rw [hst]; exact h.rulesLen
  · exact h.nodup
  · rw [hst]; exact h.range
  · exact h.freeUses
  · exact h.root
  · exact h.reached
  · rw [hst]; exact h.inj
  · rw [hst]; exact h.live
  · rw [hst]; exact h.once
  · rw [hst]; exact h.active
  · rw [hst]; exact h.entry
  · intro i l hl s hs
    obtain ⟨rs, r1, r2, r3⟩ := h.rules i l hl s hs
    refine ⟨rs, r1, r2, fun q hq => ?_⟩
    have := (r3 q hq).1
    exact ⟨by show q ≤ index; omega, fun _ => by show q < index; omega⟩

theorem feed_branch {k : Kind} {mv : Nat → Bool} {sets : Sets} {c : Compiler} {B : List Branch} (h : Grown c B)
    {rule : Bytes} {b : Branch} (hf : Sprout k sets rule b) (hlt : ∀ x ∈ B, x.index < b.index)
    (hsep : ∀ x ∈ B, x.Sep b ∧ b.Sep x) (hr : b.index ≠ ruleNone) :
    (feed k mv sets c rule b.index = .err hitLimits ∧ ∀ n, Small (enter c b.index) n → 253 < n + b.cost) ∨
    ∃ c', feed k mv sets c rule b.index = .ok c' ∧ Grown c' (B ++ [b]) ∧ c'.states ≠ [] ∧
      ∀ n, Small (enter c b.index) n → Small c' (n + b.cost) := by
  obtain ⟨es, tail, hs, he, htl, hlv⟩ := hf.scan
  unfold scanRule at hs
  rw [Res.bind_eq_ok] at hs
  obtain ⟨sc, hs1, hs2⟩ := hs
  have hfeed : feed k mv sets c rule b.index =
      feedList k mv sets b.head ((b.front.map fun g => (g, setNone)) ++ tail.map (·.1)) [0] (enter c b.index) := by
    unfold feed
    rw [if_neg (by simp [h.compiling]), hs1, Res.ok_bind, hf.head, Res.ok_bind, feedLoop_list hs2, he]
    rfl
  have hwide : ∀ u x, EntryOf B u x → EntryOf (B ++ [b]) u x := fun u x ⟨a, ha, ht⟩ => ⟨a, by simp [ha], ht⟩
  have hB := (h.bush b.index hlt).wider hwide
  have hbody : b.body ≠ [] := hf.shape.body
  have htn : tail ≠ [] := by
    rintro rfl
    exact hbody htl.symm
  obtain ⟨q0, hq0⟩ := picks_ne hf.shape.some
  obtain ⟨z0, _, hz0⟩ := picks_front.1 hq0
  -- where the others leave
  have hE : ∀ u g, u ++ [g] <+: b.front → ¬ EntryOf (B ++ [b]) u g := by
    rintro u g hug ⟨a, ha, ht⟩
    rcases List.mem_append.1 ha with ha | ha
    · obtain ⟨t1, rfl, t3⟩ := ht
      refine (hsep a ha).1 g ⟨t1, rfl, t3⟩ q0 hq0 (hug.trans ?_)
      rw [hz0]
      exact List.prefix_append _ _
    · rw [List.mem_singleton.1 ha] at ht
      have := hug.length_le
      rw [ht.2.1] at this
      simp at this
      omega
  have hRT : ∀ u, FedR (B.flatMap Branch.feds) u → u <+: b.front → TreeOf B u := by
    rintro u (hu | ⟨f, hfm, hp, hne⟩) hub
    · exact .inl hu
    · obtain ⟨a, ha, p, hpk, rfl⟩ := mem_branches.1 hfm
      obtain ⟨z, hz, rfl⟩ := picks_front.1 hpk
      simp only at hp hne
      refine .inr ⟨a, ha, ?_⟩
      rcases List.prefix_or_prefix_of_prefix hp (List.prefix_append a.front z) with h1 | ⟨t, h1⟩
      · exact h1
      · cases t with
        | nil => rw [← h1]; simp
        | cons y t =>
          exfalso
          rw [← h1] at hp
          rw [List.prefix_append_right_inj] at hp
          cases z with
          | nil => simp at hp
          | cons y' z =>
            obtain ⟨rfl, hp'⟩ := List.cons_prefix_cons.1 hp
            obtain ⟨P, Ps, hPs⟩ := List.exists_cons_of_ne_nil (h.shape a ha).body
            rw [hPs, List.map_cons, mem_picks_cons] at hz
            cases hst : a.strand with
            | false =>
              obtain ⟨ls, hls⟩ := (h.shape a ha).leaf hst
              rw [hPs] at hls
              obtain ⟨_, rfl⟩ := List.cons.inj hls
              have hzl := picks_length hz.2
              simp only [List.map_nil, List.length_nil] at hzl
              have hz0 : z = [] := List.length_eq_zero_iff.1 hzl
              subst hz0
              have ht0 : t = [] := List.prefix_nil.1 hp'
              subst ht0
              exact hne h1.symm
            | true =>
              refine (hsep a ha).1 y ⟨hst, rfl, P, Ps, hPs, hz.1⟩ q0 hq0 (List.IsPrefix.trans ?_ (hub.trans ?_))
              · rw [← h1]
                exact ⟨t, by simp⟩
              · rw [hz0]
                exact List.prefix_append _ _
  have hNL : b.body.length = tail.length := by rw [← htl, List.length_map]
  have hLs : b.body.map spread ≠ [] := by simpa using hbody
  have hlen := hf.len
  have hpos : 0 < b.body.length := List.length_pos_iff.2 hbody
  have main : Outcome k mv sets b.head ((b.front.map fun g => (g, setNone)) ++ tail.map (·.1)) 0 (enter c b.index)
      (FedR (B.flatMap Branch.feds)) (fedL (B.flatMap Branch.feds)) (fedH (B.flatMap Branch.feds))
      (fun u => TreeOf B u ∨ Between [] b.front u) (EntryOf (B ++ [b])) (fun u => u = [])
      ((b.front.map fun g => [g]) ++ b.body.map spread) (b.front.length + (b.body.map (·.length)).sum) := by
    refine Bush.front (idx := b.index) (N := b.body.length) (R0 := FedR (B.flatMap Branch.feds)) (T0 := TreeOf B)
      (by simpa using htn) hLs hE hRT hlen hpos ?_ b.front rfl hB rfl (.inl rfl) rfl (fun u hu => .inl hu) (fun u hu => hu) rfl
      (Nat.zero_le _) hf.elem rfl
    intro c1 R H T cur h1 hw hT hql hR hto hd hidx
    cases hst : b.strand with
    | true =>
      obtain ⟨x, rest, rfl⟩ := List.exists_cons_of_ne_nil htn
      have hbx : b.body = x.2 :: rest.map (·.2) := htl.symm
      have e1 : b.body.map spread = (x :: rest).map fun y => spread y.2 := by
        rw [← htl, List.map_map]; rfl
      have e2 : (b.body.map (·.length)).sum = ((x :: rest).map (·.2.length)).sum := by
        rw [← htl, List.map_map]; rfl
      rw [e1, e2]
      have hturn : ∀ y ∈ spread x.2, b.Turn b.front y := fun y hy => ⟨hst, rfl, _, _, hbx, hy⟩
      refine Bush.strand rest x (fun y hy => ?_) h1 (fun u => ⟨fun hu => h1.inj b.front u cur hT hw hu, fun hu => by
        rw [hu]; exact hw⟩) ⟨_, rfl⟩ (fun u hu => by rw [hu]; exact hql) ?_ ?_ hto hd ?_ (by rw [hidx]; exact hr)
      · have hy2 : y.2 ∈ b.body := by rw [← htl]; exact List.mem_map.2 ⟨y, hy, rfl⟩
        exact ⟨hlv y hy, hf.some _ hy2, hf.level hst _ hy2⟩
      · intro u hu y hy
        subst hu
        have hno : ∀ f ∈ B.flatMap Branch.feds, ¬ b.front ++ [y] <+: f.path := by
          intro f hfm
          obtain ⟨a, ha, p, hp, rfl⟩ := mem_branches.1 hfm
          exact (hsep a ha).2 y (hturn y hy) p hp
        constructor
        · unfold fedL
          rw [Option.map_eq_none_iff, List.find?_eq_none]
          intro f hfm hh
          refine hno f hfm ?_
          rw [of_decide_eq_true hh]
          exact List.prefix_refl _
        · intro hh
          rcases hR _ hh with hh | hh
          · rcases hh with hh | ⟨f, hfm, hp, _⟩
            · simp at hh
            · exact hno f hfm hp
          · have := hh.length_le
            simp at this
            omega
      · intro u _ hu y hy
        subst hu
        exact ⟨b, by simp, hturn y hy⟩
      · simp only [List.length_cons] at hNL
        omega
    | false =>
      obtain ⟨ls, hls⟩ := hf.shape.leaf hst
      rw [hls] at htl
      obtain ⟨x, rfl⟩ : ∃ x, tail = [x] := by
        cases tail with
        | nil => simp at htl
        | cons x rest =>
          simp only [List.map_cons, List.cons.injEq, List.map_eq_nil_iff] at htl
          exact ⟨x, by rw [htl.2]⟩
      have hx2 : x.2 = ls.map fun v => (v, v) := by simpa using htl
      have e1 : b.body.map spread = [ls] := by rw [hls]; simp [spread_dup]
      have e2 : (b.body.map (·.length)).sum = ls.length := by rw [hls]; simp
      rw [e1, e2]
      refine h1.leaf hw hT (by rw [hidx]; exact hr) hd (by rw [← hx2]; exact hlv x (by simp)) ?_ (by omega)
      intro g hg
      have hgm : (g, g) ∈ ls.map fun v => (v, v) := List.mem_map.2 ⟨g, hg, rfl⟩
      refine ⟨hf.alts hst _ (by rw [hls]; simp) (g, g) hgm, ?_⟩
      rintro ⟨a, ha, ht⟩
      rcases List.mem_append.1 ha with ha | ha
      · obtain ⟨t1, t2, t3⟩ := ht
        refine (hsep a ha).1 g ⟨t1, rfl, t3⟩ (b.front ++ [g]) ?_ (by rw [t2]; exact List.prefix_refl _)
        refine picks_front.2 ⟨[g], ?_, rfl⟩
        rw [e1]
        exact mem_picks_cons.2 ⟨hg, by simp [RuleCode.picks]⟩
      · rw [List.mem_singleton.1 ha] at ht
        exact absurd ht.1 (by simp [hst])
  rw [hfeed]
  rcases main with ⟨h1, h2⟩ | ⟨c', d, h1, h2, h3, h4, h5⟩
  · exact Or.inl ⟨h1, h2⟩
  · right
    have hne : c'.states ≠ [] := by
      have := h2.pos
      intro hh
      rw [hh] at this
      cases this
    refine ⟨c', h1, ⟨by rw [h4]; exact h.compiling, ?_, fun index hidx => ?_⟩, hne, h5⟩
    · intro a ha
      rcases List.mem_append.1 ha with ha | ha
      · exact h.shape a ha
      · rw [List.mem_singleton.1 ha]; exact hf.shape
    · have hnew : b.index < index := hidx b (by simp)
      have h3' : c'.ruleIndex = b.index := h3
      have hfl : (B ++ [b]).flatMap Branch.feds = B.flatMap Branch.feds ++ b.feds := by simp
      rw [hfl]
      refine (h2.enter (by omega)).congr ?_ ?_ ?_ ?_
      · intro u
        rw [FedR_branch hf.shape.some]
        rfl
      · intro u x
        rw [fedL_branch]
        rfl
      · intro u
        rw [fedH_branch hf.shape.some]
        rfl
      · intro u
        unfold TreeOf Between
        constructor
        · rintro ((hu | ⟨a, ha, hu⟩) | ⟨_, hu⟩)
          · exact .inl hu
          · exact .inr ⟨a, by simp [ha], hu⟩
          · exact .inr ⟨b, by simp, hu⟩
        · rintro (hu | ⟨a, ha, hu⟩)
          · exact .inl (.inl hu)
          · rcases List.mem_append.1 ha with ha | ha
            · exact .inl (.inr ⟨a, ha, hu⟩)
            · rw [List.mem_singleton.1 ha] at hu
              exact .inr ⟨List.nil_prefix, hu⟩

theorem feedAll_branch {k : Kind} {mv : Nat → Bool} {sets : Sets} : ∀ (l : List (Bytes × Branch)) {c : Compiler}
    {B : List Branch}, Grown c B → (∀ x ∈ l, Sprout k sets x.1 x.2) →
    (∀ x ∈ l, ∀ s ∈ B, s.index < x.2.index ∧ s.Sep x.2 ∧ x.2.Sep s) →
    (l.Pairwise fun a b => a.2.index < b.2.index ∧ a.2.Sep b.2 ∧ b.2.Sep a.2) → (∀ x ∈ l, x.2.index ≠ ruleNone) →
    (feedAll k mv sets (l.map fun x => (x.1, x.2.index)) c = .err hitLimits ∧
      ∀ n, (∀ i, Small (enter c i) n) → 253 < n + (l.map (·.2.cost)).sum) ∨
    ∃ c', feedAll k mv sets (l.map fun x => (x.1, x.2.index)) c = .ok c' ∧ Grown c' (B ++ l.map (·.2)) ∧
      (l ≠ [] → c'.states ≠ [])
  | [], c, T, h, _, _, _, _ => Or.inr ⟨c, rfl, by simpa using h, fun h => absurd rfl h⟩
  | x :: l, c, T, h, hp, hF, hs, hi => by
    obtain ⟨hs1, hs2⟩ := List.pairwise_cons.1 hs
    have hx := hF x (List.mem_cons_self ..)
    simp only [List.map_cons, feedAll]
    rcases feed_branch (mv := mv) (sets := sets) h (hp x (List.mem_cons_self ..)) (fun y hy => (hx y hy).1)
      (fun y hy => (hx y hy).2) (hi x (List.mem_cons_self ..)) with ⟨h1, h2⟩ | ⟨c', h1, h2, h3, h4⟩
    · left
      rw [h1]
      refine ⟨rfl, fun n hn => ?_⟩
      have := h2 n (hn _)
      simp only [List.sum_cons]
      omega
    · rw [h1, Res.ok_bind]
      have := feedAll_branch (mv := mv) (sets := sets) l h2 (fun y hy => hp y (List.mem_cons_of_mem _ hy))
        (fun y hy s hm => by
          rcases List.mem_append.1 hm with hm | hm
          · exact hF y (List.mem_cons_of_mem _ hy) s hm
          · rw [List.mem_singleton.1 hm]
            exact hs1 y hy) hs2 (fun y hy => hi y (List.mem_cons_of_mem _ hy))
      rcases this with ⟨h5, h6⟩ | ⟨c2, h5, h6, h7⟩
      · left
        refine ⟨h5, fun n hn => ?_⟩
        have h8 := h4 n (hn _)
        have := h6 (n + x.2.cost) (fun i => by
          have hst : (enter c' i).states = c'.states := by
            simp only [enter]
            rw [if_neg]
            intro hh
            exact h3 (List.length_eq_zero_iff.1 hh)
          unfold Small
          rw [hst]
          exact h8)
        simp only [List.sum_cons]
        omega
      · right
        refine ⟨c2, h5, by simpa using h6, fun _ => ?_⟩
        by_cases hl : l = []
        · subst hl
          simp only [List.map_nil, feedAll, Res.ok.injEq] at h5
          rw [← h5]
          exact h3
        · exact h7 hl

theorem Grown.nil {c : Compiler} (hc : c.compiling = true) (hs : c.states = []) (hu : c.uses = []) (hr : c.rules = [])
    (hf : c.freed = []) (hb : c.byDepth = []) : Grown c [] := by
  refine ⟨hc, by simp, fun index _ => ?_⟩
  have hst : (enter c index).states = [State.reset] := by simp [enter, hs]
  have hw : ∀ u s, walk (enter c index).states u = some s → u = [] ∧ s = 0 := by
    intro u s h
    rw [hst] at h
    by_cases hu : u = []
    · subst hu; exact ⟨rfl, (Option.some.inj h).symm⟩
    · rw [walk_reset hu] at h; cases h
  have hno : ∀ u s st, walk (enter c index).states u = some s → (enter c index).states[s]? = some st → st.trans = [] := by
    intro u s st h1 h2
    rw [(hw u s h1).2, hst] at h2
    rw [← Option.some.inj h2]
    rfl
  constructor
  · simp [hst]
  · simp [hst]
  · intro st h
    rw [hst] at h
    rw [List.mem_singleton.1 h]
    exact Ranged.nil
  · intro u s h
    rw [(hw u s h).2, hst]
    decide
  · intro u
    rw [hst]
    by_cases hu : u = []
    · subst hu; simp [FedR]
    · rw [walk_reset hu]; simp [FedR, hu]
  · intro u x
    rw [hst, lookAt]
    by_cases hu : u = []
    · subst hu; rfl
    · rw [walk_reset hu]; rfl
  · intro u s st h1 h2
    rw [(hw u s h1).2, hst] at h2
    rw [← Option.some.inj h2]
    rfl
  · intro u _; rfl
  · show c.uses.length + 1 = (enter c index).states.length
    rw [hst, hu]; rfl
  · show c.rules.length + 1 = (enter c index).states.length
    rw [hst, hr]; rfl
  · show (c.byDepth.flatten ++ c.freed).Nodup
    rw [hb, hf]; simp
  · show ∀ s ∈ c.byDepth.flatten ++ c.freed, _
    rw [hb, hf]; simp
  · show ∀ s ∈ c.freed, _
    rw [hf]; simp
  · exact .inl rfl
  · rintro u (h | ⟨b, hb, _⟩)
    · exact .inl h
    · cases hb
  · intro u v s _ h1 h2
    rw [(hw u s h1).1, (hw v s h2).1]
  · intro u s h1 h2
    exact absurd (hw u s h1).1 h2
  · intro u s _ h1 h2
    exact absurd (hw u s h1).1 h2
  · intro u s st h1 h2 t ht
    rw [hno u s st h1 h2] at ht
    cases ht
  · intro u s st _ h1 h2 t ht
    rw [hno u s st h1 h2] at ht
    cases ht
  · show ∀ i l, c.byDepth[i]? = some l → _
    rw [hb]; simp

theorem compile_branches {k : Kind} {mv : Nat → Bool} {sets : Sets} {l : List (Bytes × Branch)} {c : Compiler}
    (hc : c.compiling = false) (hp : ∀ x ∈ l, Sprout k sets x.1 x.2)
    (hs : l.Pairwise fun a b => a.2.index < b.2.index ∧ a.2.Sep b.2 ∧ b.2.Sep a.2) (hi : ∀ x ∈ l, x.2.index < 255) :
    (compile k mv sets (l.map fun x => (x.1, x.2.index)) c = .err hitLimits ∧ 253 < (l.map (·.2.cost)).sum) ∨
    ∃ S c', compile k mv sets (l.map fun x => (x.1, x.2.index)) c = .ok (S, c') ∧ c'.compiling = false ∧
      (l ≠ [] → Recognises S ((l.map (·.2)).flatMap Branch.feds)) := by
  unfold compile begin
  rw [if_neg (by simp [hc]), Res.ok_bind]
  generalize hc0 : ({ c with compiling := true, states := [], rules := [], uses := [], freed := [], byDepth := [] } : Compiler) = c0
  have h0 : Grown c0 [] := by rw [← hc0]; exact Grown.nil rfl rfl rfl rfl rfl rfl
  rcases feedAll_branch (mv := mv) (sets := sets) l h0 hp (by simp) hs
    (fun x hx => by have := hi x hx; simp only [ruleNone]; omega) with ⟨h1, h2⟩ | ⟨c', h1, h2, h3⟩
  · left
    rw [h1]
    refine ⟨rfl, ?_⟩
    have := h2 0 (fun i => by
      rw [← hc0]
      refine ⟨by simp [enter], ?_⟩
      intro st hst
      simp only [enter, List.length_nil, if_pos] at hst
      rw [List.mem_singleton.1 hst]
      exact Nat.le_refl _)
    simpa using this
  · right
    rw [h1, Res.ok_bind, finish, if_neg (by simp [h2.compiling])]
    refine ⟨_, _, rfl, rfl, fun hl => ?_⟩
    have hne := h3 hl
    have hb := h2.bush 255 (by
      intro b hb
      rw [List.nil_append] at hb
      obtain ⟨x, hx, rfl⟩ := List.mem_map.1 hb
      exact hi x hx)
    have hst : (enter c' 255).states = c'.states := by
      simp only [enter]
      rw [if_neg]
      intro hh
      exact hne (List.length_eq_zero_iff.1 hh)
    rw [List.nil_append] at hb
    have h5 := hb.ranged
    have h6 := hb.bound
    have h7 := hb.reach
    have h8 := hb.look
    have h9 := hb.heads
    rw [hst] at h5 h6 h7 h8 h9
    exact ⟨fun st hm => trigger_ranged (h5 st hm), h6, h7, h8, h9⟩

theorem ones_choices {S : Nat → List Nat} {l : List (Nat × InElem)} (h : ∀ b i, (b, InElem.set i) ∉ l) :
    l.map (RuleCode.choices S) = (ones l).map fun g => [g] := by
  induction l with
  | nil => rfl
  | cons x l ih =>
    obtain ⟨b, e⟩ := x
    have ih := ih fun b i hh => h b i (List.mem_cons_of_mem _ hh)
    cases e with
    | set i => exact absurd (List.mem_cons_self ..) (h b i)
    | one v =>
      rw [List.map_cons, ih]
      rfl

theorem ones_parts {Q : Nat → List (Nat × Nat)} {l : List (Nat × InElem)} (h : ∀ b i, (b, InElem.set i) ∉ l) :
    (l.map fun x => (RuleCode.parts Q x).length).sum = l.length := by
  induction l with
  | nil => rfl
  | cons x l ih =>
    obtain ⟨b, e⟩ := x
    have ih := ih fun b i hh => h b i (List.mem_cons_of_mem _ hh)
    cases e with
    | set i => exact absurd (List.mem_cons_self ..) (h b i)
    | one v =>
      rw [List.map_cons, List.sum_cons, ih]
      simp [RuleCode.parts]
      omega

/-- A rule as it is fed. -/
structure IsBranch (k : Kind) (sets : Sets) (word : Nat → Bytes) (Q : Nat → List (Nat × Nat)) (fork : Option Nat)
    (x : RuleCode × Nat) (b : Branch) : Prop where
  sprout : Sprout k sets (x.1.bytes word) b
  index : b.index = x.2
  levels : b.levels = x.1.elems.map (RuleCode.choices fun i => spread (Q i))
  head : b.head = blockSize x.1.head
  cost : b.cost = x.1.reach Q fork
  fork : b.strand = true → fork = some b.front.length

theorem branch_of {k : Kind} {word : Nat → Bytes} {ok : Nat → Prop} {sets : Sets} {Q : Nat → List (Nat × Nat)}
    {fork : Option Nat} {x : RuleCode × Nat} (h : x.1.Ok ok) {max : Nat} (hQ : Branching sets Q max fork x.1)
    (hmax : max < 2 ^ (8 * k.width))
    (hs : scanRule k (x.1.bytes word) = .ok (x.1.elems.map (pair k))) (hk : ∀ v, ok v → Elem k v) :
    ∃ b, IsBranch k sets word Q fork x b := by
  have hlen := elems_length x.1
  have ht := h.total
  have h1 := h.outPos
  have h2 := h.outLe
  have hne : x.1.elems ≠ [] := by
    intro hh
    rw [hh] at hlen
    simp at hlen
    omega
  have hhead : rdb (x.1.bytes word) 1 = .ok (blockSize x.1.head) := by
    simp only [rdb, RuleCode.bytes]
    rw [idx_eq_ok.2 rfl, Res.ok_bind]
    simp only [Res.pure_eq, UInt8.toNat_ofNat']
    rw [Nat.mod_eq_of_lt (by omega)]
  have hones : ∀ l : List (Nat × InElem), (∀ y ∈ l, y ∈ x.1.elems) → ∀ g ∈ ones l, Elem k g := by
    intro l hl g hg
    obtain ⟨⟨b, e⟩, hm, he⟩ := List.mem_filterMap.1 hg
    cases e with
    | set i => cases he
    | one v =>
      have hgv : v = g := by simpa using he
      subst hgv
      exact hk _ (elem_ok h (b := b) (hl _ hm))
  cases fork with
  | none =>
    obtain ⟨hn, hS⟩ : x.1.SetsLast ∧ Known sets (fun i => spread (Q i)) max x.1 := hQ
    obtain ⟨l, y, hly⟩ : ∃ l y, x.1.elems = l ++ [y] := ⟨_, _, (List.dropLast_concat_getLast hne).symm⟩
    have hl : ∀ b i, (b, InElem.set i) ∉ l := by
      have := hn
      unfold RuleCode.SetsLast at this
      rwa [hly, List.dropLast_concat] at this
    have hol := ones_length hl
    have hll : l.length + 1 = x.1.elems.length := by rw [hly]; simp
    have hym : y ∈ x.1.elems := by rw [hly]; simp
    have hyc : RuleCode.choices (fun i => spread (Q i)) y ≠ [] := by
      obtain ⟨b, e⟩ := y
      cases e with
      | one v => simp [RuleCode.choices]
      | set i => exact (hS b i hym).2.1
    have hlev : (⟨ones l, [(RuleCode.choices (fun i => spread (Q i)) y).map fun v => (v, v)], false, blockSize x.1.head,
        x.2⟩ : Branch).levels = x.1.elems.map (RuleCode.choices fun i => spread (Q i)) := by
      show ((ones l).map fun g => [g]) ++ [spread _] = _
      rw [spread_dup, hly, List.map_append, ones_choices hl]
      rfl
    refine ⟨⟨ones l, [(RuleCode.choices (fun i => spread (Q i)) y).map fun v => (v, v)], false, blockSize x.1.head, x.2⟩,
      ⟨⟨_, [((pair k y).2, (RuleCode.choices (fun i => spread (Q i)) y).map fun v => (v, v))], hs, ?_, rfl, ?_⟩,
        hhead, ⟨by simp, ?_, fun _ => ⟨_, rfl⟩⟩, hones l (fun z hz => by rw [hly]; simp [hz]), ?_, (fun hh => by cases hh), ?_, ?_⟩,
      rfl, hlev, rfl, ?_, (fun hh => by cases hh)⟩
    · rw [hly, List.map_append, List.map_append, ones_pair hl]
      rfl
    · intro z hz
      rw [List.mem_singleton.1 hz]
      obtain ⟨b, e⟩ := y
      cases e with
      | one v => exact Or.inl ⟨rfl, (hk v (elem_ok h (b := b) hym)).2, rfl⟩
      | set i =>
        obtain ⟨e1, _, ⟨rs, l', e3, e4⟩, _⟩ := hS b i hym
        refine Or.inr ⟨rfl, e1, _, l', e3, ?_⟩
        show (spread (Q i)).map _ = _
        have e4 : spread (Q i) = rs ++ l' := e4
        rw [e4, List.map_append]
    · rw [hlev]
      intro c hc
      rw [hly, List.map_append, ones_choices hl] at hc
      rcases List.mem_append.1 hc with hc | hc
      · obtain ⟨g, _, rfl⟩ := List.mem_map.1 hc
        simp
      · rw [List.map_cons, List.map_nil, List.mem_singleton] at hc
        rw [hc]
        exact hyc
    · intro P hP
      rw [List.mem_singleton.1 hP]
      simpa using hyc
    · intro _ P hP p hp
      rw [List.mem_singleton.1 hP] at hp
      obtain ⟨v, hv, rfl⟩ := List.mem_map.1 hp
      simp only
      obtain ⟨b, e⟩ := y
      cases e with
      | one g =>
        rw [List.mem_singleton.1 hv]
        exact (hk g (elem_ok h (b := b) hym)).1
      | set i =>
        have := (hS b i hym).2.2.2 v hv
        omega
    · show (ones l).length + 1 < 256
      omega
    · show (ones l).length + _ = x.1.weight _
      unfold RuleCode.weight
      have e : (x.1.elems.map fun z => (RuleCode.choices (fun i => spread (Q i)) z).length) =
          (x.1.elems.map (RuleCode.choices fun i => spread (Q i))).map (·.length) := by rw [List.map_map]; rfl
      rw [e, hly, List.map_append, ones_choices hl, List.map_append, List.sum_append, List.map_map]
      have e2 : ∀ l : List Nat, (l.map ((·.length) ∘ fun g => [g])).sum = l.length := by
        intro l
        induction l with
        | nil => rfl
        | cons a l ih =>
          rw [List.map_cons, List.sum_cons, ih]
          simp
          omega
      rw [e2]
      simp
  | some n =>
    obtain ⟨⟨hn, hl⟩, hQ⟩ : x.1.ForksAt n ∧ Laid sets Q max x.1 := hQ
    have hn : n < x.1.elems.length := hn
    have hol := ones_length hl
    have htk : (x.1.elems.take n).length = n := by rw [List.length_take]; omega
    have htd : x.1.elems.take n ++ x.1.elems.drop n = x.1.elems := List.take_append_drop ..
    have hlv : ∀ y ∈ x.1.elems, LevelOf k sets (pair k y).2 (RuleCode.parts Q y) ∧ RuleCode.parts Q y ≠ [] ∧
        Level k [] (RuleCode.parts Q y) := by
      rintro ⟨b, y⟩ hy
      cases y with
      | one v =>
        have hv := hk v (elem_ok h (b := b) hy)
        refine ⟨Or.inl ⟨rfl, hv.2, rfl⟩, by simp [RuleCode.parts], ?_⟩
        refine ⟨?_, ?_, ?_, ?_⟩
        · intro p hp; rw [List.mem_singleton.1 hp]; exact Nat.le_refl _
        · intro p hp; rw [List.mem_singleton.1 hp]; exact hv.1
        · intro p hp t ht; cases ht
        · exact List.pairwise_singleton _ _
      | set i =>
        obtain ⟨q1, q2, q3, q4, q5⟩ := hQ b i hy
        refine ⟨Or.inr ⟨rfl, q1, q3⟩, q2, ⟨fun p hp => (q4 p hp).1, fun p hp => ?_, ?_, q5⟩⟩
        · have := (q4 p hp).2; omega
        · intro p hp t ht; cases ht
    have hlev : (⟨ones (x.1.elems.take n), (x.1.elems.drop n).map (RuleCode.parts Q), true, blockSize x.1.head,
        x.2⟩ : Branch).levels = x.1.elems.map (RuleCode.choices fun i => spread (Q i)) := by
      show ((ones (x.1.elems.take n)).map fun g => [g]) ++ ((x.1.elems.drop n).map (RuleCode.parts Q)).map spread = _
      rw [← ones_choices (S := fun i => spread (Q i)) hl, List.map_map]
      have : (spread ∘ RuleCode.parts Q) = RuleCode.choices fun i => spread (Q i) := by
        funext y
        exact spread_parts Q y
      rw [this, ← List.map_append, htd]
    have hmem : ∀ y ∈ x.1.elems.drop n, y ∈ x.1.elems := fun y hy => List.mem_of_mem_drop hy
    refine ⟨⟨ones (x.1.elems.take n), (x.1.elems.drop n).map (RuleCode.parts Q), true, blockSize x.1.head, x.2⟩,
      ⟨⟨_, (x.1.elems.drop n).map fun y => ((pair k y).2, RuleCode.parts Q y), hs, ?_, ?_, ?_⟩,
        hhead, ⟨?_, ?_, (fun hh => by cases hh)⟩, hones _ (fun z hz => List.mem_of_mem_take hz), ?_, ?_,
        (fun hh => by cases hh), ?_⟩,
      rfl, hlev, rfl, ?_, fun _ => by show some n = some (ones _).length; rw [hol, htk]⟩
    · show _ = ((ones (x.1.elems.take n)).map fun g => (g, setNone)) ++ _
      rw [← ones_pair (k := k) hl, List.map_map]
      rw [List.map_map, List.map_map]
      show _ = _ ++ (x.1.elems.drop n).map ((·.2) ∘ pair k)
      rw [← List.map_append, htd]
    · rw [List.map_map]; rfl
    · intro y hy
      obtain ⟨z, hz, rfl⟩ := List.mem_map.1 hy
      exact (hlv z (hmem z hz)).1
    · intro hh
      have := congrArg List.length hh
      simp at this
      omega
    · rw [hlev]
      intro c hc
      obtain ⟨z, hz, rfl⟩ := List.mem_map.1 hc
      rw [← spread_parts]
      obtain ⟨_, e2, e3⟩ := hlv z hz
      obtain ⟨p, P, hP⟩ := List.exists_cons_of_ne_nil e2
      have := e3.le p (by rw [hP]; simp)
      exact List.ne_nil_of_mem (mem_spread.2 ⟨p, by rw [hP]; simp, Nat.le_refl _, this⟩)
    · intro P hP
      obtain ⟨z, hz, rfl⟩ := List.mem_map.1 hP
      exact (hlv z (hmem z hz)).2.1
    · intro _ P hP
      obtain ⟨z, hz, rfl⟩ := List.mem_map.1 hP
      exact (hlv z (hmem z hz)).2.2
    · show (ones _).length + ((x.1.elems.drop n).map _).length < 256
      rw [hol, htk, List.length_map, List.length_drop]
      omega
    · show (ones _).length + (((x.1.elems.drop n).map (RuleCode.parts Q)).map (·.length)).sum = x.1.extent Q
      unfold RuleCode.extent
      rw [hol, ← ones_parts (Q := Q) hl, List.map_map]
      show (List.map _ _).sum + ((x.1.elems.drop n).map fun z => (RuleCode.parts Q z).length).sum = _
      rw [← List.sum_append, ← List.map_append, htd]

theorem sep_of {k : Kind} {sets : Sets} {word : Nat → Bytes} {Q : Nat → List (Nat × Nat)} {fork fork' : Option Nat}
    {x y : RuleCode × Nat} {a b : Branch} (ha : IsBranch k sets word Q fork x a) (hb : IsBranch k sets word Q fork' y b)
    (h : Parted Q fork x.1 y.1) : a.Sep b := by
  rintro v ⟨h1, _, P, Ps, h3, h4⟩ q hq hpre
  have hf := ha.fork h1
  obtain ⟨z, hz⟩ := picks_ne (cs := Ps.map spread) (by
    intro c hc
    refine ha.sprout.shape.some c ?_
    unfold Branch.levels
    rw [h3]
    exact List.mem_append_right _ (List.mem_cons_of_mem _ hc))
  have hp : a.front ++ v :: z ∈ RuleCode.picks a.levels := by
    refine picks_front.2 ⟨v :: z, ?_, rfl⟩
    rw [h3]
    exact mem_picks_cons.2 ⟨h4, hz⟩
  rw [ha.levels] at hp
  rw [hb.levels] at hq
  refine h _ hf _ hp q hq ?_
  rw [show a.front ++ v :: z = (a.front ++ [v]) ++ z by simp, List.take_left' (by simp)]
  exact hpre

/-- Compiling rules that share single elements and then part. -/
theorem compile_parted {k : Kind} {mv : Nat → Bool} {sets : Sets} {word : Nat → Bytes} {Q : Nat → List (Nat × Nat)}
    {fork : RuleCode → Option Nat} {ok : Nat → Prop} {max : Nat} {l : List (RuleCode × Nat)} {c : Compiler}
    (hc : c.compiling = false) (hr : ∀ x ∈ l, x.1.Ok ok ∧ Branching sets Q max (fork x.1) x.1)
    (hmax : max < 2 ^ (8 * k.width))
    (hscan : ∀ x ∈ l, scanRule k (x.1.bytes word) = .ok (x.1.elems.map (pair k))) (hk : ∀ v, ok v → Elem k v)
    (hs : l.Pairwise fun a b => a.2 < b.2 ∧ Parted Q (fork a.1) a.1 b.1 ∧ Parted Q (fork b.1) b.1 a.1)
    (hi : ∀ x ∈ l, x.2 < 255) :
    (compile k mv sets (l.map fun x => (x.1.bytes word, x.2)) c = .err hitLimits ∧
      253 < (l.map fun x => x.1.reach Q (fork x.1)).sum) ∨
    ∃ T c', compile k mv sets (l.map fun x => (x.1.bytes word, x.2)) c = .ok (T, c') ∧ c'.compiling = false ∧
      (l ≠ [] → Recognises T (l.flatMap (fedsOf fun i => spread (Q i)))) := by
  obtain ⟨f, hf⟩ : ∃ f : RuleCode × Nat → Branch, ∀ x ∈ l, IsBranch k sets word Q (fork x.1) x (f x) := by
    refine ⟨fun x => if h : ∃ b, IsBranch k sets word Q (fork x.1) x b then h.choose else default, fun x hx => ?_⟩
    have := branch_of (k := k) (word := word) (sets := sets) (hr x hx).1 (hr x hx).2 hmax (hscan x hx) hk
    simp only [dif_pos this]
    exact this.choose_spec
  have := compile_branches (k := k) (mv := mv) (sets := sets) (l := l.map fun x => (x.1.bytes word, f x)) hc
    (by
      intro y hy
      obtain ⟨x, hx, rfl⟩ := List.mem_map.1 hy
      exact (hf x hx).sprout)
    (by
      rw [List.pairwise_map]
      refine hs.imp_of_mem ?_
      intro a b ha hb hab
      refine ⟨?_, sep_of (hf a ha) (hf b hb) hab.2.1, sep_of (hf b hb) (hf a ha) hab.2.2⟩
      simp only
      rw [(hf a ha).index, (hf b hb).index]
      exact hab.1)
    (by
      intro y hy
      obtain ⟨x, hx, rfl⟩ := List.mem_map.1 hy
      simp only
      rw [(hf x hx).index]
      exact hi x hx) (c := c)
  have e1 : ((l.map fun x => (x.1.bytes word, f x)).map fun x => (x.1, x.2.index)) =
      l.map fun x => (x.1.bytes word, x.2) := by
    rw [List.map_map]
    refine List.map_congr_left fun x hx => ?_
    simp only [Function.comp]
    rw [(hf x hx).index]
  have e2 : ((l.map fun x => (x.1.bytes word, f x)).map (·.2.cost)) = l.map fun x => x.1.reach Q (fork x.1) := by
    rw [List.map_map]
    refine List.map_congr_left fun x hx => ?_
    exact (hf x hx).cost
  have e3 : (((l.map fun x => (x.1.bytes word, f x)).map (·.2)).flatMap Branch.feds) =
      l.flatMap (fedsOf fun i => spread (Q i)) := by
    rw [List.map_map, List.flatMap_def, List.flatMap_def, List.map_map]
    refine congrArg _ (List.map_congr_left fun x hx => ?_)
    simp only [Function.comp, Branch.feds, fedsOf]
    rw [(hf x hx).levels, (hf x hx).head, (hf x hx).index]
    rfl
  rw [e1, e2, e3] at this
  rcases this with h | ⟨T, c', h1, h2, h3⟩
  · exact Or.inl h
  · exact Or.inr ⟨T, c', h1, h2, fun hl => h3 (by simpa using hl)⟩

end TreeModel
