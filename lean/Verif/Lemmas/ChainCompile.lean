import Verif.Lemmas.ChainRun

/-!
# Compiling rules that start apart
-/

namespace TreeModel
open Go Helpers ScannerModel Spec

/-- What is needed of a rule. -/
structure Fits (k : Kind) (sets : Sets) (rule : Bytes) (s : Strand) : Prop where
  scan : ∃ es, ∃ x : (Nat × Nat) × List (Nat × Nat), ∃ rest : List ((Nat × Nat) × List (Nat × Nat)),
    scanRule k rule = .ok es ∧ es.map (·.2) = (x :: rest).map (·.1) ∧
    (∀ y ∈ x :: rest, LevelOf k sets y.1 y.2) ∧ x.2 = s.first ∧ rest.map (·.2) = s.rest
  head : rdb rule 1 = .ok s.head
  some : ∀ P ∈ s.first :: s.rest, P ≠ []
  level : ∀ P ∈ s.first :: s.rest, Level k [] P
  len : s.rest.length + 1 < 256

/-- The compiler after feeding such rules. -/
structure Laden (c : Compiler) (T : List Strand) : Prop where
  compiling : c.compiling = true
  neat : ∀ index, (∀ s ∈ T, s.index < index) → Neat (enter c index) 0
  rooted : Rooted (enter c 0).states T

theorem feed_chain {k : Kind} {mv : Nat → Bool} {sets : Sets} {c : Compiler} {T : List Strand} (h : Laden c T)
    {rule : Bytes} {s : Strand} (hf : Fits k sets rule s) (hlt : ∀ x ∈ T, x.index < s.index)
    (hap : ∀ x ∈ T, Apart x s) (hr : s.index ≠ ruleNone) :
    (feed k mv sets c rule s.index = .err hitLimits ∧ ∀ n, Small (enter c s.index) n → 253 < n + s.extent) ∨
    ∃ c', feed k mv sets c rule s.index = .ok c' ∧ Laden c' (T ++ [s]) ∧ c'.states ≠ [] ∧
      ∀ n, Small (enter c s.index) n → Small c' (n + s.extent) := by
  obtain ⟨es, x, rest, hs, he, hlv, hx, hrest⟩ := hf.scan
  unfold scanRule at hs
  rw [Res.bind_eq_ok] at hs
  obtain ⟨sc, hs1, hs2⟩ := hs
  have hfeed : feed k mv sets c rule s.index =
      feedList k mv sets s.head ((x :: rest).map (·.1)) [0] (enter c s.index) := by
    unfold feed
    rw [if_neg (by simp [h.compiling]), hs1, Res.ok_bind, hf.head, Res.ok_bind, feedLoop_list hs2, he]
    rfl
  have hN := h.neat s.index hlt
  obtain ⟨st0, h0, hh, ha, hb⟩ := h.rooted.root
  have hext : s.extent = ((x :: rest).map (·.2.length)).sum := by
    unfold Strand.extent
    rw [← hx, ← hrest, List.map_cons, List.map_cons, List.map_map]
    rfl
  have hmem : ∀ y ∈ x :: rest, y.2 ∈ s.first :: s.rest := by
    intro y hy
    rw [← hx, ← hrest]
    rcases List.mem_cons.1 hy with rfl | hy
    · simp
    · exact List.mem_cons_of_mem _ (List.mem_map.2 ⟨y, hy, rfl⟩)
  have hlev0 : Level k st0.trans x.2 := by
    have h1 := hf.level x.2 (hmem x (by simp))
    refine ⟨h1.le, h1.small, fun p hp t ht => ?_, h1.apart⟩
    obtain ⟨s', hs', h2, _⟩ := ha t ht
    have := hap s' hs' _ h2 p (by rw [← hx]; exact hp)
    simp only at this
    omega
  rw [hfeed, hext]
  have hlen : rest.length = s.rest.length := by rw [← hrest, List.length_map]
  rcases feedList_chain (k := k) (mv := mv) (sets := sets) (hl := s.head) rest x (c := enter c s.index) (cur := 0)
      (st := st0) (fun y hy => ⟨hlv y hy, hf.some _ (hmem y hy)⟩) hlev0
      (fun y hy => hf.level _ (hmem y (by simp [hy]))) hN rfl (Nat.zero_le _) h0
      (by have := hf.len; show 0 + _ < _; omega) hr with
    ⟨h1, h2⟩ | ⟨c', st', r, n, d, h1, h2, h3, h4, h5, h6, h7, h8, h9, h10, h11⟩
  · exact Or.inl ⟨h1, h2⟩
  · right
    have hpos := h2.pos
    have hne : c'.states ≠ [] := by intro hh; rw [hh] at hpos; cases hpos
    have hst : ∀ i, (enter c' i).states = c'.states := by
      intro i
      simp only [enter]
      rw [if_neg (by omega)]
    refine ⟨c', h1, ⟨by rw [h4]; exact h.compiling, fun index hidx => ?_, ?_⟩, hne, h11⟩
    · have hnew : s.index < index := hidx s (by simp)
      have h3' : c'.ruleIndex = s.index := h3
      refine ⟨?_, ?_, h2.freed, ?_, ?_, h2.nodup, ?_, h2.used, ?_, ?_⟩
      · rw [hst]; exact h2.pos
      · rw [hst]; exact h2.len
      · rw [hst]; exact h2.usesLen
      · rw [hst]; exact h2.rulesLen
      · rw [hst]; exact h2.range
      · intro i l hl y hy
        obtain ⟨r, r1, r2, _⟩ := h2.rules i l hl y hy
        refine ⟨r, r1, ?_⟩
        show r ≤ index ∧ (0 ≤ i → r < index)
        omega
      · rw [hst]; exact h2.ranged
    · rw [hst]
      have hmono : ∀ i st, 0 < i → (enter c 0).states[i]? = Option.some st → c'.states[i]? = Option.some st := by
        intro i st hi hg
        have hg' : (enter c s.index).states[i]? = Option.some st := hg
        rw [h6 i (List.getElem?_eq_some_iff.1 hg').1 (by omega)]
        exact hg'
      refine ⟨h2.ranged, st', h7, ?_, ?_, ?_⟩
      · rw [h8, List.foldl_append, hh]
        rfl
      · intro t ht
        rw [h9] at ht
        rcases mem_insAll.1 ht with ht | ⟨p, hp, rfl⟩
        · obtain ⟨s', hs', e1, e2⟩ := ha t ht
          exact ⟨s', by simp [hs'], e1, e2.mono hmono⟩
        · exact ⟨s, by simp, by rw [← hx]; exact hp, by rw [← hrest]; exact h10⟩
      · intro s' hs' p hp
        rw [h9]
        rcases List.mem_append.1 hs' with hs' | hs'
        · obtain ⟨t, t1, t2, t3, t4⟩ := hb s' hs' p hp
          exact ⟨t, mem_insAll.2 (Or.inl t1), t2, t3, t4.mono hmono⟩
        · rw [List.mem_singleton.1 hs'] at hp ⊢
          exact ⟨⟨p.1, p.2, r, n⟩, mem_insAll.2 (Or.inr ⟨p, by rw [hx]; exact hp, rfl⟩), rfl, rfl, by rw [← hrest]; exact h10⟩

theorem feedAll_chain {k : Kind} {mv : Nat → Bool} {sets : Sets} : ∀ (l : List (Bytes × Strand)) {c : Compiler}
    {T : List Strand}, Laden c T → (∀ x ∈ l, Fits k sets x.1 x.2) → (∀ x ∈ l, ∀ s ∈ T, s.index < x.2.index ∧ Apart s x.2) →
    (l.Pairwise fun a b => a.2.index < b.2.index ∧ Apart a.2 b.2) → (∀ x ∈ l, x.2.index ≠ ruleNone) →
    (feedAll k mv sets (l.map fun x => (x.1, x.2.index)) c = .err hitLimits ∧
      ∀ n, (∀ i, Small (enter c i) n) → 253 < n + (l.map (·.2.extent)).sum) ∨
    ∃ c', feedAll k mv sets (l.map fun x => (x.1, x.2.index)) c = .ok c' ∧ Laden c' (T ++ l.map (·.2)) ∧
      (l ≠ [] → c'.states ≠ [])
  | [], c, T, h, _, _, _, _ => Or.inr ⟨c, rfl, by simpa using h, fun h => absurd rfl h⟩
  | x :: l, c, T, h, hp, hF, hs, hi => by
    obtain ⟨hs1, hs2⟩ := List.pairwise_cons.1 hs
    have hx := hF x (List.mem_cons_self ..)
    simp only [List.map_cons, feedAll]
    rcases feed_chain (mv := mv) (sets := sets) h (hp x (List.mem_cons_self ..)) (fun y hy => (hx y hy).1)
      (fun y hy => (hx y hy).2) (hi x (List.mem_cons_self ..)) with ⟨h1, h2⟩ | ⟨c', h1, h2, h3, h4⟩
    · left
      rw [h1]
      refine ⟨rfl, fun n hn => ?_⟩
      have := h2 n (hn _)
      simp only [List.sum_cons]
      omega
    · rw [h1, Res.ok_bind]
      have := feedAll_chain (mv := mv) (sets := sets) l h2 (fun y hy => hp y (List.mem_cons_of_mem _ hy))
        (fun y hy s hm => by
          rcases List.mem_append.1 hm with hm | hm
          · exact hF y (List.mem_cons_of_mem _ hy) s hm
          · rw [List.mem_singleton.1 hm]
            exact hs1 y hy) hs2 (fun y hy => hi y (List.mem_cons_of_mem _ hy))
      rcases this with ⟨h5, h6⟩ | ⟨c2, h5, h6, h7⟩
      · left
        refine ⟨h5, fun n hn => ?_⟩
        have h8 := h4 n (hn _)
        have := h6 (n + x.2.extent) (fun i => by
          have hst : (enter c' i).states = c'.states := by
            simp only [enter]
            rw [if_neg]
            intro hh
            exact h3 (List.length_eq_zero_iff.1 hh)
          unfold Small
          rw [hst]
          exact h8)
        simp only [List.sum_cons]
        omega
      · right
        refine ⟨c2, h5, by simpa using h6, fun _ => ?_⟩
        by_cases hl : l = []
        · subst hl
          simp only [List.map_nil, feedAll, Res.ok.injEq] at h5
          rw [← h5]
          exact h3
        · exact h7 hl

theorem compile_chain {k : Kind} {mv : Nat → Bool} {sets : Sets} {l : List (Bytes × Strand)} {c : Compiler}
    (hc : c.compiling = false) (hp : ∀ x ∈ l, Fits k sets x.1 x.2)
    (hs : l.Pairwise fun a b => a.2.index < b.2.index ∧ Apart a.2 b.2) (hi : ∀ x ∈ l, x.2.index < 255) :
    (compile k mv sets (l.map fun x => (x.1, x.2.index)) c = .err hitLimits ∧ 253 < (l.map (·.2.extent)).sum) ∨
    ∃ S c', compile k mv sets (l.map fun x => (x.1, x.2.index)) c = .ok (S, c') ∧ c'.compiling = false ∧
      (l ≠ [] → Recognises S ((l.map (·.2)).flatMap Strand.feds)) := by
  have hi' : ∀ x ∈ l, x.2.index ≠ ruleNone := fun x hx => by have := hi x hx; simp only [ruleNone]; omega
  unfold compile begin
  rw [if_neg (by simp [hc]), Res.ok_bind]
  generalize hc0 : ({ c with compiling := true, states := [], rules := [], uses := [], freed := [], byDepth := [] } : Compiler) = c0
  have hst0 : ∀ i, (enter c0 i).states = [State.reset] := by intro i; rw [← hc0]; rfl
  have hR0 : ∀ i, ∀ st ∈ (enter c0 i).states, Ranged st.trans := by
    intro i st hst
    rw [hst0] at hst
    rw [List.mem_singleton.1 hst]
    exact Ranged.nil
  have h0 : Laden c0 [] := by
    refine ⟨by rw [← hc0], fun index _ => ?_, ⟨hR0 0, State.reset, by rw [hst0]; rfl, rfl, ?_, by simp⟩⟩
    · have hz := hst0 index
      refine ⟨by rw [hz]; decide, by rw [hz]; decide, ?_, ?_, ?_, ?_, ?_, ?_, ?_, hR0 index⟩
      · rw [← hc0]; rfl
      · rw [hz, ← hc0]; rfl
      · rw [hz, ← hc0]; rfl
      · rw [← hc0]; exact List.nodup_nil
      · rw [← hc0]; intro s hs; cases hs
      · rw [← hc0]; intro s hs; cases hs
      · rw [← hc0]; intro i l hl; simp [enter] at hl
    · intro t ht; cases ht
  rcases feedAll_chain (mv := mv) (sets := sets) l h0 hp (by simp) hs hi' with ⟨h1, h2⟩ | ⟨c', h1, h2, h3⟩
  · left
    rw [h1]
    refine ⟨rfl, ?_⟩
    have := h2 0 (fun i => by
      refine ⟨by rw [hst0]; decide, ?_⟩
      intro st hst
      rw [hst0] at hst
      rw [List.mem_singleton.1 hst]
      exact Nat.le_refl _)
    simpa using this
  · right
    rw [h1, Res.ok_bind, finish, if_neg (by simp [h2.compiling])]
    refine ⟨_, _, rfl, rfl, fun hl => ?_⟩
    have hne := h3 hl
    have hst : (enter c' 0).states = c'.states := by
      simp only [enter]
      rw [if_neg]
      intro hh
      exact hne (List.length_eq_zero_iff.1 hh)
    have h4 := h2.rooted
    rw [hst, List.nil_append] at h4
    refine h4.recognises (by rw [List.pairwise_map]; exact hs.imp fun h => h.2) ?_ ?_
    · intro s hs c hc
      obtain ⟨x, hx, rfl⟩ := List.mem_map.1 hs
      obtain ⟨P, hP, rfl⟩ := List.mem_map.1 hc
      obtain ⟨p, P', rfl⟩ := List.exists_cons_of_ne_nil ((hp x hx).some P hP)
      have := ((hp x hx).level _ hP).le p (by simp)
      intro e
      have hm : p.1 ∈ spread (p :: P') := mem_spread.2 ⟨p, by simp, Nat.le_refl _, this⟩
      rw [e] at hm
      cases hm
    · intro s hs
      obtain ⟨x, hx, rfl⟩ := List.mem_map.1 hs
      exact hi' x hx

/-- The rule as ranges. -/
def strandOf (Q : Nat → List (Nat × Nat)) (x : RuleCode × Nat) : Strand :=
  let l := x.1.elems.map (RuleCode.parts Q)
  ⟨l.headD [], l.tail, blockSize x.1.head, x.2⟩

theorem spread_parts (Q : Nat → List (Nat × Nat)) (x : Nat × InElem) :
    spread (RuleCode.parts Q x) = RuleCode.choices (fun i => spread (Q i)) x := by
  unfold RuleCode.parts RuleCode.choices
  cases x.2 with
  | one v => simp [spread]
  | set g => rfl

theorem fits_of {k : Kind} {word : Nat → Bytes} {ok : Nat → Prop} {sets : Sets} {Q : Nat → List (Nat × Nat)}
    {x : RuleCode × Nat} (h : x.1.Ok ok) {max : Nat} (hQ : Laid sets Q max x.1) (hmax : max < 2 ^ (8 * k.width))
    (hs : scanRule k (x.1.bytes word) = .ok (x.1.elems.map (pair k))) (hk : ∀ v, ok v → Elem k v) :
    Fits k sets (x.1.bytes word) (strandOf Q x) ∧ (strandOf Q x).feds = fedsOf (fun i => spread (Q i)) x ∧
      (strandOf Q x).extent = x.1.extent Q ∧ spread (strandOf Q x).first = x.1.starts Q := by
  have hlen := elems_length x.1
  have ht := h.total
  have h1 := h.outPos
  have h2 := h.outLe
  have hne : x.1.elems ≠ [] := by
    intro hh
    rw [hh] at hlen
    simp at hlen
    omega
  obtain ⟨e, es, hes⟩ := List.exists_cons_of_ne_nil hne
  have hfirst : (strandOf Q x).first = RuleCode.parts Q e := by simp [strandOf, hes]
  have hrest : (strandOf Q x).rest = es.map (RuleCode.parts Q) := by simp [strandOf, hes]
  have hall : (strandOf Q x).first :: (strandOf Q x).rest = x.1.elems.map (RuleCode.parts Q) := by
    rw [hfirst, hrest, hes]; rfl
  have hlv : ∀ y ∈ x.1.elems, LevelOf k sets (pair k y).2 (RuleCode.parts Q y) ∧ RuleCode.parts Q y ≠ [] ∧
      Level k [] (RuleCode.parts Q y) := by
    rintro ⟨b, y⟩ hy
    cases y with
    | one v =>
      have hv := hk v (elem_ok h (b := b) hy)
      refine ⟨Or.inl ⟨rfl, hv.2, rfl⟩, by simp [RuleCode.parts], ?_⟩
      refine ⟨?_, ?_, ?_, ?_⟩
      · intro p hp; rw [List.mem_singleton.1 hp]; exact Nat.le_refl _
      · intro p hp; rw [List.mem_singleton.1 hp]; exact hv.1
      · intro p hp t ht; cases ht
      · exact List.pairwise_singleton _ _
    | set i =>
      obtain ⟨q1, q2, q3, q4, q5⟩ := hQ b i hy
      refine ⟨Or.inr ⟨rfl, q1, q3⟩, q2, ⟨fun p hp => (q4 p hp).1, fun p hp => ?_, ?_, q5⟩⟩
      · have := (q4 p hp).2; omega
      · intro p hp t ht; cases ht
  refine ⟨⟨⟨_, ((pair k e).2, RuleCode.parts Q e), es.map fun y => ((pair k y).2, RuleCode.parts Q y), hs, ?_, ?_, ?_, ?_⟩,
    ?_, ?_, ?_, ?_⟩, ?_, ?_, ?_⟩
  · rw [hes]
    simp [Function.comp_def]
  · intro y hy
    have : y ∈ x.1.elems.map fun y => ((pair k y).2, RuleCode.parts Q y) := by rw [hes]; exact hy
    obtain ⟨z, hz, rfl⟩ := List.mem_map.1 this
    exact (hlv z hz).1
  · exact hfirst.symm
  · rw [hrest]; simp [Function.comp_def]
  · show rdb _ 1 = .ok (blockSize x.1.head)
    simp only [rdb, RuleCode.bytes]
    rw [idx_eq_ok.2 rfl, Res.ok_bind]
    simp only [Res.pure_eq, UInt8.toNat_ofNat']
    rw [Nat.mod_eq_of_lt (by omega)]
  · intro P hP
    rw [hall] at hP
    obtain ⟨y, hy, rfl⟩ := List.mem_map.1 hP
    exact (hlv y hy).2.1
  · intro P hP
    rw [hall] at hP
    obtain ⟨y, hy, rfl⟩ := List.mem_map.1 hP
    exact (hlv y hy).2.2
  · have := congrArg List.length hall
    simp only [List.length_cons, List.length_map] at this
    omega
  · unfold Strand.feds Strand.levels fedsOf RuleCode.inputs
    rw [hall, List.map_map]
    have : (spread ∘ RuleCode.parts Q) = RuleCode.choices fun i => spread (Q i) := by
      funext y
      exact spread_parts Q y
    rw [this]
    rfl
  · unfold Strand.extent RuleCode.extent
    rw [hall, List.map_map]
    rfl
  · rw [hfirst, spread_parts]
    unfold RuleCode.starts
    rw [hes]
    simp

/-- Compiling rules that start with different elements. -/
theorem compile_apart {k : Kind} {mv : Nat → Bool} {sets : Sets} {word : Nat → Bytes} {Q : Nat → List (Nat × Nat)}
    {ok : Nat → Prop} {max : Nat} {l : List (RuleCode × Nat)} {c : Compiler} (hc : c.compiling = false)
    (hr : ∀ x ∈ l, x.1.Ok ok ∧ Laid sets Q max x.1) (hmax : max < 2 ^ (8 * k.width))
    (hscan : ∀ x ∈ l, scanRule k (x.1.bytes word) = .ok (x.1.elems.map (pair k))) (hk : ∀ v, ok v → Elem k v)
    (hs : l.Pairwise fun a b => a.2 < b.2 ∧ ∀ v ∈ a.1.starts Q, v ∉ b.1.starts Q) (hi : ∀ x ∈ l, x.2 < 255) :
    (compile k mv sets (l.map fun x => (x.1.bytes word, x.2)) c = .err hitLimits ∧
      253 < (l.map fun x => x.1.extent Q).sum) ∨
    ∃ T c', compile k mv sets (l.map fun x => (x.1.bytes word, x.2)) c = .ok (T, c') ∧ c'.compiling = false ∧
      (l ≠ [] → Recognises T (l.flatMap (fedsOf fun i => spread (Q i)))) := by
  have hf := fun x hx => fits_of (k := k) (word := word) (sets := sets) (Q := Q) (x := x) (hr x hx).1 (hr x hx).2 hmax
    (hscan x hx) hk
  have := compile_chain (k := k) (mv := mv) (sets := sets) (l := l.map fun x => (x.1.bytes word, strandOf Q x)) hc
    (by
      intro y hy
      obtain ⟨x, hx, rfl⟩ := List.mem_map.1 hy
      exact (hf x hx).1)
    (by
      rw [List.pairwise_map]
      refine hs.imp_of_mem ?_
      intro a b ha hb hab
      refine ⟨hab.1, fun p hp q hq => ?_⟩
      have e1 := (hf a ha).2.2.2
      have e2 := (hf b hb).2.2.2
      have l1 := ((hf a ha).1.level _ (List.mem_cons_self ..)).le p hp
      have l2 := ((hf b hb).1.level _ (List.mem_cons_self ..)).le q hq
      refine Classical.byContradiction fun hn => ?_
      obtain ⟨v, v1, v2, v3, v4⟩ : ∃ v, p.1 ≤ v ∧ v ≤ p.2 ∧ q.1 ≤ v ∧ v ≤ q.2 := by
        rcases Nat.le_total p.1 q.1 with h | h
        · exact ⟨q.1, h, by omega, Nat.le_refl _, l2⟩
        · exact ⟨p.1, Nat.le_refl _, l1, h, by omega⟩
      have hm1 : v ∈ spread (strandOf Q a).first := mem_spread.2 ⟨p, hp, v1, v2⟩
      have hm2 : v ∈ spread (strandOf Q b).first := mem_spread.2 ⟨q, hq, v3, v4⟩
      rw [e1] at hm1
      rw [e2] at hm2
      exact hab.2 v hm1 hm2)
    (by
      intro y hy
      obtain ⟨x, hx, rfl⟩ := List.mem_map.1 hy
      exact hi x hx) (c := c)
  have e1 : ((l.map fun x => (x.1.bytes word, strandOf Q x)).map fun x => (x.1, x.2.index)) =
      l.map fun x => (x.1.bytes word, x.2) := by
    rw [List.map_map]; rfl
  have e2 : ((l.map fun x => (x.1.bytes word, strandOf Q x)).map (·.2.extent)) = l.map fun x => x.1.extent Q := by
    rw [List.map_map]
    refine List.map_congr_left fun x hx => ?_
    exact (hf x hx).2.2.1
  have e3 : (((l.map fun x => (x.1.bytes word, strandOf Q x)).map (·.2)).flatMap Strand.feds) =
      l.flatMap (fedsOf fun i => spread (Q i)) := by
    rw [List.map_map, List.flatMap_def, List.flatMap_def, List.map_map]
    refine congrArg _ (List.map_congr_left fun x hx => ?_)
    exact (hf x hx).2.1
  rw [e1, e2, e3] at this
  rcases this with h | ⟨T, c', h1, h2, h3⟩
  · exact Or.inl h
  · exact Or.inr ⟨T, c', h1, h2, fun hl => h3 (by simpa using hl)⟩

end TreeModel
