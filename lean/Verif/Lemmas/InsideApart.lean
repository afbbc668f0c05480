import Verif.Lemmas.InsideRange
import Verif.Lemmas.ChainCompile

/-!
# Rules that begin inside a range with which an earlier rule begins
-/

namespace TreeModel
open Go Helpers ScannerModel Spec

/-- A compiler that has just begun. -/
theorem laden_begin {c c0 : Compiler} (h : begin c = .ok c0) : Laden c0 [] := by
  unfold begin at h
  split at h
  · cases h
  rw [Res.ok.injEq] at h
  have hst0 : ∀ i, (enter c0 i).states = [State.reset] := by intro i; rw [← h]; rfl
  have hR0 : ∀ i, ∀ st ∈ (enter c0 i).states, Ranged st.trans := by
    intro i st hst
    rw [hst0] at hst
    rw [List.mem_singleton.1 hst]
    exact Ranged.nil
  refine ⟨by rw [← h], fun index _ => ?_, ⟨hR0 0, State.reset, by rw [hst0]; rfl, rfl, ?_, by simp⟩⟩
  · have hz := hst0 index
    refine ⟨by rw [hz]; decide, by rw [hz]; decide, ?_, ?_, ?_, ?_, ?_, ?_, ?_, hR0 index⟩
    · rw [← h]; rfl
    · rw [hz, ← h]; rfl
    · rw [hz, ← h]; rfl
    · rw [← h]; exact List.nodup_nil
    · rw [← h]; intro s hs; cases hs
    · rw [← h]; intro s hs; cases hs
    · rw [← h]; intro i l hl; simp [enter] at hl
  · intro t ht; cases ht

theorem feedAll_append {k : Kind} {mv : Nat → Bool} {sets : Sets} : ∀ (l m : List (Bytes × Nat)) (c : Compiler),
    feedAll k mv sets (l ++ m) c = (feedAll k mv sets l c).bind (feedAll k mv sets m)
  | [], _, _ => rfl
  | x :: l, m, c => by
    simp only [List.cons_append, feedAll]
    cases h : feed k mv sets c x.1 x.2 with
    | ok c' => exact feedAll_append l m c'
    | err e => rfl
    | panic e => rfl

theorem compile_inside_chain {k : Kind} {mv : Nat → Bool} {sets : Sets} {l : List (Bytes × Strand)} {c : Compiler}
    (hp : ∀ x ∈ l, Fits k sets x.1 x.2)
    (hs : l.Pairwise fun a b => a.2.index < b.2.index ∧ Apart a.2 b.2) (hi : ∀ x ∈ l, x.2.index < 255)
    {y : Bytes × Strand} (hy : y ∈ l) {p : Nat × Nat} (hpy : p ∈ y.2.first) (hlt : p.1 < p.2)
    {rule : Bytes} {r x blk : Nat} {es : List (Nat × Nat × Nat)} (hsc : scanRule k rule = .ok ((blk, x, setNone) :: es))
    (hx : x ≠ k.none) (h1 : p.1 ≤ x) (h2 : x ≤ p.2) (rest : List (Bytes × Nat)) (out : List State × Compiler) :
    compile k mv sets ((l.map fun x => (x.1, x.2.index)) ++ (rule, r) :: rest) c ≠ .ok out := by
  have hi' : ∀ x ∈ l, x.2.index ≠ ruleNone := fun x hx => by have := hi x hx; simp only [ruleNone]; omega
  intro h
  unfold compile at h
  rw [Res.bind_eq_ok] at h
  obtain ⟨c0, hc0, h⟩ := h
  rw [feedAll_append] at h
  rcases feedAll_chain (mv := mv) (sets := sets) l (laden_begin hc0) hp (by simp) hs hi' with ⟨h3, _⟩ | ⟨c', h3, h4, h5⟩
  · rw [h3] at h; cases h
  · rw [h3] at h
    have h' : ((feedAll k mv sets ((rule, r) :: rest) c').bind finish) = .ok out := h
    simp only [feedAll] at h'
    have hne := h5 (fun e => by rw [e] at hy; cases hy)
    have hst : ∀ i, (enter c' i).states = c'.states := by
      intro i
      simp only [enter]
      rw [if_neg]
      intro hh
      exact hne (List.length_eq_zero_iff.1 hh)
    obtain ⟨hR, st, g1, -, g2, g3⟩ := h4.rooted
    rw [hst] at g1 hR g2 g3
    obtain ⟨t, ht, t1, t2, -⟩ := g3 y.2 (by simp only [List.nil_append]; exact List.mem_map.2 ⟨y, hy, rfl⟩) p hpy
    cases hf : feed k mv sets c' rule r with
    | err e => rw [hf] at h'; cases h'
    | panic e => rw [hf] at h'; cases h'
    | ok c2 =>
      refine feed_inside (st := st) (t := t) (by rw [hst]; exact g1) (hR st (List.mem_of_getElem? g1)) ?_ ht
        (by omega) (by omega) (by omega) hsc hx c2 hf
      intro u hu
      obtain ⟨s, hs, hm, -⟩ := g2 u hu
      rw [List.nil_append] at hs
      obtain ⟨z, hz, rfl⟩ := List.mem_map.1 hs
      have := ((hp z hz).level _ (List.mem_cons_self ..)).small _ hm
      simp only at this
      omega

/-- Rules that start apart, then a rule that begins with an element of a range with which one of them begins. -/
theorem compile_inside_apart {k : Kind} {mv : Nat → Bool} {sets : Sets} {word : Nat → Bytes} {Q : Nat → List (Nat × Nat)}
    {ok : Nat → Prop} {max : Nat} {l : List (RuleCode × Nat)} {c : Compiler}
    (hr : ∀ x ∈ l, x.1.Ok ok ∧ Laid sets Q max x.1) (hmax : max < 2 ^ (8 * k.width))
    (hscan : ∀ x ∈ l, scanRule k (x.1.bytes word) = .ok (x.1.elems.map (pair k))) (hk : ∀ v, ok v → Elem k v)
    (hs : l.Pairwise fun a b => a.2 < b.2 ∧ ∀ v ∈ a.1.starts Q, v ∉ b.1.starts Q) (hi : ∀ x ∈ l, x.2 < 255)
    {y : RuleCode × Nat} (hy : y ∈ l) {b i : Nat} (he : y.1.elems.head? = some (b, .set i)) {p : Nat × Nat} (hpi : p ∈ Q i)
    (hlt : p.1 < p.2) {rule : Bytes} {r x blk : Nat} {es : List (Nat × Nat × Nat)}
    (hsc : scanRule k rule = .ok ((blk, x, setNone) :: es))
    (hx : x ≠ k.none) (h1 : p.1 ≤ x) (h2 : x ≤ p.2) (rest : List (Bytes × Nat)) (out : List State × Compiler) :
    compile k mv sets ((l.map fun x => (x.1.bytes word, x.2)) ++ (rule, r) :: rest) c ≠ .ok out := by
  have hf := fun x hx => fits_of (k := k) (word := word) (sets := sets) (Q := Q) (x := x) (hr x hx).1 (hr x hx).2 hmax
    (hscan x hx) hk
  have e1 : ((l.map fun x => (x.1.bytes word, strandOf Q x)).map fun x => (x.1, x.2.index)) =
      l.map fun x => (x.1.bytes word, x.2) := by
    rw [List.map_map]; rfl
  rw [← e1]
  refine compile_inside_chain (y := (y.1.bytes word, strandOf Q y)) ?_ ?_ ?_ (List.mem_map.2 ⟨y, hy, rfl⟩) (p := p) ?_
    hlt hsc hx h1 h2 rest out
  · intro z hz
    obtain ⟨x, hx, rfl⟩ := List.mem_map.1 hz
    exact (hf x hx).1
  · rw [List.pairwise_map]
    refine hs.imp_of_mem ?_
    intro a b ha hb hab
    refine ⟨hab.1, fun p hp q hq => ?_⟩
    have e1 := (hf a ha).2.2.2
    have e2 := (hf b hb).2.2.2
    have l1 := ((hf a ha).1.level _ (List.mem_cons_self ..)).le p hp
    have l2 := ((hf b hb).1.level _ (List.mem_cons_self ..)).le q hq
    refine Classical.byContradiction fun hn => ?_
    obtain ⟨v, v1, v2, v3, v4⟩ : ∃ v, p.1 ≤ v ∧ v ≤ p.2 ∧ q.1 ≤ v ∧ v ≤ q.2 := by
      rcases Nat.le_total p.1 q.1 with h | h
      · exact ⟨q.1, h, by omega, Nat.le_refl _, l2⟩
      · exact ⟨p.1, Nat.le_refl _, l1, h, by omega⟩
    have hm1 : v ∈ spread (strandOf Q a).first := mem_spread.2 ⟨p, hp, v1, v2⟩
    have hm2 : v ∈ spread (strandOf Q b).first := mem_spread.2 ⟨q, hq, v3, v4⟩
    rw [e1] at hm1
    rw [e2] at hm2
    exact hab.2 v hm1 hm2
  · intro z hz
    obtain ⟨x, hx, rfl⟩ := List.mem_map.1 hz
    exact hi x hx
  · simp only [strandOf]
    cases hel : y.1.elems with
    | nil => rw [hel] at he; cases he
    | cons z es =>
      rw [hel] at he
      cases he
      simpa [RuleCode.parts] using hpi

end TreeModel
