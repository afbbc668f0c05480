import Verif.Lemmas.SplitNever
import Verif.Lemmas.RangePair

/-!
# Rules that begin inside a range of the root
-/

namespace TreeModel
open Go ScannerModel Helpers Spec

variable {k : Kind} {mv : Nat → Bool} {sets : Sets}

theorem feed_inside {c : Compiler} {rule : Bytes} {index : Nat} {st : State}
    (hst : (enter c index).states[0]? = some st) (hr : Ranged st.trans)
    (hw : ∀ t ∈ st.trans, t.last < 2 ^ (8 * k.width)) {t : Transition} (ht : t ∈ st.trans) {x blk : Nat}
    (h1 : t.first ≤ x) (h2 : x ≤ t.last) (h3 : t.first < t.last) {es : List (Nat × Nat × Nat)}
    (hs : scanRule k rule = .ok ((blk, x, setNone) :: es)) (hx : x ≠ k.none) (c' : Compiler) :
    feed k mv sets c rule index ≠ .ok c' := by
  intro h
  unfold scanRule at hs
  rw [Res.bind_eq_ok] at hs
  obtain ⟨s, hs1, hs2⟩ := hs
  unfold feed at h
  split at h
  · cases h
  rw [hs1, Res.ok_bind] at h
  rw [Res.bind_eq_ok] at h
  obtain ⟨hl, _, h⟩ := h
  rw [feedLoop_list hs2] at h
  have h' : feedList k mv sets hl ((x, setNone) :: es.map (·.2)) [0] (enter c index) = .ok c' := h
  unfold feedList feedElem feedStates feedState at h'
  have hlen := (List.getElem?_eq_some_iff.1 hst).1
  rw [idx_eq_ok.2 hst, Res.ok_bind, setAt_lt hlen, Res.ok_bind] at h'
  simp only at h'
  rw [if_pos hx, if_neg (by simp)] at h'
  simp only [Res.bind_eq_ok] at h'
  obtain ⟨_, ⟨c1, ⟨c2, h4, _⟩, _⟩, _⟩ := h'
  refine appendRange_inside (st := st.updateHead hl) (t := t) (x := x) (y := x) ?_ ?_ ?_ ?_ h1 h2 (Nat.le_refl _) ?_ c2 h4
  · rw [List.getElem?_set]
    simp [hlen]
  · exact hr
  · exact hw
  · exact ht
  · omega

/-- A rule that is one set with one range, then a rule that begins with an element of the range. -/
theorem compile_inside {c : Compiler} {rule₁ rule₂ : Bytes} {q r blk₁ blk₂ i a b x : Nat}
    (hs₁ : scanRule k rule₁ = .ok [(blk₁, k.none, i)]) (hi : i ≠ setNone) (hh : rdb rule₁ 1 = .ok 0)
    (hset : sets i = .ok ([(a, b)], [])) (hq : q ≠ ruleNone) (ha : a < b) (hb : b < 2 ^ (8 * k.width))
    {es : List (Nat × Nat × Nat)} (hs₂ : scanRule k rule₂ = .ok ((blk₂, x, setNone) :: es)) (hx : x ≠ k.none)
    (h1 : a ≤ x) (h2 : x ≤ b) (rest : List (Bytes × Nat)) (q' : List State × Compiler) :
    compile k mv sets ((rule₁, q) :: (rule₂, r) :: rest) c ≠ .ok q' := by
  intro h
  unfold compile begin at h
  split at h
  · cases h
  rw [Res.ok_bind] at h
  generalize hc0 : ({ c with compiling := true, states := [], rules := [], uses := [], freed := [], byDepth := [] } : Compiler) = c0 at h
  have hs0 : c0.states = [] := by rw [← hc0]
  have hcc : c0.compiling = true := by rw [← hc0]
  have hen : (enter c0 q).states = [⟨[], 255, 0⟩] := by simp [enter, hs0, State.reset]
  have hu8 : ¬ u8 (0 + 1) = 0 := by decide
  unfold feedAll at h
  simp only at h
  rw [feed_set hcc hs₁ hi hh hset hen] at h
  obtain ⟨n, hn⟩ := append_first (k := k) (mv := mv) (c := { enter c0 q with states := [(⟨[], 255, 0⟩ : State).updateHead 0] })
    hq (Nat.le_of_lt ha) (m := 0) (M := 0) rfl
  rw [hn, Res.ok_bind] at h
  unfold freeUnused at h
  rw [if_pos (by rfl), Res.ok_bind, if_neg (by exact hu8)] at h
  simp only [Res.pure_eq, Res.ok_bind] at h
  unfold feedAll at h
  simp only at h
  generalize hc1 : ({ enter c0 q with clock := n, states := [⟨[⟨a, b, q, stateNone⟩], 0, 0⟩], depth := u8 ((enter c0 q).depth + 1), toStates := [] } : Compiler) = c1 at h
  have hst1 : (enter c1 r).states = [⟨[⟨a, b, q, stateNone⟩], 0, 0⟩] := by rw [← hc1]; rfl
  simp only [Res.bind_eq_ok] at h
  obtain ⟨_, ⟨c2, h3, _⟩, _⟩ := h
  refine feed_inside (st := ⟨[⟨a, b, q, stateNone⟩], 0, 0⟩) (t := ⟨a, b, q, stateNone⟩) (by rw [hst1]; rfl) ?_ ?_
    (by simp) h1 h2 ha hs₂ hx c2 h3
  · exact ⟨by simp; omega, by simp, by simp⟩
  · simpa using hb

end TreeModel
