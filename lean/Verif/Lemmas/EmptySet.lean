import Verif.Lemmas.FeedAll

/-!
# Rules that begin with a set without elements
-/

namespace TreeModel
open Go ScannerModel Helpers

theorem compile_empty {k : Kind} {mv : Nat → Bool} {sets : Sets} {c : Compiler} (hc : c.compiling = false)
    {rule : Bytes} {q blk i hl : Nat} {y : Nat × Nat × Nat} {es : List (Nat × Nat × Nat)}
    (hs : scanRule k rule = .ok ((blk, k.none, i) :: y :: es)) (hi : i ≠ setNone) (hh : rdb rule 1 = .ok hl)
    (hset : sets i = .ok ([], [])) (rest : List (Bytes × Nat)) :
    compile k mv sets ((rule, q) :: rest) c = .panic "index out of range" := by
  unfold compile begin
  rw [if_neg (by simp [hc]), Res.ok_bind]
  generalize hc0 : ({ c with compiling := true, states := [], rules := [], uses := [], freed := [], byDepth := [] } : Compiler) = c0
  have hs0 : c0.states = [] := by rw [← hc0]
  have hb0 : c0.byDepth = [] := by rw [← hc0]
  have hcc : c0.compiling = true := by rw [← hc0]
  have hen : (enter c0 q).states = [⟨[], 255, 0⟩] := by simp [enter, hs0, State.reset]
  unfold scanRule at hs
  rw [Res.bind_eq_ok] at hs
  obtain ⟨s, hs1, hs2⟩ := hs
  have hf : feed k mv sets c0 rule q = .panic "index out of range" := by
    unfold feed
    rw [if_neg (by simp [hcc]), hs1, Res.ok_bind, hh, Res.ok_bind, feedLoop_list hs2]
    show feedList k mv sets hl ((k.none, i) :: y.2 :: es.map (·.2)) [0] (enter c0 q) = _
    unfold feedList feedElem feedStates feedStates feedState
    have h0 : idx (enter c0 q).states 0 = .ok ⟨[], 255, 0⟩ := idx_eq_ok.2 (by rw [hen]; rfl)
    rw [h0, Res.ok_bind, setAt_lt (by rw [hen]; simp), Res.ok_bind]
    simp only
    rw [if_neg (by simp), if_neg hi, hset, Res.ok_bind]
    simp only [List.map_nil, List.append_nil, appendRanges, Res.ok_bind]
    unfold freeUnused
    rw [if_pos (by rfl), Res.ok_bind, if_neg (by show ¬ u8 (0 + 1) = 0; decide)]
    simp only [Res.pure_eq, Res.ok_bind]
    unfold feedList feedElem
    simp only [enter, feedStates, Res.ok_bind]
    unfold freeUnused
    rw [if_neg (by show ¬ u8 (0 + 1) = 0; decide)]
    simp only [hb0]
    rfl
  unfold feedAll
  simp only
  rw [hf]
  rfl

end TreeModel
