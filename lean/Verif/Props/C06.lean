import Verif.Lemmas.Pool

/-!
# C06: the shared instance pool never hands out one instance twice

Quantified over all schedules of any number of goroutines. A goroutine only passes to `Release`
instances it holds (that is the client's obligation in the claim).
-/

namespace C06
open Pool

/-- No schedule panics, and after every schedule no instance is held by two goroutines, nor twice by
the same goroutine. -/
theorem mutual_exclusion (sched : List Action) :
    ∃ s, run init sched = .ok s ∧
      (∀ t u p, t ≠ u → p ∈ (s.gs t).held → p ∉ (s.gs u).held) ∧
      (∀ t, (s.gs t).held.Nodup) := by
  obtain ⟨s, hs, hi⟩ := run_inv sched init init_inv
  have sub : ∀ t p, p ∈ (s.gs t).held → p ∈ (s.gs t).owned := by
    intro t p h
    unfold Goroutine.owned
    split
    · exact List.mem_cons_of_mem _ h
    · exact h
  refine ⟨s, hs, ?_, ?_⟩
  · intro t u p htu h1 h2
    exact htu (hi.excl t u p (sub t p h1) (sub u p h2))
  · intro t
    have h := hi.nodup t
    unfold Goroutine.owned at h
    split at h
    · exact (List.nodup_cons.mp h).2
    · exact h

/-- The shared instance is available exactly when nobody has it: after any schedule, if every
goroutine has finished its calls and holds nothing shared, the next `Retrieve` returns the shared
instance; if some goroutine holds it, `Retrieve` by an idle goroutine does not return it. -/
theorem shared_available (sched : List Action) :
    ∃ s, run init sched = .ok s ∧
      ((∀ t, (s.gs t).pc = .idle ∧ Ptr.shared ∉ (s.gs t).held) →
        ∀ t, ∃ s', step s (.retrieve t) = some (.ok s') ∧ (s'.gs t).held = .shared :: (s.gs t).held) ∧
      (∀ u, Ptr.shared ∈ (s.gs u).held → ∀ t s', step s (.retrieve t) = some (.ok s') →
        (s'.gs t).held = (s.gs t).held ∧ (s'.gs t).pc = .alloc) := by
  obtain ⟨s, hs, hi⟩ := run_inv sched init init_inv
  refine ⟨s, hs, ?_, ?_⟩
  · intro hall t
    have h0 : s.inUse = 0 := by
      rcases hi.use with h | h
      · exact h
      · obtain ⟨u, hu⟩ := hi.used.mp h
        have := hall u
        unfold Goroutine.owned at hu
        rw [this.1] at hu
        exact absurd hu this.2
    refine ⟨_, by simp only [step]; rw [if_pos (hall t).1, if_pos h0], ?_⟩
    rw [set_gs, if_pos rfl]
  · intro u hu t s' hst
    have h1 : s.inUse = 1 := by
      refine hi.used.mpr ⟨u, ?_⟩
      unfold Goroutine.owned
      split
      · exact List.mem_cons_of_mem _ hu
      · exact hu
    simp only [step] at hst
    split at hst
    · rw [if_neg (by omega)] at hst
      simp only [Option.some.injEq, Res.ok.injEq] at hst
      subst hst
      rw [set_gs, if_pos rfl]
      exact ⟨rfl, rfl⟩
    · simp at hst

/-- Two goroutines race; the first gets the shared instance and the second a fresh one; the first
releases while the second retrieves again in the middle of that release. -/
example : ∃ s, run init [.retrieve 0, .retrieve 1, .alloc 1, .release 0 .shared, .retrieve 1,
      .finish 0, .alloc 1, .retrieve 0] = .ok s ∧
    (s.gs 0).held = [.shared] ∧ (s.gs 1).held = [.fresh 1, .fresh 0] := ⟨_, rfl, rfl, rfl⟩

/-- The client obligation matters: a second `Release` of the shared instance can free it while
another goroutine is using it (state after the double release, then a retrieve by goroutine 2). -/
example : (match step ⟨0, 0, fun t => if t = 1 then ⟨.idle, [.shared]⟩ else ⟨.idle, []⟩⟩
    (.retrieve 2) with
    | some (.ok s) => decide ((s.gs 1).held = [.shared] ∧ (s.gs 2).held = [.shared])
    | _ => false) = true := by decide

end C06
