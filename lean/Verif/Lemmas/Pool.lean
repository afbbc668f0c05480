import Verif.Model.Pool

/-!
# Invariant of the pool (helper lemmas for C06)
-/

namespace Pool

/-- Goroutine `g` still has `p`: holds it or is in the middle of releasing it. -/
def Goroutine.owned (g : Goroutine) : List Ptr :=
  match g.pc with
  | .releasing p => p :: g.held
  | _ => g.held

structure Inv (s : State) : Prop where
  nodup : ∀ t, (s.gs t).owned.Nodup
  excl : ∀ t u p, p ∈ (s.gs t).owned → p ∈ (s.gs u).owned → t = u
  use : s.inUse = 0 ∨ s.inUse = 1
  used : s.inUse = 1 ↔ ∃ t, Ptr.shared ∈ (s.gs t).owned
  old : ∀ t n, Ptr.fresh n ∈ (s.gs t).owned → n < s.nextAlloc

theorem init_inv : Inv init := by
  refine ⟨?_, ?_, Or.inl rfl, ?_, ?_⟩ <;> simp [init, Goroutine.owned]

theorem set_gs (s : State) (t u : Nat) (g : Goroutine) :
    (s.set t g).gs u = if u = t then g else s.gs u := rfl

theorem set_inUse (s : State) (t : Nat) (g : Goroutine) : (s.set t g).inUse = s.inUse := rfl
theorem set_next (s : State) (t : Nat) (g : Goroutine) : (s.set t g).nextAlloc = s.nextAlloc := rfl

/-- Adding a pointer nobody owns. -/
theorem add_inv {s s' : State} {t : Nat} {p : Ptr} (hi : Inv s)
    (hfree : ∀ u, p ∉ (s.gs u).owned)
    (hother : ∀ u, u ≠ t → (s'.gs u).owned = (s.gs u).owned)
    (ht : (s'.gs t).owned = p :: (s.gs t).owned)
    (huse : s'.inUse = if p = .shared then 1 else s.inUse)
    (hnext : s.nextAlloc ≤ s'.nextAlloc) (hp : ∀ n, p = .fresh n → n < s'.nextAlloc) : Inv s' := by
  have hmem : ∀ u q, q ∈ (s'.gs u).owned ↔ (u = t ∧ q = p) ∨ q ∈ (s.gs u).owned := by
    intro u q
    by_cases hu : u = t
    · subst hu; rw [ht]; simp
    · rw [hother u hu]; simp [hu]
  refine ⟨?_, ?_, ?_, ?_, ?_⟩
  · intro u
    by_cases hu : u = t
    · subst hu; rw [ht]; exact List.nodup_cons.mpr ⟨hfree u, hi.nodup u⟩
    · rw [hother u hu]; exact hi.nodup u
  · intro u v q hq hq'
    rw [hmem] at hq hq'
    rcases hq with ⟨rfl, rfl⟩ | hq <;> rcases hq' with ⟨rfl, h2⟩ | hq'
    · rfl
    · exact absurd hq' (hfree v)
    · subst h2; exact absurd hq (hfree u)
    · exact hi.excl u v q hq hq'
  · rw [huse]; split
    · exact Or.inr rfl
    · exact hi.use
  · rw [huse]
    by_cases hs : p = .shared
    · subst hs
      simp only [if_true, true_iff]
      exact ⟨t, (hmem t _).mpr (Or.inl ⟨rfl, rfl⟩)⟩
    · rw [if_neg hs, hi.used]
      constructor
      · rintro ⟨u, hu⟩; exact ⟨u, (hmem u _).mpr (Or.inr hu)⟩
      · rintro ⟨u, hu⟩
        rcases (hmem u _).mp hu with ⟨_, e⟩ | h
        · exact absurd e.symm hs
        · exact ⟨u, h⟩
  · intro u n hn
    rcases (hmem u _).mp hn with ⟨_, e⟩ | h
    · exact hp n e.symm
    · exact Nat.lt_of_lt_of_le (hi.old u n h) hnext

/-- Same owned pointers up to order. -/
theorem perm_inv {s s' : State} (hi : Inv s) (hp : ∀ u, (s'.gs u).owned.Perm (s.gs u).owned)
    (huse : s'.inUse = s.inUse) (hnext : s'.nextAlloc = s.nextAlloc) : Inv s' := by
  refine ⟨?_, ?_, by rw [huse]; exact hi.use, ?_, ?_⟩
  · intro t; exact (hp t).nodup_iff.mpr (hi.nodup t)
  · intro t u p h1 h2
    exact hi.excl t u p ((hp t).mem_iff.mp h1) ((hp u).mem_iff.mp h2)
  · rw [huse, hi.used]
    constructor
    · rintro ⟨t, h⟩; exact ⟨t, (hp t).mem_iff.mpr h⟩
    · rintro ⟨t, h⟩; exact ⟨t, (hp t).mem_iff.mp h⟩
  · intro t n h; rw [hnext]; exact hi.old t n ((hp t).mem_iff.mp h)

/-- Dropping a pointer. -/
theorem drop_inv {s s' : State} {t : Nat} {p : Ptr} (hi : Inv s)
    (hother : ∀ u, u ≠ t → (s'.gs u).owned = (s.gs u).owned)
    (ht : (s.gs t).owned = p :: (s'.gs t).owned)
    (huse : s'.inUse = if p = .shared then 0 else s.inUse)
    (hnext : s'.nextAlloc = s.nextAlloc) : Inv s' := by
  have hmem : ∀ u q, q ∈ (s.gs u).owned ↔ (u = t ∧ q = p) ∨ q ∈ (s'.gs u).owned := by
    intro u q
    by_cases hu : u = t
    · subst hu; rw [ht]; simp
    · rw [hother u hu]; simp [hu]
  have hgone : ∀ u, p ∉ (s'.gs u).owned := by
    intro u hu
    have h1 : p ∈ (s.gs t).owned := by rw [ht]; simp
    have h2 : p ∈ (s.gs u).owned := (hmem u p).mpr (Or.inr hu)
    have := hi.excl u t p h2 h1
    subst this
    have hn := hi.nodup u
    rw [ht] at hn
    exact (List.nodup_cons.mp hn).1 hu
  refine ⟨?_, ?_, ?_, ?_, ?_⟩
  · intro u
    by_cases hu : u = t
    · subst hu
      have hn := hi.nodup u
      rw [ht] at hn
      exact (List.nodup_cons.mp hn).2
    · rw [hother u hu]; exact hi.nodup u
  · intro u v q h1 h2
    exact hi.excl u v q ((hmem u q).mpr (Or.inr h1)) ((hmem v q).mpr (Or.inr h2))
  · rw [huse]; split
    · exact Or.inl rfl
    · exact hi.use
  · rw [huse]
    by_cases hs : p = .shared
    · subst hs
      simp only [if_true]
      constructor
      · intro h; omega
      · rintro ⟨u, hu⟩; exact absurd hu (hgone u)
    · rw [if_neg hs, hi.used]
      constructor
      · rintro ⟨u, hu⟩
        rcases (hmem u _).mp hu with ⟨_, e⟩ | h
        · exact absurd e.symm hs
        · exact ⟨u, h⟩
      · rintro ⟨u, hu⟩; exact ⟨u, (hmem u _).mpr (Or.inr hu)⟩
  · intro u n hn
    rw [hnext]
    exact hi.old u n ((hmem u _).mpr (Or.inr hn))

theorem step_inv {s : State} (hi : Inv s) (a : Action) (r : Res State) (h : step s a = some r) :
    ∃ s', r = .ok s' ∧ Inv s' := by
  cases a with
  | retrieve t =>
    simp only [step] at h
    split at h
    · rename_i hpc
      have ho : (s.gs t).owned = (s.gs t).held := by simp [Goroutine.owned, hpc]
      split at h
      · rename_i hu
        simp only [Option.some.injEq] at h
        refine ⟨_, h.symm, add_inv (t := t) (p := .shared) hi ?_ ?_ ?_ rfl (Nat.le_refl _) ?_⟩
        · intro u hu'
          have := hi.used.mpr ⟨u, hu'⟩
          omega
        · intro u hu'; rw [set_gs, if_neg hu']
        · rw [set_gs, if_pos rfl, ho]; simp [Goroutine.owned, hpc]
        · intro n e; cases e
      · simp only [Option.some.injEq] at h
        refine ⟨_, h.symm, perm_inv hi ?_ rfl rfl⟩
        intro u
        rw [set_gs]
        by_cases hu : u = t
        · subst hu; rw [if_pos rfl, ho]; simp [Goroutine.owned]
        · rw [if_neg hu]
    · simp at h
  | alloc t =>
    simp only [step] at h
    split at h
    · rename_i hpc
      have ho : (s.gs t).owned = (s.gs t).held := by simp [Goroutine.owned, hpc]
      simp only [Option.some.injEq] at h
      refine ⟨_, h.symm, add_inv (t := t) (p := .fresh s.nextAlloc) hi ?_ ?_ ?_ rfl
        (Nat.le_succ _) ?_⟩
      · intro u hu
        have := hi.old u _ hu
        omega
      · intro u hu'; rw [set_gs, if_neg hu']
      · rw [set_gs, if_pos rfl, ho]; simp [Goroutine.owned]
      · intro n e
        rw [set_next]
        simp only [Ptr.fresh.injEq] at e
        simp only; omega
    · simp at h
  | release t p =>
    simp only [step] at h
    split at h
    · rename_i hpc
      obtain ⟨hpc, hm⟩ := hpc
      have ho : (s.gs t).owned = (s.gs t).held := by simp [Goroutine.owned, hpc]
      simp only [Option.some.injEq] at h
      refine ⟨_, h.symm, perm_inv hi ?_ rfl rfl⟩
      intro u
      rw [set_gs]
      by_cases hu : u = t
      · subst hu
        rw [if_pos rfl, ho]
        exact (List.perm_cons_erase hm).symm
      · rw [if_neg hu]
    · simp at h
  | finish t =>
    simp only [step] at h
    split at h
    · rename_i p hpc
      have ho : (s.gs t).owned = p :: (s.gs t).held := by simp [Goroutine.owned, hpc]
      split at h
      · rename_i hs
        subst hs
        have hone : s.inUse = 1 := hi.used.mpr ⟨t, by rw [ho]; simp⟩
        rw [if_pos hone] at h
        simp only [Option.some.injEq] at h
        refine ⟨_, h.symm, drop_inv (t := t) (p := .shared) hi ?_ ?_ rfl rfl⟩
        · intro u hu; rw [set_gs, if_neg hu]
        · rw [set_gs, if_pos rfl, ho]; simp [Goroutine.owned]
      · rename_i hs
        simp only [Option.some.injEq] at h
        refine ⟨_, h.symm, drop_inv (t := t) (p := p) hi ?_ ?_ (by rw [if_neg hs]; rfl) rfl⟩
        · intro u hu; rw [set_gs, if_neg hu]
        · rw [set_gs, if_pos rfl, ho]; simp [Goroutine.owned]
    · simp at h

theorem run_inv (sched : List Action) : ∀ s, Inv s → ∃ s', run s sched = .ok s' ∧ Inv s' := by
  induction sched with
  | nil => intro s hi; exact ⟨s, rfl, hi⟩
  | cons a as ih =>
    intro s hi
    unfold run
    cases hst : step s a with
    | none => exact ih s hi
    | some r =>
      obtain ⟨s', rfl, hi'⟩ := step_inv hi a r hst
      exact ih s' hi'

end Pool
