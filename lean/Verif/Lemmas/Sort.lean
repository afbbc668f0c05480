import Verif.Model.Build

/-! # Sorting -/

namespace BuilderModel

theorem insertBy_perm {α : Type} (le : α → α → Bool) (a : α) : ∀ l, (insertBy le a l).Perm (a :: l)
  | [] => List.Perm.refl _
  | b :: l => by
    rw [insertBy]
    split
    · exact List.Perm.refl _
    · exact ((insertBy_perm le a l).cons b).trans (List.Perm.swap a b l)

theorem isort_perm {α : Type} (le : α → α → Bool) : ∀ l, (isort le l).Perm l
  | [] => List.Perm.refl _
  | a :: l => by rw [isort]; exact (insertBy_perm le a _).trans ((isort_perm le l).cons a)

theorem insertBy_pairwise {α : Type} {le : α → α → Bool} (ht : ∀ a b c, le a b → le b c → le a c)
    (hc : ∀ a b, le a b ∨ le b a) (a : α) : ∀ l, l.Pairwise (fun a b => le a b) →
      (insertBy le a l).Pairwise (fun a b => le a b)
  | [], _ => by simp [insertBy]
  | b :: l, h => by
    rw [insertBy]
    rw [List.pairwise_cons] at h
    split
    · rename_i hab
      rw [List.pairwise_cons, List.pairwise_cons]
      refine ⟨fun x hx => ?_, h⟩
      rcases List.mem_cons.1 hx with rfl | hx
      · exact hab
      · exact ht _ _ _ hab (h.1 x hx)
    · rename_i hab
      rw [List.pairwise_cons]
      refine ⟨fun x hx => ?_, insertBy_pairwise ht hc a l h.2⟩
      rcases List.mem_cons.1 ((insertBy_perm le a l).mem_iff.1 hx) with rfl | hx
      · exact (hc b x).resolve_right hab
      · exact h.1 x hx

theorem isort_pairwise {α : Type} {le : α → α → Bool} (ht : ∀ a b c, le a b → le b c → le a c)
    (hc : ∀ a b, le a b ∨ le b a) : ∀ l, (isort le l).Pairwise (fun a b => le a b)
  | [] => by simp [isort]
  | a :: l => by rw [isort]; exact insertBy_pairwise ht hc a _ (isort_pairwise ht hc l)

theorem isort_nat_perm (l : List Nat) : (isort natLe l).Perm l := isort_perm _ l

theorem isort_nat_pairwise (l : List Nat) : (isort natLe l).Pairwise (fun a b => a ≤ b) := by
  have := isort_pairwise (le := natLe) (by simp [natLe]; omega) (by simp [natLe]; omega) l
  simpa [natLe] using this

end BuilderModel
