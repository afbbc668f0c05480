import Verif.Lemmas.TesterRun
import Mathlib.Data.Nat.Find

/-!
# The batch rewriting has exactly one output
-/

namespace Spec
open TesterModel

variable {S : Nat → List Nat} {sets : TreeModel.Sets}

theorem isBest_exists (w : List Nat) : ∀ (l : List (List Nat × Nat)), ∃ r, IsBest l w r
  | [] => ⟨255, Or.inl ⟨rfl, by simp⟩⟩
  | x :: l => by
    obtain ⟨r, h⟩ := isBest_exists w l
    by_cases hx : x.1 <+: w
    · rcases h with ⟨_, h⟩ | ⟨y, hy, rfl, hp, hm⟩
      · refine ⟨x.2, Or.inr ⟨x, List.mem_cons_self, rfl, hx, ?_⟩⟩
        intro z hz hzp
        rcases List.mem_cons.1 hz with rfl | hz
        · exact Or.inr ⟨rfl, Nat.le_refl _⟩
        · exact absurd hzp (h z hz)
      · -- `x` is better than `y`, or it is not
        by_cases hb : y.1.length < x.1.length ∨ (y.1 = x.1 ∧ x.2 ≤ y.2)
        · refine ⟨x.2, Or.inr ⟨x, List.mem_cons_self, rfl, hx, ?_⟩⟩
          intro z hz hzp
          rcases List.mem_cons.1 hz with rfl | hz
          · exact Or.inr ⟨rfl, Nat.le_refl _⟩
          · rcases hm z hz hzp with h1 | ⟨h1, h2⟩
            · rcases hb with h3 | ⟨h3, h4⟩
              · exact Or.inl (by omega)
              · exact Or.inl (by rw [← h3]; exact h1)
            · rcases hb with h3 | ⟨h3, h4⟩
              · exact Or.inl (by rw [h1]; exact h3)
              · exact Or.inr ⟨h1.trans h3, by omega⟩
        · refine ⟨y.2, Or.inr ⟨y, List.mem_cons_of_mem _ hy, rfl, hp, ?_⟩⟩
          intro z hz hzp
          rcases List.mem_cons.1 hz with rfl | hz
          · by_cases hl : z.1.length < y.1.length
            · exact Or.inl hl
            · have hle : z.1.length ≤ y.1.length := by
                rcases Nat.lt_or_ge y.1.length z.1.length with h | h
                · exact absurd (Or.inl h) hb
                · exact h
              have he : z.1 = y.1 := (List.prefix_of_prefix_length_le hx hp hle).eq_of_length (by omega)
              refine Or.inr ⟨he, ?_⟩
              by_cases h5 : y.2 ≤ z.2
              · exact h5
              · exact absurd (Or.inr ⟨he.symm, by omega⟩) hb
          · exact hm z hz hzp
    · refine ⟨r, ?_⟩
      rcases h with ⟨rfl, h⟩ | ⟨y, hy, rfl, hp, hm⟩
      · refine Or.inl ⟨rfl, ?_⟩
        intro z hz
        rcases List.mem_cons.1 hz with rfl | hz
        · exact hx
        · exact h z hz
      · refine Or.inr ⟨y, List.mem_cons_of_mem _ hy, rfl, hp, ?_⟩
        intro z hz hzp
        rcases List.mem_cons.1 hz with rfl | hz
        · exact absurd hzp hx
        · exact hm z hz hzp

theorem chosen_prefix {R : List RuleCode} (hl : R.length ≤ 254) {w : List Nat} {i : Nat} {r : RuleCode}
    (h : Chosen S R w i r) : ∃ p ∈ r.inputs S, p <+: w := by
  have hi := (List.getElem?_eq_some_iff.1 h.1).1
  obtain ⟨r', p, h1, _, h2, h3⟩ := isBest_some h.2.1 (by omega)
  rw [h.1, Option.some.injEq] at h1
  rw [h1]
  exact ⟨p, h2, h3⟩

theorem chosen_size {R : List RuleCode} (hl : R.length ≤ 254) {w : List Nat} {i : Nat} {r : RuleCode}
    (h : Chosen S R w i r) : r.size ≤ w.length := by
  obtain ⟨p, h1, h2⟩ := chosen_prefix hl h
  rw [← TreeModel.inputs_size h1]
  exact h2.length_le

theorem chosen_unique {R : List RuleCode} {w : List Nat} {i i' : Nat} {r r' : RuleCode} (h : Chosen S R w i r)
    (h' : Chosen S R w i' r') : i = i' ∧ r = r' := by
  have h1 := h.2.2 _ _ h'.2.1
  have h2 := h'.2.2 _ _ h.2.1
  have : i = i' := by omega
  subst this
  have := h.1.symm.trans h'.1
  exact ⟨rfl, by simpa using this⟩

theorem chosen_exists {R : List RuleCode} (hl : R.length ≤ 254) {w : List Nat} {r : RuleCode} (hr : r ∈ R)
    {p : List Nat} (hpi : p ∈ r.inputs S) (hp : p <+: w) : ∃ i r, Chosen S R w i r := by
  classical
  obtain ⟨j, hj⟩ := isBest_exists w (group S R r.condition.toNat)
  have hex : ∃ j, ∃ c, IsBest (group S R c) w j := ⟨j, _, hj⟩
  obtain ⟨c, hc⟩ := Nat.find_spec hex
  have hmin := fun {m} (h : m < Nat.find hex) => Nat.find_min hex h
  have hle := Nat.find_min' hex ⟨_, hj⟩
  generalize Nat.find hex = i at *
  have hjne : j ≠ 255 := fun h => isBest_none hl (h ▸ hj) r hr rfl p hpi hp
  obtain ⟨r0, _, h0, _, _⟩ := isBest_some hj hjne
  have := (List.getElem?_eq_some_iff.1 h0).1
  obtain ⟨r1, _, h1, h2, h3⟩ := isBest_some hc (by omega)
  refine ⟨i, r1, h1, by rw [h2]; exact hc, ?_⟩
  intro c' j' h'
  rcases Nat.lt_or_ge j' i with h | h
  · exact absurd ⟨c', h'⟩ (hmin h)
  · exact h

theorem BatchOf.unique {em : RuleCode → List Nat} {R : List RuleCode} (hl : R.length ≤ 254) (hne : ∀ r ∈ R, r.size ≠ 0) {w o o' : List Nat}
    (h : BatchOf S em R w o) (h' : BatchOf S em R w o') : o = o' := by
  induction h generalizing o' with
  | nil =>
    generalize hw : ([] : List Nat) = w at h'
    cases h' with
    | nil => rfl
    | keep _ _ => cases hw
    | rewrite hc _ =>
      subst hw
      have := chosen_size hl hc
      exact absurd (Nat.le_zero.1 this) (hne _ (List.mem_of_getElem? hc.1))
  | keep hk hb ih =>
    rename_i x w o
    generalize hw : x :: w = w' at h'
    cases h' with
    | nil => cases hw
    | keep _ hb' =>
      simp only [List.cons.injEq] at hw
      obtain ⟨rfl, rfl⟩ := hw
      rw [ih hb']
    | rewrite hc _ =>
      subst hw
      obtain ⟨p, h1, h2⟩ := chosen_prefix hl hc
      exact absurd h2 (hk _ (List.mem_of_getElem? hc.1) p h1)
  | rewrite hc hb ih =>
    cases h' with
    | nil =>
      have := chosen_size hl hc
      exact absurd (Nat.le_zero.1 this) (hne _ (List.mem_of_getElem? hc.1))
    | keep hk _ =>
      obtain ⟨p, h1, h2⟩ := chosen_prefix hl hc
      exact absurd h2 (hk _ (List.mem_of_getElem? hc.1) p h1)
    | rewrite hc' hb' =>
      obtain ⟨rfl, rfl⟩ := chosen_unique hc hc'
      rw [ih hb']

theorem BatchOf.total {em : RuleCode → List Nat} {R : List RuleCode} (hl : R.length ≤ 254) (hne : ∀ r ∈ R, r.size ≠ 0) :
    ∀ (n : Nat) (w : List Nat), w.length ≤ n → ∃ o, BatchOf S em R w o
  | _, [], _ => ⟨[], .nil⟩
  | 0, x :: w, h => by simp at h
  | n + 1, x :: w, h => by
    by_cases hex : ∃ r ∈ R, ∃ p ∈ r.inputs S, p <+: x :: w
    · obtain ⟨r, hr, p, hpi, hp⟩ := hex
      obtain ⟨i, r', hc⟩ := chosen_exists hl hr hpi hp
      have := hne r' (List.mem_of_getElem? hc.1)
      simp only [List.length_cons] at h
      obtain ⟨o, ho⟩ := BatchOf.total hl hne n ((x :: w).drop r'.size) (by
        rw [List.length_drop, List.length_cons]; omega)
      exact ⟨_, .rewrite hc ho⟩
    · simp only [List.length_cons] at h
      obtain ⟨o, ho⟩ := BatchOf.total hl hne n w (by omega)
      exact ⟨_, .keep (fun r hr p hpi hp => hex ⟨r, hr, p, hpi, hp⟩) ho⟩

/-- Without matches nothing changes. -/
theorem BatchOf.same {em : RuleCode → List Nat} {R : List RuleCode} (hl : R.length ≤ 254) {w o : List Nat} (h : BatchOf S em R w o)
    (hn : ∀ r ∈ R, ¬ r.OccursIn S w) : o = w := by
  induction h with
  | nil => rfl
  | keep _ _ ih => rw [ih fun r hr hi => hn r hr (hi.mono (List.suffix_cons _ _).isInfix)]
  | rewrite hc _ _ =>
    obtain ⟨p, h1, h2⟩ := chosen_prefix hl hc
    exact absurd ⟨p, h1, h2.isInfix⟩ (hn _ (List.mem_of_getElem? hc.1))

/-- One rule, and one of its inputs. -/
theorem batch_own {em : RuleCode → List Nat} {r : RuleCode} (hne : r.size ≠ 0) {p o : List Nat} (hp : p ∈ r.inputs S)
    (h : BatchOf S em [r] p o) : o = p.take (blockSize r.head) ++ em r ++ r.tailOf p := by
  obtain ⟨i, r', hc⟩ := chosen_exists (R := [r]) (by simp) (List.mem_singleton.2 rfl) hp (List.prefix_refl p)
  obtain rfl := List.mem_singleton.1 (List.mem_of_getElem? hc.1)
  have h' : BatchOf S em [r'] p (p.take (blockSize r'.head) ++ em r' ++ r'.tailOf p ++ []) :=
    .rewrite hc (by rw [← TreeModel.inputs_size hp, List.drop_length]; exact .nil)
  rw [h.unique (by simp) (by simpa using hne) h', List.append_nil]

end Spec
