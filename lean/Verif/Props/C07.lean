import Verif.Lemmas.Names

/-!
# C07: name validation accepts exactly the specified names

Violated in two ways: names that start with a digit and names with doubled hyphens are accepted
(the error for doubled hyphens is built but never returned). What holds: every name of the grammar
is accepted, and what is accepted is characterised exactly.
-/

namespace C07
open Go Names Spec.Names

/-- Exact language accepted by `ValidateBasicName`; it never panics. -/
theorem accepted_iff (s : Bytes) :
    (validateBasicName s).isPanic = false ∧
    (validateBasicName s = .ok () ↔
      1 ≤ s.length ∧ s.length ≤ 32 ∧ (∀ c ∈ s, Alnum c ∨ c = 45) ∧
      s.head? ≠ some 45 ∧ s.getLast? ≠ some 45) := by
  unfold validateBasicName
  by_cases h1 : s.length > 32
  · rw [if_pos h1]; refine ⟨rfl, ?_⟩
    constructor
    · simp
    · rintro ⟨_, h, _⟩; omega
  rw [if_neg h1]
  by_cases h2 : s.length = 0
  · rw [if_pos h2]; refine ⟨rfl, ?_⟩
    constructor
    · simp
    · rintro ⟨h, _⟩; omega
  rw [if_neg h2, idx_lt (by omega : 0 < s.length), Res.ok_bind]
  have hhead : s.head? = some s[0] := by
    cases s with
    | nil => simp at h2
    | cons a t => rfl
  by_cases h3 : s[0] = 45
  · rw [if_pos h3]; refine ⟨rfl, ?_⟩
    constructor
    · simp
    · rintro ⟨_, _, _, h, _⟩; rw [hhead, h3] at h; exact absurd rfl h
  rw [if_neg h3]
  obtain ⟨r, e, ha, hb⟩ := loop_spec s false
  simp only [Res.pure_eq, Res.ok_bind]
  rw [e]
  by_cases h4 : ∀ c ∈ s, Alnum c ∨ c = 45
  · rw [ha h4, Res.ok_bind]
    cases hl : s.getLast? with
    | none => simp at hl; subst hl; simp at h2
    | some c =>
      simp only
      by_cases h5 : c = 45
      · subst h5
        simp
      · have : (c == 45) = false := by simp [h5]
        simp only [this, Bool.false_eq_true, if_false, Res.isPanic_ok, true_and, true_iff]
        refine ⟨by omega, by omega, h4, ?_, by simp [h5]⟩
        rw [hhead]; simp [h3]
  · rw [hb h4]
    refine ⟨rfl, ?_⟩
    constructor
    · simp
    · rintro ⟨_, _, h, _⟩; exact absurd h h4

example : validateBasicName [97, 108, 116, 45, 65, 50] = .ok () := by decide

/-- Every name of the documented grammar is accepted. -/
theorem grammar_accepted (s : Bytes) (h : BasicName s) : validateBasicName s = .ok () := by
  obtain ⟨hlen, c, parts, rfl, hc, hp⟩ := h
  obtain ⟨f1, f2⟩ := flatten_parts parts hp
  have hca : Alnum c := Or.inl hc
  have hc45 : c ≠ 45 := fun e => not_alnum_hyphen (e ▸ hca)
  rw [(accepted_iff _).2]
  refine ⟨by simp, hlen, ?_, by simp [hc45], ?_⟩
  · intro x hx
    rcases List.mem_cons.mp hx with rfl | hx
    · exact Or.inl hca
    · exact f1 x hx
  · intro hl
    by_cases he : parts.flatten = []
    · rw [he] at hl; simp at hl; exact hc45 hl
    · rw [show c :: parts.flatten = [c] ++ parts.flatten from rfl, getLast?_append_ne _ _ he] at hl
      exact not_alnum_hyphen (f2 _ hl)

/-- **C07, what holds** (`_partial`: the full claim would drop the two extra conditions): among names
that start with a letter and contain no doubled hyphen, exactly the names of the grammar are
accepted. -/
theorem accepted_iff_grammar_partial (s : Bytes) :
    BasicName s ↔ validateBasicName s = .ok () ∧ (∀ c, s.head? = some c → Letter c) ∧
      ¬ ∃ a b, s = a ++ 45 :: 45 :: b := by
  constructor
  · intro h
    refine ⟨grammar_accepted s h, ?_⟩
    obtain ⟨hlen, c, parts, rfl, hc, hp⟩ := h
    exact ⟨by simp [hc], no_double parts hp c (fun e => not_alnum_hyphen (e ▸ Or.inl hc))⟩
  · rintro ⟨hv, hl, hd⟩
    obtain ⟨h1, h2, h3, h4, h5⟩ := (accepted_iff s).2.mp hv
    cases s with
    | nil => simp at h1
    | cons c rest =>
      obtain ⟨parts, e, hp⟩ := parts_of rest (fun x hx => h3 x (by simp [hx]))
        (by
          intro x hx e; subst e
          apply h5
          cases rest with
          | nil => simp at hx
          | cons y ys => rw [List.getLast?_cons_cons]; exact hx)
        (by rintro ⟨a, b, e⟩; exact hd ⟨c :: a, b, by rw [e]; rfl⟩)
      exact ⟨h2, c, parts, by rw [e], hl c rfl, hp⟩

/-- `"ab-c1"` is in the grammar (and accepted). -/
example : BasicName [97, 98, 45, 99, 49] ∧ validateBasicName [97, 98, 45, 99, 49] = .ok () := by
  have h : BasicName [97, 98, 45, 99, 49] := by
    refine ⟨by decide, 97, [[98], [45, 99, 49]], rfl, Or.inl (by decide), ?_⟩
    intro p hp
    rcases List.mem_cons.mp hp with rfl | hp
    · exact ⟨[], [98], rfl, Or.inl rfl, by simp, by simp [Alnum, Letter]⟩
    · rcases List.mem_cons.mp hp with rfl | hp
      · exact ⟨[45], [99, 49], rfl, Or.inr rfl, by simp, by simp [Alnum, Letter]⟩
      · simp at hp
  exact ⟨h, grammar_accepted _ h⟩

/-- **C07 is violated**: `"1a"` and `"a--b"` are accepted although they are not in the grammar. -/
theorem accepted_outside_grammar_violated :
    (validateBasicName [49, 97] = .ok () ∧ ¬ BasicName [49, 97]) ∧
    (validateBasicName [97, 45, 45, 98] = .ok () ∧ ¬ BasicName [97, 45, 45, 98]) := by
  refine ⟨⟨by decide, ?_⟩, ⟨by decide, ?_⟩⟩
  · intro h
    have := ((accepted_iff_grammar_partial _).mp h).2.1 49 rfl
    revert this
    unfold Letter
    decide
  · intro h
    exact ((accepted_iff_grammar_partial _).mp h).2.2 ⟨[97], [98], rfl⟩

/-- `ValidateBasicSpacedName`: 1 to 32 letters, digits, hyphens and spaces. -/
theorem spaced_accepted_iff (s : Bytes) :
    validateBasicSpacedName s = .ok () ↔
      1 ≤ s.length ∧ s.length ≤ 32 ∧ ∀ c ∈ s, Alnum c ∨ c = 45 ∨ c = 32 := by
  unfold validateBasicSpacedName
  by_cases h1 : s.length > 32
  · rw [if_pos h1]; constructor
    · simp
    · rintro ⟨_, h, _⟩; omega
  rw [if_neg h1]
  by_cases h2 : s.length = 0
  · rw [if_pos h2]; constructor
    · simp
    · rintro ⟨h, _⟩; omega
  rw [if_neg h2, spaced_loop]
  constructor
  · intro h; exact ⟨by omega, by omega, h⟩
  · rintro ⟨_, _, h⟩; exact h

example : validateBasicSpacedName [77, 121, 32, 32, 70, 45, 50] = .ok () := by decide

end C07
