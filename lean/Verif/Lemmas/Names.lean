import Verif.Model.Names
import Verif.Spec.Names

/-!
# Lemmas for C07
-/

namespace C07
open Go Names Spec.Names

theorem getLast?_append_ne {α : Type u} (a b : List α) (h : b ≠ []) :
    (a ++ b).getLast? = b.getLast? := by
  rw [List.getLast?_append]
  cases hb : b.getLast? with
  | none => simp at hb; exact absurd hb h
  | some x => rfl

theorem isAZaz09_iff (c : UInt8) : isAZaz09 c = true ↔ Alnum c := by
  have h1 : 'a'.toNat = 97 := rfl
  have h2 : 'z'.toNat = 122 := rfl
  have h3 : 'A'.toNat = 65 := rfl
  have h4 : 'Z'.toNat = 90 := rfl
  have h5 : '0'.toNat = 48 := rfl
  have h6 : '9'.toNat = 57 := rfl
  unfold isAZaz09 Alnum Letter
  rw [h1, h2, h3, h4, h5, h6]
  simp [UInt8.le_iff_toNat_le, or_assoc]

theorem hyphen_eq : UInt8.ofNat '-'.toNat = 45 := rfl

theorem not_alnum_hyphen : ¬ Alnum 45 := by
  rw [← isAZaz09_iff]; decide

theorem loop_spec (s : Bytes) : ∀ p, ∃ r, basicNameLoop s p = r ∧
    ((∀ c ∈ s, Alnum c ∨ c = 45) → r = .ok (match s.getLast? with
      | some c => c == 45
      | none => p)) ∧
    (¬ (∀ c ∈ s, Alnum c ∨ c = 45) → r = .err "basic name contains invalid character") := by
  induction s with
  | nil => intro p; exact ⟨_, rfl, by simp [basicNameLoop], by simp⟩
  | cons c rest ih =>
    intro p
    refine ⟨_, rfl, ?_, ?_⟩
    · intro h
      have hr : ∀ c ∈ rest, Alnum c ∨ c = 45 := fun c hc => h c (List.mem_cons_of_mem _ hc)
      unfold basicNameLoop
      by_cases ha : isAZaz09 c = true
      · rw [if_pos ha]
        obtain ⟨r, e, h1, _⟩ := ih false
        rw [e, h1 hr]
        cases rest with
        | nil =>
          have : c ≠ 45 := by intro e; subst e; exact absurd ha (by decide)
          simp [this]
        | cons d t =>
          simp only [List.getLast?_cons_cons]
          cases hg : (d :: t).getLast? with
          | none => simp at hg
          | some x => rfl
      · rw [if_neg ha]
        have hc : c = 45 := by
          rcases h c (List.mem_cons_self) with h' | h'
          · exact absurd ((isAZaz09_iff c).mpr h') ha
          · exact h'
        rw [if_pos hc]
        obtain ⟨r, e, h1, _⟩ := ih true
        rw [e, h1 hr]
        cases rest with
        | nil => simp [hc]
        | cons d t =>
          simp only [List.getLast?_cons_cons]
          cases hg : (d :: t).getLast? with
          | none => simp at hg
          | some x => rfl
    · intro h
      unfold basicNameLoop
      by_cases ha : isAZaz09 c = true
      · rw [if_pos ha]
        obtain ⟨r, e, _, h2⟩ := ih false
        rw [e]; apply h2
        intro hall; apply h
        intro x hx
        rcases List.mem_cons.mp hx with rfl | hx
        · exact Or.inl ((isAZaz09_iff _).mp ha)
        · exact hall x hx
      · rw [if_neg ha]
        by_cases hc : c = 45
        · rw [if_pos hc]
          obtain ⟨r, e, _, h2⟩ := ih true
          rw [e]; apply h2
          intro hall; apply h
          intro x hx
          rcases List.mem_cons.mp hx with rfl | hx
          · exact Or.inr hc
          · exact hall x hx
        · rw [if_neg hc]

/-- A list of characters without doubled or trailing hyphens splits in parts of the regexp. -/
theorem parts_of (s : Bytes) :
    (∀ c ∈ s, Alnum c ∨ c = 45) → (∀ c, s.getLast? = some c → c ≠ 45) →
    (¬ ∃ a b, s = a ++ 45 :: 45 :: b) →
    ∃ parts, s = List.flatten parts ∧ ∀ p ∈ parts, Part p := by
  match s with
  | [] => intro _ _ _; exact ⟨[], rfl, by simp⟩
  | c :: rest =>
    intro hall hlast hdd
    by_cases hc : c = 45
    · -- hyphen: the next character exists and is alphanumeric
      match rest with
      | [] => exact absurd hc (hlast c rfl)
      | d :: t =>
        have hd : Alnum d := by
          rcases hall d (by simp) with h | h
          · exact h
          · exact absurd ⟨[], t, by rw [hc, h]; rfl⟩ hdd
        obtain ⟨parts, e, hp⟩ := parts_of t (fun c h => hall c (by simp [h]))
          (by
            intro x hx
            apply hlast x
            cases t with
            | nil => simp at hx
            | cons y ys => simp [List.getLast?_cons_cons] at hx ⊢; exact hx)
          (by
            rintro ⟨a, b, e⟩
            exact hdd ⟨c :: d :: a, b, by rw [e]; rfl⟩)
        refine ⟨[c, d] :: parts, by rw [e]; simp, ?_⟩
        intro p hpm
        rcases List.mem_cons.mp hpm with rfl | hpm
        · exact ⟨[45], [d], by rw [hc]; rfl, Or.inr rfl, by simp, by simp [hd]⟩
        · exact hp p hpm
    · have ha : Alnum c := by
        rcases hall c (by simp) with h | h
        · exact h
        · exact absurd h hc
      obtain ⟨parts, e, hp⟩ := parts_of rest (fun c h => hall c (by simp [h]))
        (by
          intro x hx
          apply hlast x
          cases rest with
          | nil => simp at hx
          | cons y ys => simp [List.getLast?_cons_cons] at hx ⊢; exact hx)
        (by
          rintro ⟨a, b, e⟩
          exact hdd ⟨c :: a, b, by rw [e]; rfl⟩)
      refine ⟨[c] :: parts, by rw [e]; simp, ?_⟩
      intro p hpm
      rcases List.mem_cons.mp hpm with rfl | hpm
      · exact ⟨[], [c], rfl, Or.inl rfl, by simp, by simp [ha]⟩
      · exact hp p hpm
termination_by s.length

/-- Shape of a part: every character is allowed, the last one is alphanumeric. -/
theorem part_chars {p : List UInt8} (h : Part p) :
    p ≠ [] ∧ (∀ c ∈ p, Alnum c ∨ c = 45) ∧ (∀ c, p.getLast? = some c → Alnum c) := by
  obtain ⟨hd, w, rfl, hh, hw, hall⟩ := h
  refine ⟨by simp [hw], ?_, ?_⟩
  · intro c hc
    rcases List.mem_append.mp hc with h | h
    · rcases hh with rfl | rfl
      · simp at h
      · simp at h; exact Or.inr h
    · exact Or.inl (hall c h)
  · intro c hc
    rw [getLast?_append_ne _ _ hw] at hc
    exact hall c (List.mem_of_getLast? hc)

theorem flatten_parts (parts : List (List UInt8)) (hp : ∀ p ∈ parts, Part p) :
    (∀ c ∈ parts.flatten, Alnum c ∨ c = 45) ∧
    (∀ c, parts.flatten.getLast? = some c → Alnum c) := by
  induction parts with
  | nil => simp
  | cons p ps ih =>
    obtain ⟨h1, h2⟩ := ih (fun q hq => hp q (by simp [hq]))
    obtain ⟨p1, p2, p3⟩ := part_chars (hp p (by simp))
    refine ⟨?_, ?_⟩
    · intro c hc
      rcases List.mem_append.mp (by simpa using hc : c ∈ p ++ ps.flatten) with h | h
      · exact p2 c h
      · exact h1 c h
    · intro c hc
      rw [List.flatten_cons] at hc
      by_cases he : ps.flatten = []
      · rw [he, List.append_nil] at hc; exact p3 c hc
      · rw [getLast?_append_ne _ _ he] at hc; exact h2 c hc

theorem part_head {p : List UInt8} (h : Part p) : ∃ h0 w, p = h0 ++ w ∧ (h0 = [] ∨ h0 = [45]) ∧ w ≠ [] ∧
    ∀ c ∈ w, Alnum c := h

/-- No doubled hyphens in a concatenation of parts, even after one more character that is not a
hyphen. -/
theorem no_double (parts : List (List UInt8)) (hp : ∀ p ∈ parts, Part p) (c : UInt8)
    (hc : c ≠ 45) : ¬ ∃ a b, c :: parts.flatten = a ++ 45 :: 45 :: b := by
  induction parts generalizing c with
  | nil =>
    rintro ⟨a, b, e⟩
    have := congrArg List.length e
    simp at this; omega
  | cons p ps ih =>
    have ih' := ih (fun q hq => hp q (by simp [hq]))
    obtain ⟨h0, w, rfl, hh, hw, hall⟩ := hp p (by simp)
    -- it is enough to treat the alphanumeric run
    have run : ∀ (w : List UInt8), (∀ x ∈ w, Alnum x) → ∀ c : UInt8, c ≠ 45 →
        ¬ ∃ a b, c :: (w ++ ps.flatten) = a ++ 45 :: 45 :: b := by
      intro w
      induction w with
      | nil => intro _ c hc; simpa using ih' c hc
      | cons x xs ihw =>
        intro hall c hc
        have hx : x ≠ 45 := by
          intro e; exact not_alnum_hyphen (e ▸ hall x (by simp))
        rintro ⟨a, b, e⟩
        cases a with
        | nil => simp at e; exact hc e.1
        | cons a0 a =>
          simp at e
          exact ihw (fun y hy => hall y (by simp [hy])) x hx ⟨a, b, by simpa using e.2⟩
    rcases hh with rfl | rfl
    · simpa using run w hall c hc
    · rintro ⟨a, b, e⟩
      match a with
      | [] => simp at e; exact hc e.1
      | [a0] =>
        simp at e
        obtain ⟨_, e⟩ := e
        cases w with
        | nil => exact hw rfl
        | cons x xs =>
          simp at e
          exact not_alnum_hyphen (e.1 ▸ hall x (by simp))
      | a0 :: a1 :: a =>
        simp at e
        obtain ⟨_, _, e⟩ := e
        cases w with
        | nil => exact hw rfl
        | cons x xs =>
          have hx : x ≠ 45 := by
            intro e; exact not_alnum_hyphen (e ▸ hall x (by simp))
          exact run xs (fun y hy => hall y (by simp [hy])) x hx ⟨a, b, by simpa using e⟩

theorem spaced_loop (s : Bytes) : spacedNameLoop s = .ok () ↔
    ∀ c ∈ s, Alnum c ∨ c = 45 ∨ c = 32 := by
  induction s with
  | nil => simp [spacedNameLoop]
  | cons c rest ih =>
    unfold spacedNameLoop
    have h : (isAZaz09 c || decide (c = 45) || decide (c = 32)) = true ↔ Alnum c ∨ c = 45 ∨ c = 32 := by
      simp [isAZaz09_iff, or_assoc]
    by_cases hc : Alnum c ∨ c = 45 ∨ c = 32
    · rw [if_pos (h.mpr hc), ih]
      constructor
      · intro hr x hx
        rcases List.mem_cons.mp hx with rfl | hx
        · exact hc
        · exact hr x hx
      · intro hr x hx; exact hr x (by simp [hx])
    · rw [if_neg (fun e => hc (h.mp e))]
      constructor
      · intro e; simp at e
      · intro hr; exact absurd (hr c (by simp)) hc

end C07
