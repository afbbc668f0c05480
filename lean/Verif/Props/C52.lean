import Verif.Lemmas.DateText
import Verif.Model.GlyphRange

/-!
# C52: dates and glyph ranges mean what they say

The text of a date shows what is known of it, and different dates have different texts. Glyph ranges that
validate contain glyphs, and only glyphs of the font.
-/

namespace C52
open Go DateModel Spec.Calendar GlyphModel

/-- The text of every date whose month is right. Years and days need not be. Missing: a day without month. -/
theorem text_partial (d : Date) (hm : d.month ≤ 12) (hd : d.day ≠ 0 → d.month ≠ 0) :
    ∃ x, d.string = .ok x ∧ Text d.year d.month d.day x := by
  obtain ⟨y, m, dd⟩ := d
  simp only at hm hd
  unfold Date.string
  simp only
  by_cases h1 : dd = 0
  · subst h1
    by_cases h2 : m = 0
    · subst h2
      by_cases h3 : y = 0
      · subst h3
        exact ⟨_, rfl, .unknown⟩
      · simp only [if_true, if_neg h3]
        exact ⟨_, rfl, .year h3 (sprint04D_padded y)⟩
    · obtain ⟨s, hs, e⟩ := monthName_text (m := m) (by omega) hm y 0
      simp only [if_true, if_neg h2, e]
      exact ⟨_, rfl, .month hs (sprint04D_padded y)⟩
  · obtain ⟨s, hs, e⟩ := monthName_text (m := m) (by have := hd h1; omega) hm y dd
    simp only [if_neg h1, e]
    exact ⟨_, rfl, .full h1 (sprintD_plain dd) hs (sprint04D_padded y)⟩

/-- In particular of every valid date. -/
theorem valid_text (d : Date) (h : Valid d.year d.month d.day) :
    ∃ x, d.string = .ok x ∧ Text d.year d.month d.day x := by
  refine text_partial d ?_ ?_
  · generalize d.year = y at h
    generalize d.month = m at h
    generalize d.day = k at h
    cases h with
    | unknown => omega
    | year => omega
    | month _ hd => cases hd <;> omega
    | full _ hd => cases hd <;> omega
  · generalize d.year = y at h
    generalize d.month = m at h
    generalize d.day = k at h
    intro h0
    cases h with
    | unknown => exact absurd rfl h0
    | year => exact absurd rfl h0
    | month => exact absurd rfl h0
    | full _ hd => cases hd <;> omega

/-- Different valid dates have different texts. -/
theorem distinct {d d' : Date} (h : Valid d.year d.month d.day) (h' : Valid d'.year d'.month d'.day)
    (e : d.string = d'.string) : d = d' := by
  obtain ⟨x, h1, h2⟩ := valid_text d h
  obtain ⟨x', h1', h2'⟩ := valid_text d' h'
  rw [h1, h1', Res.ok.injEq] at e
  subst e
  obtain ⟨e1, e2, e3⟩ := text_inj h2 h2'
  cases d
  cases d'
  simp only at e1 e2 e3
  rw [e1, e2, e3]

/-- A missing month is not left out when there is a day (the date is invalid, but has no text either). -/
theorem missing_violated : ¬ ∀ d : Date, d.month ≤ 12 → ∃ x, d.string = .ok x ∧ Text d.year d.month d.day x := by
  intro h
  obtain ⟨x, _, hx⟩ := h ⟨2020, 0, 5⟩ (by decide)
  cases hx with
  | full _ _ hm => cases hm

/-- There is always a text. -/
theorem never_panics (d : Date) : ∃ x, d.string = .ok x := by
  have hm : ∃ x, d.monthName = .ok x := by
    unfold Date.monthName
    split
    · exact ⟨_, rfl⟩
    · refine ⟨_, idx_lt ?_⟩
      have : monthNames.length = 12 := rfl
      omega
  obtain ⟨x, hx⟩ := hm
  unfold Date.string
  rw [hx]
  simp only [Res.ok_bind, Res.pure_eq]
  split
  · split
    · split <;> exact ⟨_, rfl⟩
    · exact ⟨_, rfl⟩
  · exact ⟨_, rfl⟩

/-- What is known of a date. -/
theorem parts (d : Date) : (d.hasDay = true ↔ d.day ≠ 0) ∧ (d.hasMonth = true ↔ d.month ≠ 0) ∧
    (d.hasYear = true ↔ d.year ≠ 0) ∧
    (d.isComplete = true ↔ d.hasDay = true ∧ d.hasMonth = true ∧ d.hasYear = true) := by
  simp [Date.hasDay, Date.hasMonth, Date.hasYear, Date.isComplete, and_comm, and_left_comm]

/-- A range validates exactly when it contains a glyph, and only glyphs of the font. -/
theorem range_validate (r : GlyphRange) (maxGlyphs : Nat) :
    (r.validate maxGlyphs = .ok () ↔
      (∃ i, r.contains i = true) ∧ ∀ i, r.contains i = true → i < maxGlyphs) ∧
    (r.validate maxGlyphs ≠ .ok () → ∃ m, r.validate maxGlyphs = .err m) := by
  obtain ⟨a, b⟩ := r
  unfold GlyphRange.validate GlyphRange.contains
  simp only [ge_iff_le, Bool.and_eq_true, decide_eq_true_eq]
  split
  · refine ⟨⟨fun h => by simp at h, ?_⟩, fun _ => ⟨_, rfl⟩⟩
    rintro ⟨⟨i, h1, h2⟩, _⟩
    omega
  · split
    · refine ⟨⟨fun h => by simp at h, ?_⟩, fun _ => ⟨_, rfl⟩⟩
      rintro ⟨_, h⟩
      have := h b ⟨by omega, by omega⟩
      omega
    · refine ⟨⟨fun _ => ⟨⟨a, by omega, by omega⟩, fun i hi => by omega⟩, fun _ => rfl⟩, fun h => absurd rfl h⟩

/-- New ranges contain exactly the glyphs between their ends, of which there is one; otherwise there is a panic. -/
theorem newRange_exact (a b : Nat) :
    (a ≤ b → ∃ r, newRange a b = .ok r ∧ r.contains a = true ∧ ∀ i, r.contains i = true ↔ a ≤ i ∧ i ≤ b) ∧
    (b < a → newRange a b = .panic "invalid glyph range: last < first") := by
  unfold newRange
  constructor
  · intro h
    refine ⟨⟨a, b⟩, by rw [if_neg (by omega)], ?_, ?_⟩ <;> simp [GlyphRange.contains, h]
  · intro h
    rw [if_pos h]

/-- Some dates. -/
example : Valid 2024 2 29 ∧ (Date.mk 2024 2 29).string = .ok (letters "29 February 2024") ∧
    Valid 987 5 0 ∧ (Date.mk 987 5 0).string = .ok (letters "May 0987") ∧
    Valid 2024 0 0 ∧ (Date.mk 2024 0 0).string = .ok (letters "2024") ∧
    (Date.mk 0 0 0).string = .ok (letters "(Unknown Date)") ∧
    (Date.mk 2020 0 5).string = .ok (letters "5 ???? 2020") :=
  ⟨.full (by decide) (.febLeap (by unfold Leap; omega)) (by decide) (by decide), by decide +kernel,
    .month (by decide) .may, by decide +kernel, .year (by decide), by decide +kernel, by decide +kernel,
    by decide +kernel⟩

example : (GlyphRange.mk 3 7).validate 8 = .ok () ∧ newRange 3 7 = .ok ⟨3, 7⟩ := by decide

end C52
