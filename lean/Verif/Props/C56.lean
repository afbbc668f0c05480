import Verif.Lemmas.Accepts

/-!
# C56: calls succeed exactly when their arguments are right

The conditions are `Method.Accepts`, in terms of the arguments and the content of the builder. A call that does not
succeed should return an error; which ones panic is `Method.Panics`.
-/

namespace C56
open Go Spec BuilderModel

/-- A call succeeds exactly when its arguments are right. -/
theorem accepted {b : Builder} (hr : Reachable b) (m : Method) (hm : m.Plain) :
    (∃ b', m.call b = .ok b') ↔ m.Accepts b := by
  have h := m.outcome hr hm
  constructor
  · rintro ⟨b', hb⟩
    exact (h.of_ok b' hb).1
  · intro ha
    have := h.1 ha
    cases e : m.call b with
    | ok b' => exact ⟨b', rfl⟩
    | err s => rw [e] at this; cases this
    | panic s => rw [e] at this; cases this

/-- Other calls return an error, but for those that panic. Missing: an error for the latter. -/
theorem refused_partial {b : Builder} (hr : Reachable b) (m : Method) (hm : m.Plain) :
    ((∃ s, m.call b = .err s) ↔ ¬ m.Accepts b ∧ ¬ m.Panics b) ∧ ((∃ s, m.call b = .panic s) ↔ m.Panics b) := by
  obtain ⟨h1, h2, h3⟩ := m.outcome hr hm
  cases e : m.call b with
  | ok b' =>
    rw [e] at h1 h2 h3
    have hp : ¬ m.Panics b := fun h => by cases h2 h
    have ha : m.Accepts b := Classical.byContradiction fun h => by
      obtain ⟨s, hs⟩ := h3 h hp
      cases hs
    simp [ha, hp]
  | err s =>
    rw [e] at h1 h2
    have hp : ¬ m.Panics b := fun h => by cases h2 h
    have ha : ¬ m.Accepts b := fun h => by cases h1 h
    simp [ha, hp]
  | panic s =>
    rw [e] at h1 h3
    have ha : ¬ m.Accepts b := fun h => by cases h1 h
    have hp : m.Panics b := Classical.byContradiction fun h => by
      obtain ⟨s, hs⟩ := h3 ha h
      cases hs
    simp [ha, hp]

/-- Every kind of panic occurs, for every builder or for one made with the public methods: a date without month and day,
which is a right one (`C08`); a set of code points, whatever the builder; a switch that does not exist when its number is
over 253; a switch with a setting without options; a group of one glyph among the groups of a switch, for
which `MapWithSwitch` expects no animation flags; an empty group. -/
theorem refused_violated :
    (∀ b y, (Method.setFirstVerDate ⟨y, 0, 0⟩).Panics b) ∧
    (∀ b u, b.glyphSets.get u = none → (Method.createRuneSet u).Panics b) ∧
    (∀ b us, (Method.mapWithSwitchSingles 65 254 us).Panics b) ∧
    (∃ b, Reachable b ∧ ∀ us, (Method.mapWithSwitchSingles 65 0 us).Panics b) ∧
    (∃ b, Reachable b ∧ (Method.mapWithSwitch 65 0 [[1001], [1001, 1002]] [0]).Panics b) ∧
    (∃ b, Reachable b ∧ (Method.mapWithSwitch 65 0 [[], [1001, 1002]] [0]).Panics b) := by
  have hc : Reachable Sample.called := ⟨_, called_history.edits, rfl⟩
  have hs : SwitchWith Sample.called 0 2 := ⟨[0], rfl, by decide, rfl, by decide⟩
  refine ⟨fun b y => ⟨rfl, rfl⟩, fun b u h => h, fun b us => ⟨by decide, .inl (Nat.le_refl _)⟩, ?_,
    ⟨_, hc, by decide, .inr (.inr ⟨hs, .inr ⟨by decide, rfl, [1001], by simp, rfl⟩⟩)⟩,
    ⟨_, hc, by decide, .inr (.inr ⟨hs, .inl ⟨[], [[1001, 1002]], rfl, by simp, by decide⟩⟩)⟩⟩
  have h : runAll Sample.day [0x9E3779B97F4A7C15] [.addSwitch [0], .addSetting (ascii "none") []] =
      .ok ⟨{ Sample.fresh with settings := [⟨ascii "none", []⟩], switches := [[0]] }, [], [], []⟩ := by decide +kernel
  refine ⟨_, ⟨_, (runAll_history h (by simp [Method.InRange])).edits, rfl⟩, fun us => ⟨by decide, .inr ?_⟩⟩
  exact ⟨[0], rfl, 0, by simp, by decide⟩

/-- Each is a panic of the call. -/
example : ∃ s, (Method.mapWithSwitch 65 0 [[1001], [1001, 1002]] [0]).call Sample.called = .panic s :=
  (refused_partial ⟨_, called_history.edits, rfl⟩ (.mapWithSwitch 65 0 [[1001], [1001, 1002]] [0]) trivial).2.2
    ⟨by decide, .inr (.inr ⟨⟨[0], rfl, by decide, rfl, by decide⟩, .inr ⟨by decide, rfl, [1001], by simp, rfl⟩⟩)⟩

/-- Right and wrong arguments. -/
example : (Method.setGlyphName 1002 (ascii "dash")).Accepts Sample.called ∧
    (Method.mapWithSwitchSingles 97 0 [1001, 1002]).Accepts Sample.called ∧
    ¬ (Method.addSetting (ascii "style") []).Accepts Sample.called ∧
    ¬ (Method.addGlyphRewriteRule 0 1 0 [78] [1001]).Accepts Sample.called := by
  refine ⟨⟨by decide, by decide, by decide, ?_, by decide, by decide⟩, ⟨by decide, by decide, [0], rfl, by decide, rfl, by decide⟩, ?_, ?_⟩
  · simp only [Names.Alnum, Names.Letter]
    decide
  · rintro ⟨_, _, _, _, h⟩
    exact h ⟨ascii "style", _⟩ (List.mem_cons_self ..) rfl
  · rintro ⟨_, _, _, h⟩
    rcases h 78 (by simp) with h | ⟨s, h⟩
    · revert h; decide
    · cases h

end C56
