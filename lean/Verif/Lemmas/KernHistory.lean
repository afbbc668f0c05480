import Verif.Spec.KernHistory
import Verif.Lemmas.History

/-! # Calls after edition data was loaded -/

namespace Spec
open Go FontModel BuilderModel EditionModel

/-- The calls determine the builder. -/
theorem History.unique {rolls : List UInt64} {today : DateModel.Date} {l : List Method} {e e' : Editor}
    (h : History rolls today l e) (h' : History rolls today l e') : e = e' := by
  induction h generalizing e' with
  | new h => cases h' with | new h1 => rw [h] at h1; cases h1; rfl
  | call h0 _ h ih =>
    cases h' with
    | call h1 _ h2 =>
      cases ih h1
      rw [h] at h2
      cases h2
      rfl

/-- What calls without edition data keep. -/
structure KernKept (since : List Method) (b b' : Builder) : Prop where
  classes : b'.kernClasses = b.kernClasses
  vert : b'.vertKern = b.vertKern
  horz : ∀ key, b'.horzKern.get key = match since.findSome? (Method.kerning? key) with
    | none => b.horzKern.get key
    | some k => if k = 0 then none else some ⟨0, k⟩

theorem kernKept_same {since : List Method} {m : Method} {b0 b b' : Builder} (ih : KernKept since b0 b)
    (hm : ∀ key, Method.kerning? key m = none) (h1 : b'.kernClasses = b.kernClasses) (h2 : b'.vertKern = b.vertKern)
    (h3 : b'.horzKern = b.horzKern) : KernKept (m :: since) b0 b' := by
  refine ⟨h1.trans ih.classes, h2.trans ih.vert, fun key => ?_⟩
  rw [h3, ih.horz, List.findSome?_cons, hm]

theorem kernKept_step {since : List Method} {m : Method} {b0 b b' : Builder} (h : m.Effect b b')
    (hm : m.edition = false) (ih : KernKept since b0 b) : KernKept (m :: since) b0 b' := by
  cases m with
  | addGlyph => obtain ⟨u, _, _, rfl⟩ := h; exact kernKept_same ih (fun _ => rfl) rfl rfl rfl
  | setGlyphPlacement => obtain ⟨g, _, rfl⟩ := h; exact kernKept_same ih (fun _ => rfl) rfl rfl rfl
  | setGlyphName => obtain ⟨g, _, rfl⟩ := h; exact kernKept_same ih (fun _ => rfl) rfl rfl rfl
  | setKerningPair p n k =>
    cases h
    have hk : ∀ key, Method.kerning? key (.setKerningPair p n k) = if (p, n) = key then some k else none := fun _ => rfl
    unfold Builder.setKerningPair
    by_cases h0 : k = 0
    · rw [if_pos h0]
      refine ⟨ih.classes, ih.vert, fun key => ?_⟩
      rw [List.findSome?_cons, hk]
      simp only [get_delete]
      by_cases hp : (p, n) = key
      · simp [hp, h0]
      · rw [if_neg hp, if_neg hp]; exact ih.horz key
    · rw [if_neg h0]
      refine ⟨ih.classes, ih.vert, fun key => ?_⟩
      rw [List.findSome?_cons, hk]
      simp only [get_set]
      by_cases hp : (p, n) = key
      · simp [hp, h0]
      · rw [if_neg hp, if_neg hp]; exact ih.horz key
  | createGlyphSet => obtain ⟨_, rfl⟩ := h; exact kernKept_same ih (fun _ => rfl) rfl rfl rfl
  | addGlyphSetRange => obtain ⟨g, _, rfl⟩ := h; exact kernKept_same ih (fun _ => rfl) rfl rfl rfl
  | addGlyphSetListGlyph => obtain ⟨g, _, rfl⟩ := h; exact kernKept_same ih (fun _ => rfl) rfl rfl rfl
  | removeGlyphSetRange => rcases h with rfl | ⟨s, _, rfl⟩ <;> exact kernKept_same ih (fun _ => rfl) rfl rfl rfl
  | removeGlyphSetListGlyph => rcases h with rfl | ⟨s, _, rfl⟩ <;> exact kernKept_same ih (fun _ => rfl) rfl rfl rfl
  | createRuneSet => exact h.elim
  | addRuneSetRange => exact h.elim
  | addRuneSetListRune => exact h.elim
  | addSimpleUtf8RewriteRule => obtain ⟨r, rfl, _⟩ := h; exact kernKept_same ih (fun _ => rfl) rfl rfl rfl
  | addGlyphRewriteRule => obtain ⟨r, rfl, _⟩ := h; exact kernKept_same ih (fun _ => rfl) rfl rfl rfl
  | clearEditionData => cases hm
  | parseEditionData => cases hm
  | _ => cases h; exact kernKept_same ih (fun _ => rfl) rfl rfl rfl

/-- The last calls of a history. -/
theorem History.since {rolls : List UInt64} {today : DateModel.Date} {before : List Method} :
    ∀ {since : List Method} {e : Editor}, History rolls today (since ++ before) e →
      (∀ m ∈ since, m.edition = false) →
      ∃ e1, History rolls today before e1 ∧ KernKept since e1.builder e.builder
  | [], e, h, _ => ⟨e, h, rfl, rfl, fun _ => rfl⟩
  | m :: since, e, h, hs => by
    cases h with
    | call h0 _ h =>
      obtain ⟨e1, h1, hk⟩ := History.since h0 fun m hm => hs m (List.mem_cons_of_mem _ hm)
      exact ⟨e1, h1, kernKept_step (Method.effect h0.edits h) (hs m (List.mem_cons_self ..)) hk⟩

/-- Kerning after contents were loaded. -/
theorem kernOf_loaded {rolls : List UInt64} {today : DateModel.Date} {before since : List Method} {e0 e1 : Editor}
    {b : Builder} {x : EditionData} (h0 : History rolls today before e0) (hl : Loaded x e0 e1)
    (hk : KernKept since e1.builder b) (pair : Nat × Nat) :
    kernOf b.kernClasses b.horzKern pair = kernSince since before e0.builder.glyphOrder x pair := by
  rw [kernOf, ← get_eq_lookup, hk.horz, hk.classes, hl.kernClasses, kernSince]
  cases since.findSome? (Method.kerning? pair) with
  | some k =>
    by_cases h : k = 0 <;> simp [h]
  | none =>
    have hc := hl.horz pair
    have hv := h0.kern pair
    rw [pairValue] at hv
    simp only
    rw [hc]
    cases hg : e0.builder.horzKern.get pair with
    | none =>
      rw [hg] at hv
      cases hn : classIn e0.builder.glyphOrder x.horz pair with
      | zero => simpa using hv
      | succ c => simp
    | some p =>
      rw [hg] at hv
      cases hn : classIn e0.builder.glyphOrder x.horz pair with
      | zero => simpa using hv
      | succ c => simp

/-- Without classes at first there are none later. -/
theorem KernKept.plain {since : List Method} {b b' : Builder} (h : KernKept since b b')
    (hb : ∀ key p, b.horzKern.get key = some p → p.cls = 0) (key : Nat × Nat) (p : KernPair)
    (hp : b'.horzKern.get key = some p) : p.cls = 0 := by
  rw [h.horz] at hp
  split at hp
  · exact hb key p hp
  · split at hp
    · cases hp
    · rw [← Option.some.inj hp]

theorem clear_plain (e : Editor) (key : Nat × Nat) (p : KernPair)
    (hp : (clearEditionData e).builder.horzKern.get key = some p) : p.cls = 0 := by
  have : (clearClasses e.builder.horzKern).get key = some p := hp
  rw [get_clear] at this
  obtain ⟨q, _, rfl⟩ := Option.map_eq_some_iff.1 this
  rfl

theorem failed_plain {e e' : Editor} (h : Failed e e') (key : Nat × Nat) (p : KernPair)
    (hp : e'.builder.horzKern.get key = some p) : p.cls = 0 := by
  have := h.horz key
  split at this
  · rw [hp] at this; rw [Option.some.inj this]
  · rcases this with h | ⟨h, _⟩
    · rw [hp] at h; cases h
    · rw [hp] at h; rw [Option.some.inj h]

end Spec
