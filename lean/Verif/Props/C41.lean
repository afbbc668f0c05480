import Verif.Lemmas.BuiltRewrites
import Verif.Lemmas.Calls
import Verif.Lemmas.GoMap
import Verif.Spec.SetEdits
import Verif.Spec.SampleRules

/-!
# C41: editing rewrite sets in the builder takes effect

It does not. Removing a range or a glyph from a set never changes anything and reports success, removing
a set makes every later `Build` fail, and no set of code points can be created. Additions are right.
-/

namespace C41
open Go Spec BuilderModel Builder

/-- Removing a range never changes the set, and the result tells whether the range is in it. -/
theorem range_unchanged (b : Builder) (setUID first last : Nat) :
    SameSets b (b.removeGlyphSetRange setUID first last).1 ∧
    ((b.removeGlyphSetRange setUID first last).2 = true ↔ (first, last) ∈ b.eachGlyphSetRange setUID) := by
  rw [removeGlyphSetRange, eachGlyphSetRange]
  cases hg : b.glyphSets.get setUID with
  | none => simp [SameSets]
  | some gs =>
    simp only
    cases hf : gs.ranges.findIdx? fun r => r.1 = first ∧ r.2 = last with
    | none =>
      refine ⟨fun _ => rfl, by simp, fun hm => ?_⟩
      rw [List.findIdx?_eq_none_iff] at hf
      have := hf _ hm
      simp at this
    | some i =>
      refine ⟨fun u => ?_, fun _ => ?_, fun _ => rfl⟩
      · by_cases hu : u = setUID
        · subst hu
          simp only [slicesDelete, List.take_append_drop]
          rw [GoMap.get_set_self, hg]
        · exact GoMap.get_set_ne _ _ hu
      · rw [List.findIdx?_eq_some_iff_getElem] at hf
        obtain ⟨hi, h1, _⟩ := hf
        simp only [decide_eq_true_eq] at h1
        have := List.getElem_mem hi
        rw [show gs.ranges[i] = (first, last) from Prod.ext h1.1 h1.2] at this
        exact this

/-- Removing a range that is in the set never works. -/
theorem range_violated (b : Builder) (setUID first last : Nat)
    (h : (first, last) ∈ b.eachGlyphSetRange setUID) :
    ¬ RangeRemoved b (b.removeGlyphSetRange setUID first last).1 setUID first last := by
  rintro ⟨h1, _⟩
  have : (b.removeGlyphSetRange setUID first last).1.eachGlyphSetRange setUID =
      b.eachGlyphSetRange setUID := by
    rw [eachGlyphSetRange, (range_unchanged b setUID first last).1 setUID]; rfl
  rw [this] at h1
  rw [h1] at h
  simp at h

/-- It works (and reports so) only when there is nothing to remove. -/
theorem range_partial (b : Builder) (setUID first last : Nat)
    (h : (first, last) ∉ b.eachGlyphSetRange setUID) :
    RangeRemoved b (b.removeGlyphSetRange setUID first last).1 setUID first last ∧
    (b.removeGlyphSetRange setUID first last).2 = false := by
  obtain ⟨h1, h2⟩ := range_unchanged b setUID first last
  refine ⟨⟨?_, ?_, fun u _ => h1 u⟩, by rw [← Bool.not_eq_true, h2]; exact h⟩
  · rw [eachGlyphSetRange, h1 setUID, ← eachGlyphSetRange]
    symm
    rw [List.filter_eq_self]
    intro r hr
    simp only [decide_eq_true_eq]
    rintro rfl
    exact h hr
  · rw [eachGlyphSetListGlyph, h1 setUID, ← eachGlyphSetListGlyph]

/-- The same for glyphs of the list. -/
theorem glyph_unchanged (b : Builder) (setUID uid : Nat) :
    SameSets b (b.removeGlyphSetListGlyph setUID uid).1 ∧
    ((b.removeGlyphSetListGlyph setUID uid).2 = true ↔ uid ∈ b.eachGlyphSetListGlyph setUID) := by
  rw [removeGlyphSetListGlyph, eachGlyphSetListGlyph]
  cases hg : b.glyphSets.get setUID with
  | none => simp [SameSets]
  | some gs =>
    simp only
    cases hf : gs.list.findIdx? fun u => u = uid with
    | none =>
      refine ⟨fun _ => rfl, by simp, fun hm => ?_⟩
      rw [List.findIdx?_eq_none_iff] at hf
      have := hf _ hm
      simp at this
    | some i =>
      refine ⟨fun u => ?_, fun _ => ?_, fun _ => rfl⟩
      · by_cases hu : u = setUID
        · subst hu
          simp only [slicesDelete, List.take_append_drop]
          rw [GoMap.get_set_self, hg]
        · exact GoMap.get_set_ne _ _ hu
      · rw [List.findIdx?_eq_some_iff_getElem] at hf
        obtain ⟨hi, h1, _⟩ := hf
        simp only [decide_eq_true_eq] at h1
        have := List.getElem_mem hi
        rw [h1] at this
        exact this

theorem glyph_violated (b : Builder) (setUID uid : Nat) (h : uid ∈ b.eachGlyphSetListGlyph setUID) :
    ¬ GlyphRemoved b (b.removeGlyphSetListGlyph setUID uid).1 setUID uid := by
  rintro ⟨h1, _⟩
  have : (b.removeGlyphSetListGlyph setUID uid).1.eachGlyphSetListGlyph setUID =
      b.eachGlyphSetListGlyph setUID := by
    rw [eachGlyphSetListGlyph, (glyph_unchanged b setUID uid).1 setUID]; rfl
  rw [this] at h1
  rw [h1] at h
  simp at h

theorem glyph_partial (b : Builder) (setUID uid : Nat) (h : uid ∉ b.eachGlyphSetListGlyph setUID) :
    GlyphRemoved b (b.removeGlyphSetListGlyph setUID uid).1 setUID uid ∧
    (b.removeGlyphSetListGlyph setUID uid).2 = false := by
  obtain ⟨h1, h2⟩ := glyph_unchanged b setUID uid
  refine ⟨⟨?_, ?_, fun u _ => h1 u⟩, by rw [← Bool.not_eq_true, h2]; exact h⟩
  · rw [eachGlyphSetListGlyph, h1 setUID, ← eachGlyphSetListGlyph]
    symm
    rw [List.filter_eq_self]
    intro r hr
    simp only [decide_eq_true_eq]
    rintro rfl
    exact h hr
  · rw [eachGlyphSetRange, h1 setUID, ← eachGlyphSetRange]

/-- Removing a set removes that set and no other one. -/
theorem set_removed_partial (b : Builder) (setUID u : Nat) :
    (b.removeGlyphSet setUID).1.glyphSets.get u = (if u = setUID then none else b.glyphSets.get u) ∧
    ((b.removeGlyphSet setUID).2 = true ↔ (b.glyphSets.get setUID).isSome) := by
  rw [removeGlyphSet]
  cases hg : b.glyphSets.get setUID with
  | none =>
    refine ⟨?_, by simp⟩
    by_cases hu : u = setUID
    · rw [if_pos hu, hu]; exact hg
    · rw [if_neg hu]
  | some gs =>
    refine ⟨?_, by simp⟩
    by_cases hu : u = setUID
    · rw [if_pos hu, hu]; exact GoMap.get_delete_self _ _
    · rw [if_neg hu]; exact GoMap.get_delete_ne _ hu

/-- But `Build` fails from then on, whatever else the builder has. (Both lists have the same length
in every builder before the first removal, see `order_kept`.) -/
theorem set_violated (env : Env) (b : Builder) (setUID : Nat)
    (hlen : b.glyphSets.length = b.glyphSetsOrder.length)
    (h : (b.removeGlyphSet setUID).2 = true) (x : Builder × FontModel.Font) :
    (b.removeGlyphSet setUID).1.build env ≠ .ok x := by
  intro hb
  obtain ⟨s, w, bi, hB⟩ := build_parts (b' := x.1) (f := x.2) hb
  have hs := hB.glyphSets
  simp only [glyphSetsSection, ite_panic] at hs
  have e1 : x.1.glyphSets = (b.removeGlyphSet setUID).1.glyphSets := by rw [hB.b'_eq]
  have e2 : x.1.glyphSetsOrder = (b.removeGlyphSet setUID).1.glyphSetsOrder := by rw [hB.b'_eq]
  have h1 := hs.2.1
  rw [e1, e2] at h1
  rw [removeGlyphSet] at h h1
  cases hg : b.glyphSets.get setUID with
  | none => rw [hg] at h; simp at h
  | some gs =>
    rw [hg] at h1
    simp only [ne_eq, Decidable.not_not] at h1
    have hd : (b.glyphSets.delete setUID).keys.length < b.glyphSets.keys.length := by
      rw [GoMap.keys_delete]
      have hm : setUID ∈ b.glyphSets.keys := by
        have := GoMap.mem_of_get hg
        exact List.mem_map.2 ⟨_, this, rfl⟩
      exact List.length_filter_lt_length_iff_exists.2 ⟨setUID, hm, by simp⟩
    simp only [GoMap.keys, List.length_map] at hd
    omega

/-- Creating sets and adding to them keeps the two lists of the same length and the identifiers
unique. -/
theorem order_kept (b b' : Builder) (uid uid' : Nat) (h : b.createGlyphSet uid = .ok (b', uid')) :
    uid' = uid ∧ b'.glyphSetsOrder = b.glyphSetsOrder ++ [uid] ∧
    b'.glyphSets.length = b.glyphSets.length + 1 ∧
    (∀ u, b'.glyphSets.get u = if u = uid then some ⟨[], []⟩ else b.glyphSets.get u) := by
  simp only [createGlyphSet, ite_err, Res.ok.injEq, Prod.mk.injEq] at h
  obtain ⟨h1, h2, rfl, rfl⟩ := h
  have hn : b.glyphSets.get uid = none := by
    cases hg : b.glyphSets.get uid with
    | none => rfl
    | some _ => rw [hg] at h2; simp at h2
  refine ⟨rfl, rfl, ?_, fun u => ?_⟩
  · have h3 := GoMap.keys_set b.glyphSets uid (⟨[], []⟩ : GlyphSet)
    have h4 := congrArg List.length h3
    rw [if_neg (GoMap.get_eq_none.1 hn)] at h4
    simpa [GoMap.keys] using h4
  · by_cases hu : u = uid
    · rw [if_pos hu, hu]; exact GoMap.get_set_self _ _ _
    · rw [if_neg hu]; exact GoMap.get_set_ne _ _ hu

/-- Adding a range adds exactly that range to exactly that set. -/
theorem range_added (b b' : Builder) (setUID first last : Nat)
    (h : b.addGlyphSetRange setUID first last = .ok b') :
    b'.eachGlyphSetRange setUID = b.eachGlyphSetRange setUID ++ [(first, last)] ∧
    (first, last) ∉ b.eachGlyphSetRange setUID ∧
    b'.eachGlyphSetListGlyph setUID = b.eachGlyphSetListGlyph setUID ∧
    b'.glyphSetsOrder = b.glyphSetsOrder ∧
    ∀ u, u ≠ setUID → b'.glyphSets.get u = b.glyphSets.get u := by
  rw [addGlyphSetRange] at h
  simp only [eachGlyphSetRange, eachGlyphSetListGlyph]
  cases hg : b.glyphSets.get setUID with
  | none => rw [hg] at h; simp at h
  | some gs =>
    rw [hg] at h
    simp only [ite_err, Res.ok.injEq] at h
    obtain ⟨_, _, _, h4, rfl⟩ := h
    simp only [GoMap.get_set_self]
    refine ⟨trivial, fun hm => h4 ?_, trivial, trivial, fun u hu => GoMap.get_set_ne _ _ hu⟩
    rw [List.any_eq_true]
    exact ⟨_, hm, by simp⟩

/-- Adding a glyph adds exactly that glyph to exactly that set. -/
theorem glyph_added (b b' : Builder) (setUID uid : Nat)
    (h : b.addGlyphSetListGlyph setUID uid = .ok b') :
    b'.eachGlyphSetListGlyph setUID = b.eachGlyphSetListGlyph setUID ++ [uid] ∧
    uid ∉ b.eachGlyphSetListGlyph setUID ∧
    b'.eachGlyphSetRange setUID = b.eachGlyphSetRange setUID ∧
    b'.glyphSetsOrder = b.glyphSetsOrder ∧
    ∀ u, u ≠ setUID → b'.glyphSets.get u = b.glyphSets.get u := by
  rw [addGlyphSetListGlyph] at h
  simp only [eachGlyphSetRange, eachGlyphSetListGlyph]
  cases hg : b.glyphSets.get setUID with
  | none => rw [hg] at h; simp at h
  | some gs =>
    rw [hg] at h
    simp only [ite_err, Res.ok.injEq] at h
    obtain ⟨_, _, h4, rfl⟩ := h
    simp only [GoMap.get_set_self]
    exact ⟨trivial, h4, trivial, trivial, fun u hu => GoMap.get_set_ne _ _ hu⟩

/-- No set of code points can be created: there is an error or a panic. -/
theorem rune_set_violated (b : Builder) (uid : Nat) (x : Builder × Nat) :
    b.createRuneSet uid ≠ .ok x := by
  rw [createRuneSet]
  split
  · simp
  · split <;> simp

/-- In a fresh builder it is a panic. -/
theorem rune_set_witness : Sample.fresh.createRuneSet 5 = .panic "assignment to entry in nil map" := by
  decide +kernel

/-- Removing a range from a set of code points never changes any set, and the result tells whether the
range is in the set. -/
theorem rune_range_unchanged (b : Builder) (setUID : Nat) (first last : Int) :
    (∀ u, (b.removeRuneSetRange setUID first last).1.runeSets.get u = b.runeSets.get u) ∧
    ((b.removeRuneSetRange setUID first last).2 = true ↔ (first, last) ∈ b.eachRuneSetRange setUID) := by
  rw [removeRuneSetRange, eachRuneSetRange]
  cases hg : b.runeSets.get setUID with
  | none => simp
  | some rs =>
    simp only
    cases hf : rs.ranges.findIdx? fun r => r.1 = first ∧ r.2 = last with
    | none =>
      refine ⟨fun _ => rfl, by simp, fun hm => ?_⟩
      rw [List.findIdx?_eq_none_iff] at hf
      have := hf _ hm
      simp at this
    | some i =>
      refine ⟨fun u => ?_, fun _ => ?_, fun _ => rfl⟩
      · by_cases hu : u = setUID
        · subst hu
          simp only [slicesDelete, List.take_append_drop]
          rw [GoMap.get_set_self, hg]
        · exact GoMap.get_set_ne _ _ hu
      · obtain ⟨hi, hp, _⟩ := List.findIdx?_eq_some_iff_getElem.1 hf
        simp only [decide_eq_true_eq] at hp
        rw [← hp.1, ← hp.2]
        exact List.getElem_mem hi

/-- Nor does removing a single code point. -/
theorem rune_unchanged (b : Builder) (setUID : Nat) (c : Int) :
    (∀ u, (b.removeRuneSetListRune setUID c).1.runeSets.get u = b.runeSets.get u) ∧
    ((b.removeRuneSetListRune setUID c).2 = true ↔ c ∈ b.eachRuneSetListRune setUID) := by
  rw [removeRuneSetListRune, eachRuneSetListRune]
  cases hg : b.runeSets.get setUID with
  | none => simp
  | some rs =>
    simp only
    cases hf : rs.list.findIdx? fun u => u = c with
    | none =>
      refine ⟨fun _ => rfl, by simp, fun hm => ?_⟩
      rw [List.findIdx?_eq_none_iff] at hf
      have := hf _ hm
      simp at this
    | some i =>
      refine ⟨fun u => ?_, fun _ => ?_, fun _ => rfl⟩
      · by_cases hu : u = setUID
        · subst hu
          simp only [slicesDelete, List.take_append_drop]
          rw [GoMap.get_set_self, hg]
        · exact GoMap.get_set_ne _ _ hu
      · obtain ⟨hi, hp, _⟩ := List.findIdx?_eq_some_iff_getElem.1 hf
        simp only [decide_eq_true_eq] at hp
        rw [← hp]
        exact List.getElem_mem hi

/-- Removing a set of code points removes that set and no other one. -/
theorem rune_set_removed (b : Builder) (setUID u : Nat) :
    (b.removeRuneSet setUID).1.runeSets.get u = (if u = setUID then none else b.runeSets.get u) ∧
    ((b.removeRuneSet setUID).2 = true ↔ (b.runeSets.get setUID).isSome) := by
  rw [removeRuneSet]
  cases hg : b.runeSets.get setUID with
  | none =>
    refine ⟨?_, by simp⟩
    by_cases hu : u = setUID
    · rw [if_pos hu, hu]; exact hg
    · rw [if_neg hu]
  | some rs =>
    refine ⟨?_, by simp⟩
    by_cases hu : u = setUID
    · rw [if_pos hu, hu]; exact GoMap.get_delete_self _ _
    · rw [if_neg hu]; exact GoMap.get_delete_ne _ hu

/-- As none can be created, in a builder that can be reached every call on a set of code points finds no
set: the additions are refused, and the removals change nothing and say so. -/
theorem rune_sets_none {b : Builder} (hr : Reachable b) (uid : Nat) (x y : Int) :
    b.addRuneSetRange uid x y = .err "invalid rune set UID" ∧
    b.addRuneSetListRune uid x = .err "invalid rune set UID" ∧
    b.removeRuneSet uid = (b, false) ∧ b.removeRuneSetRange uid x y = (b, false) ∧
    b.removeRuneSetListRune uid x = (b, false) ∧
    b.eachRuneSetRange uid = [] ∧ b.eachRuneSetListRune uid = [] := by
  have h : b.runeSets.get uid = none := by rw [hr.calls.runeSets]; rfl
  simp [addRuneSetRange, addRuneSetListRune, removeRuneSet, removeRuneSetRange, removeRuneSetListRune,
    eachRuneSetRange, eachRuneSetListRune, h]

/-- With a set of code points that has a range and a code point. -/
example :
    let b := { Sample.fresh with runeSets := [(5, ⟨[(97, 122)], [48]⟩)] }
    (b.removeRuneSetRange 5 97 122).2 = true ∧ (b.removeRuneSetRange 5 97 121).2 = false ∧
    (b.removeRuneSetRange 5 97 122).1.eachRuneSetRange 5 = [(97, 122)] ∧
    (b.removeRuneSetListRune 5 48).2 = true ∧ (b.removeRuneSetListRune 5 49).2 = false ∧
    (b.removeRuneSetListRune 5 48).1.eachRuneSetListRune 5 = [48] ∧
    (b.removeRuneSet 5).2 = true ∧ (b.removeRuneSet 6).2 = false := by
  decide +kernel

/-- With a set that has a range and a glyph, all three removals report success. Afterwards the range
and the glyph are still there, and `Build` panics after the third. -/
theorem removal_witness :
    (Sample.withSet.removeGlyphSetRange 77 1001 1002).2 = true ∧
    (Sample.withSet.removeGlyphSetRange 77 1001 1002).1.eachGlyphSetRange 77 = [(1001, 1002)] ∧
    (Sample.withSet.removeGlyphSetListGlyph 77 1004).2 = true ∧
    (Sample.withSet.removeGlyphSetListGlyph 77 1004).1.eachGlyphSetListGlyph 77 = [1004] ∧
    (Sample.withSet.removeGlyphSet 77).2 = true ∧
    (Sample.withSet.build Sample.env).isOk = true ∧
    (Sample.withSet.removeGlyphSet 77).1.build Sample.env = .panic "invalid internal state" := by
  decide +kernel

end C41
