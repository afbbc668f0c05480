import Verif.Lemmas.BuiltMapping
import Verif.Spec.SampleBuilder

/-!
# C22: mapping group selection returns the group's glyphs

Holds for single glyphs and ranges. For lists the choice is multiplied by 4 instead of 2, so that
only the first choice is right; and the animation flags are read one byte too far.
-/

namespace C22
open Go Spec FontModel BuilderModel

/-- The size is that of the stored group, for all groups. -/
theorem size_exact (f : Font) (g : Font.Group) (st : Stored) (hd : g.direct = false)
    (h : At f.data g.offset st.bytes) (hv : st.Valid) : f.groupSize g = .ok st.glyphs.length :=
  BuilderModel.groupSize_eq hd h hv

/-- Choices outside the group panic, for all groups. -/
theorem select_outside (f : Font) (g : Font.Group) (st : Stored) (hd : g.direct = false)
    (h : At f.data g.offset st.bytes) (hv : st.Valid) (i : Nat) (hi : st.glyphs.length ≤ i) :
    (f.groupSelect g i).isPanic = true :=
  BuilderModel.groupSelect_out hd h hv hi

/-- Single glyphs and ranges: every choice gives its glyph. Lists: only choice 0 does. -/
theorem select_partial (f : Font) (g : Font.Group) (st : Stored) (hd : g.direct = false)
    (h : At f.data g.offset st.bytes) (hv : st.Valid) (i : Nat) (hi : i < st.glyphs.length)
    (hlist : ∀ fl gs, st = .list fl gs → i = 0) : f.groupSelect g i = .ok st.glyphs[i] := by
  cases st with
  | single x =>
    have : i = 0 := by simp [Stored.glyphs] at hi; exact hi
    subst this
    exact BuilderModel.groupSelect_single hd h hv
  | range n fl x =>
    rw [BuilderModel.groupSelect_range hd h hv (by simpa [Stored.glyphs] using hi)]
    simp [Stored.glyphs]
  | list fl gs =>
    obtain rfl := hlist _ _ rfl
    rw [BuilderModel.groupSelect_list hd h hv hi, Stored'.rd_list h hv hi]
    rfl

/-- What choice `i` of a list gives instead, as long as it is inside of the list: glyph `2 * i`. -/
theorem select_list (f : Font) (g : Font.Group) (fl : UInt8) (gs : List Nat) (hd : g.direct = false)
    (h : At f.data g.offset (Stored.list fl gs).bytes) (hv : (Stored.list fl gs).Valid) (i : Nat)
    (hi : 2 * i < gs.length) : f.groupSelect g i = .ok gs[2 * i] := by
  rw [BuilderModel.groupSelect_list hd h hv (by omega), ← Stored'.rd_list h hv hi]
  congr 1
  omega

/-- The second glyph of the list for F, which is 1, cannot be selected: choice 1 gives the third glyph
and choice 2 is read from the section that follows. -/
theorem select_violated : let f := (Sample.result Sample.mapped).2
    (∃ b', Sample.mapped.build Sample.env = .ok (b', f)) ∧
    Sample.mapped.runeMapping.get 70 = some ⟨254, [⟨[1001, 1002, 1004], 9⟩]⟩ ∧
    Sample.chosen f 70 [0] 0 = .ok (some 0) ∧ Sample.chosen f 70 [0] 1 = .ok (some 3) ∧
    Sample.chosen f 70 [0] 2 = .ok (some 0) := by
  refine ⟨⟨(Sample.result Sample.mapped).1, ?_⟩, ?_⟩ <;> decide +kernel

/-- Single glyphs have no flags. -/
theorem flags_partial (f : Font) (g : Font.Group) (x : Nat) (hd : g.direct = false)
    (h : At f.data g.offset (Stored.single x).bytes) (hv : (Stored.single x).Valid) :
    f.groupAnimFlags g = .ok (Stored.single x).flags := by
  rw [BuilderModel.groupAnimFlags_eq hd h hv]; rfl

/-- For the other groups, the low byte of the first glyph is returned instead of the flags. -/
theorem flags_wrong (f : Font) (g : Font.Group) (st : Stored) (hd : g.direct = false)
    (h : At f.data g.offset st.bytes) (hv : st.Valid) (h2 : 2 ≤ st.glyphs.length) :
    f.groupAnimFlags g = .ok (st.glyphs[0] % 256) := by
  rw [BuilderModel.groupAnimFlags_eq hd h hv, if_neg (by omega)]
  cases st with
  | single x => simp [Stored.glyphs] at h2
  | range n fl x =>
    obtain ⟨h1, _, h3⟩ := id hv
    have h4 := (At.cons.1 (At.cons.1 h).2).2
    rw [show g.offset + 2 = g.offset + 1 + 1 from rfl, h4.rd8, ofNat_small (Nat.mod_lt _ (by decide))]
    simp [Stored.glyphs]
  | list fl gs =>
    cases gs with
    | nil => simp [Stored.glyphs] at h2
    | cons a gs =>
      have h4 := (At.cons.1 (At.cons.1 h).2).2
      rw [List.map_cons, List.flatten_cons] at h4
      rw [show g.offset + 2 = g.offset + 1 + 1 from rfl, h4.left.rd8,
        ofNat_small (Nat.mod_lt _ (by decide))]
      rfl

/-- The flags of the range for E are 9, those returned are 0. -/
theorem flags_violated : let f := (Sample.result Sample.mapped).2
    (∃ b', Sample.mapped.build Sample.env = .ok (b', f)) ∧
    Sample.mapped.runeMapping.get 69 = some ⟨254, [⟨[1003, 1002, 1001], 9⟩]⟩ ∧
    Sample.animFlags f 69 [0] = .ok (some 0) := by
  refine ⟨⟨(Sample.result Sample.mapped).1, ?_⟩, ?_⟩ <;> decide +kernel

/-- The order in which glyphs are given to `MapGroup` is not kept: the glyphs 1003, 1002, 1001 have
indices 2, 1, 0 and are stored as a range from 0. -/
theorem order_violated : let f := (Sample.result Sample.mapped).2
    Sample.mapped.glyphOrder = [1001, 1002, 1003, 1004] ∧
    Sample.mapped.runeMapping.get 69 = some ⟨254, [⟨[1003, 1002, 1001], 9⟩]⟩ ∧
    Sample.chosen f 69 [0] 0 = .ok (some 0) ∧ Sample.chosen f 69 [0] 1 = .ok (some 1) ∧
    Sample.chosen f 69 [0] 2 = .ok (some 2) := by
  decide +kernel

/-- Groups of the three kinds. -/
example : (Stored.single 300).Valid ∧ (Stored.range 3 9 256).Valid ∧ (Stored.list 9 [4, 300, 7]).Valid ∧
    (Stored.single 300).bytes = [0, 44, 1] ∧ (Stored.range 3 9 256).bytes = [130, 9, 0, 1] ∧
    (Stored.list 9 [4, 300, 7]).bytes = [2, 9, 4, 0, 44, 1, 7, 0] ∧
    (Stored.range 3 9 256).glyphs = [256, 257, 258] := by
  refine ⟨?_, ?_, ?_, ?_⟩
  · exact (by decide : 300 < 65536)
  · exact ⟨by decide, by decide, by decide⟩
  · exact ⟨by decide, by decide, by decide⟩
  · decide

end C22
