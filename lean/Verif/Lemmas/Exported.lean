import Verif.Spec.Exported
import Verif.Spec.Reachable
import Verif.Spec.SampleRejected
import Verif.Spec.SampleWords

/-! # Exported fonts -/

namespace Spec
open Go FontModel ParseBuf ParseModel BuilderModel

/-- A successful export hands out the signature and the data. -/
theorem export_ok {f : Font} {raw gz : Bytes → Written} {close : Option String}
    (h : (f.export raw gz close).1 = none) :
    (f.export raw gz close).2 = ([116, 103, 103, 102, 110, 116], f.data) := by
  unfold Font.export at h ⊢
  simp only at h ⊢
  split at h
  · cases h
  · split at h
    · cases h
    · rename_i h1 h2
      rw [if_neg h2]
      split at h
      · cases h
      · split at h
        · cases h
        · rename_i h3 h4
          rw [if_neg h4]

theorem Exported.parse {f : Font} {first : Ev} {gz : Res Reader} (h : Exported f first gz)
    (junk : Nat → UInt8) : ∃ r : Reader, r.Serves f.data ∧ ParseModel.parse junk first gz = parseStream junk r := by
  obtain ⟨raw, zip, close, he, hs, r, hr, hv⟩ := h
  rw [export_ok he] at hs hv
  refine ⟨r, hv, ?_⟩
  rw [hs, hr]
  rfl

/-- Every font can be exported and read. -/
theorem exists_exported (f : Font) : ∃ first gz, Exported f first gz := by
  have key : ∀ n (D : Bytes), D.length ≤ n → ∃ r : Reader, r.Serves D := by
    intro n
    induction n with
    | zero =>
      intro D hD
      refine ⟨⟨[], .eof⟩, by simp, rfl, ?_, trivial⟩
      exact List.length_eq_zero_iff.1 (by omega)
    | succ n ih =>
      intro D hD
      by_cases h0 : D = []
      · exact ⟨⟨[], .eof⟩, by simp, rfl, h0, trivial⟩
      · obtain ⟨r, hr⟩ := ih (D.drop 1) (by rw [List.length_drop]; omega)
        have hne : D.take 1 ≠ [] := by simp [h0]
        refine ⟨⟨⟨D.take 1, .nil⟩ :: r.evs, .eof⟩, ?_, rfl, ⟨D.drop 1, (List.take_append_drop 1 D).symm, hr.delivers⟩, ?_⟩
        · intro e he
          rcases List.mem_cons.1 he with rfl | he
          · rw [List.length_take]; omega
          · exact hr.fits e he
        · exact Or.inr ⟨fun h => hne h.2, hr.stallFree⟩
  obtain ⟨r, hr⟩ := key _ f.data (Nat.le_refl _)
  have he : (f.export (fun b => ⟨b.length, none⟩) (fun b => ⟨b.length, none⟩) none).1 = none := by
    simp [Font.export]
  refine ⟨⟨[116, 103, 103, 102, 110, 116], .nil⟩, .ok r, _, _, none, he, ?_⟩
  rw [export_ok he]
  exact ⟨rfl, r, rfl, hr⟩

theorem Reachable.call {b b' : Builder} (h : Reachable b) (c : Call b b') : Reachable b' := by
  obtain ⟨e, he, rfl⟩ := h
  exact ⟨_, he.call c, rfl⟩

theorem Reachable.fold {α : Type} {step : Builder → α → Res Builder}
    (hs : ∀ b x b', step b x = .ok b' → Call b b') :
    ∀ {l : List α} {b b' : Builder}, l.foldlM step b = .ok b' → Reachable b → Reachable b'
  | [], b, b', h, hr => by rw [List.foldlM_nil] at h; rw [← Res.ok.inj h]; exact hr
  | x :: l, b, b', h, hr => by
    rw [List.foldlM_cons] at h
    obtain ⟨c, h1, h2⟩ := Res.bind_eq_ok.1 h
    exact Reachable.fold hs h2 (hr.call (hs _ _ _ h1))

theorem env_fair : Fair Sample.env := ⟨fun _ _ => .refl _, fun _ => .refl _, fun _ => .refl _⟩
theorem env_zero : ∃ k, 0 < k ∧ k < 256 ∧ Sample.env.predef k = Sample.env.predef 0 := ⟨1, by decide, by decide, rfl⟩

theorem fresh_reachable : Reachable Sample.fresh :=
  ⟨_, .new (rolls := [0x9E3779B97F4A7C15]) (today := Sample.day) (b := Sample.fresh) (by decide +kernel), rfl⟩

theorem oneGlyph_reachable : Reachable Sample.oneGlyph :=
  fresh_reachable.call (.addGlyph (rolls := [1001]) (mask := Sample.dot) (uid := 1001) (by decide +kernel))

theorem switched_reachable : Reachable Sample.switched := by
  have g : ∀ {b b' : Builder} {u : Nat}, Reachable b → b.addGlyph [u] Sample.dot = .ok (b', u) → Reachable b' :=
    fun h e => h.call (.addGlyph e)
  have h2 : Reachable Sample.twoGlyphs := g (u := 1002) oneGlyph_reachable (by decide +kernel)
  have h3 : Reachable (Sample.val (Sample.fresh, 0) (Sample.twoGlyphs.addGlyph [1003] Sample.dot)).1 :=
    g (u := 1003) h2 (by decide +kernel)
  have h4 : Reachable Sample.fourGlyphs := g (u := 1004) h3 (by decide +kernel)
  have h5 := h4.call (.addSetting (name := ascii "style") (options := [ascii "off", ascii "on"])
    (b' := (Sample.val (Sample.fresh, 0) (Sample.fourGlyphs.addSetting (ascii "style") [ascii "off", ascii "on"])).1)
    (key := 0) (by decide +kernel))
  exact h5.call (.addSwitch (settings := [0]) (i := 0) (by decide +kernel))

theorem mapped_reachable : Reachable Sample.mapped := by
  have e : (do
      let b ← Sample.switched.mapWithSwitchSingles 65 0 [1003, 1001]
      let b ← b.mapWithSwitch 66 0 [[1001, 1003], [1004, 1002]] [5, 6]
      let b ← b.mapWithSwitch 67 0 [[1001, 1002], [1003, 1004]] [5, 6]
      let b ← b.map 68 1002
      let b ← b.mapGroup 69 9 [1003, 1002, 1001]
      b.mapGroup 70 9 [1001, 1002, 1004]) = .ok Sample.mapped := by decide +kernel
  simp only [Res.bind_eq_ok] at e
  obtain ⟨b1, e1, b2, e2, b3, e3, b4, e4, b5, e5, e6⟩ := e
  exact (((((switched_reachable.call (.mapWithSwitchSingles (by decide) e1)).call (.mapWithSwitch (by decide) e2)).call
    (.mapWithSwitch (by decide) e3)).call (.map (by decide) e4)).call (.mapGroup (by decide) e5)).call
    (.mapGroup (by decide) e6)

end Spec
