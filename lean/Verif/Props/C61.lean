import Verif.Lemmas.BuildParts
import Verif.Spec.Exporting
import Verif.Spec.SampleRejected
import Verif.Props.C58

/-!
# C61: `Export` reports success exactly when everything was written
-/

namespace C61
open Go FontModel BuilderModel Spec

/-- `Export` returns no error exactly when both writers took all the bytes and closing succeeded. -/
theorem export_ok (f : Font) (raw gz : Bytes → Written) (close : Option String) :
    (f.export raw gz close).1 = none ↔ Takes raw fileSignature ∧ Takes gz f.data ∧ close = none := by
  simp only [Font.export, Takes, fileSignature]
  cases h1 : (raw [116, 103, 103, 102, 110, 116]).err with
  | some m => simp
  | none =>
    simp only [true_and]
    by_cases h2 : (raw [116, 103, 103, 102, 110, 116]).n = 6
    · rw [if_neg (by simpa using h2)]
      cases h3 : (gz f.data).err with
      | some m => simp
      | none =>
        by_cases h4 : (gz f.data).n = f.data.length
        · rw [if_neg (by simpa using h4)]
          simp [h2, h4]
        · rw [if_pos h4]; simp [h4]
    · rw [if_pos h2]; simp [h2]

/-- What was written then is the signature, and the compressed data of the font. -/
theorem export_written {f : Font} {raw gz : Bytes → Written} {close : Option String}
    (h : (f.export raw gz close).1 = none) : (f.export raw gz close).2 = (fileSignature, f.data) := by
  obtain ⟨⟨h1, h2⟩, ⟨h3, h4⟩, rfl⟩ := (export_ok f raw gz close).1 h
  simp only [fileSignature] at h1 h2
  simp only [Font.export, h1, h3]
  rw [if_neg (by simpa using h2), if_neg (by simpa using h4)]
  rfl

/-- Otherwise the error is that of the first step that failed, and nothing is written after it. -/
theorem export_error (f : Font) (raw gz : Bytes → Written) (close : Option String) :
    (∀ m, (raw fileSignature).err = some m → f.export raw gz close = (some m, fileSignature, [])) ∧
    ((raw fileSignature).err = none → (raw fileSignature).n ≠ 6 →
      f.export raw gz close = (some "short write", fileSignature, [])) ∧
    (Takes raw fileSignature → ∀ m, (gz f.data).err = some m → f.export raw gz close = (some m, fileSignature, f.data)) ∧
    (Takes raw fileSignature → (gz f.data).err = none → (gz f.data).n ≠ f.data.length →
      f.export raw gz close = (some "short write", fileSignature, f.data)) ∧
    (Takes raw fileSignature → Takes gz f.data → f.export raw gz close = (close, fileSignature, f.data)) := by
  simp only [Takes, fileSignature]
  refine ⟨fun m h => ?_, fun h1 h2 => ?_, fun ⟨h1, h2⟩ m h3 => ?_, fun ⟨h1, h2⟩ h3 h4 => ?_, fun ⟨h1, h2⟩ ⟨h3, h4⟩ => ?_⟩
  · simp only [Font.export, h]
  · simp only [Font.export, h1, if_pos h2]
  · simp only [Font.export, h1, h3]
    rw [if_neg (by simpa using h2)]
  · simp only [Font.export, h1, h3]
    rw [if_neg (by simpa using h2), if_pos h4]
  · simp only [Font.export, h1, h3]
    rw [if_neg (by simpa using h2), if_neg (by simpa using h4)]

/-- Writers that keep the contract of `io.Writer` never lead to the error about short writes, unless it is
their own. -/
theorem contract {f : Font} {raw gz : Bytes → Written} {close : Option String} (hr : Contract raw) (hz : Contract gz) {m : String}
    (h : (f.export raw gz close).1 = some m) :
    (raw fileSignature).err = some m ∨ (gz f.data).err = some m ∨ close = some m := by
  obtain ⟨e1, e2, e3, e4, e5⟩ := export_error f raw gz close
  have key : ∀ {w : Bytes → Written} {x : Bytes}, Contract w → (w x).err = none → (w x).n = x.length := by
    intro w x hw he
    have := hw x
    have : ¬ (w x).n < x.length := fun hl => this.2 hl he
    omega
  cases h1 : (raw fileSignature).err with
  | some n => rw [e1 n h1] at h; exact Or.inl (by rw [← h])
  | none =>
    have t1 : Takes raw fileSignature := ⟨h1, key hr h1⟩
    cases h2 : (gz f.data).err with
    | some n => rw [e3 t1 n h2] at h; exact Or.inr (Or.inl (by rw [← h]))
    | none => rw [e5 t1 ⟨h2, key hz h2⟩] at h; exact Or.inr (Or.inr h)

/-- `Export` of a builder writes the font of `Build`, and succeeds exactly when `Build` does and everything is written. -/
theorem builder_ok (b : Builder) (env : Env) (raw gz : Bytes → Written) (close : Option String) (b' : Builder) (p z : Bytes) :
    b.export env raw gz close = .ok (some b', ⟨none, p, z⟩) ↔
      ∃ f, b.build env = .ok (b', f) ∧ Takes raw fileSignature ∧ Takes gz f.data ∧ close = none ∧
        p = fileSignature ∧ z = f.data := by
  unfold Builder.export
  cases hb : b.build env with
  | ok r =>
    obtain ⟨b1, f⟩ := r
    simp only [Res.ok.injEq, Prod.mk.injEq, Exporting.mk.injEq, Option.some.injEq]
    constructor
    · rintro ⟨rfl, h1, h2, h3⟩
      obtain ⟨t1, t2, t3⟩ := (export_ok f raw gz close).1 h1
      have := export_written h1
      exact ⟨f, ⟨rfl, rfl⟩, t1, t2, t3, by rw [← h2, this], by rw [← h3, this]⟩
    · rintro ⟨f', ⟨rfl, rfl⟩, t1, t2, t3, rfl, rfl⟩
      have h1 := (export_ok f raw gz close).2 ⟨t1, t2, t3⟩
      rw [h1, export_written h1]
      simp
  | err m => simp
  | panic m => simp

/-- Errors of `Build` are returned, before anything is written. -/
theorem builder_error {b : Builder} {env : Env} {m : String} (h : b.build env = .err m) (raw gz : Bytes → Written)
    (close : Option String) : b.export env raw gz close = .ok (none, ⟨some m, [], []⟩) := by
  rw [Builder.export, h]

/-- It panics exactly when `Build` does. -/
theorem builder_panics (b : Builder) (env : Env) (raw gz : Bytes → Written) (close : Option String) (m : String) :
    b.export env raw gz close = .panic m ↔ b.build env = .panic m := by
  unfold Builder.export
  cases b.build env <;> simp

/-- A second export writes the same, also after a first one that failed to write. -/
theorem builder_again {b b' : Builder} {env : Env} {f : Font} (h : b.build env = .ok (b', f)) (raw raw' gz gz' : Bytes → Written)
    (close close' : Option String) : ∃ x, b.export env raw gz close = .ok (some b', x) ∧
      b'.export env raw' gz' close' = b.export env raw' gz' close' := by
  refine ⟨⟨_, _, _⟩, by rw [Builder.export, h], ?_⟩
  rw [Builder.export, Builder.export, h, C58.again h]

/-- The hypotheses can be met, and can fail. -/
example : (∃ b' x, Sample.oneGlyph.export Sample.env willing willing none = .ok (some b', x) ∧ x.error = none ∧
      x.plain = fileSignature ∧ x.zipped ≠ []) ∧
    (∃ b' x, Sample.oneGlyph.export Sample.env willing (full 20) none = .ok (some b', x) ∧
      x.error = some "no space left on device" ∧ x.plain = fileSignature) ∧
    (∃ b' x, Sample.oneGlyph.export Sample.env (full 3) willing none = .ok (some b', x) ∧
      x.error = some "no space left on device" ∧ x.zipped = []) ∧
    Sample.fresh.export Sample.env willing willing none = .ok (none, ⟨some "can't build font with no glyphs", [], []⟩) ∧
    Contract willing ∧ Contract (full 20) := by
  refine ⟨⟨(Sample.result Sample.oneGlyph).1, ⟨none, fileSignature, (Sample.result Sample.oneGlyph).2.data⟩, by decide +kernel⟩,
    ⟨(Sample.result Sample.oneGlyph).1, ⟨some "no space left on device", fileSignature, (Sample.result Sample.oneGlyph).2.data⟩, by decide +kernel⟩,
    ⟨(Sample.result Sample.oneGlyph).1, ⟨some "no space left on device", fileSignature, []⟩, by decide +kernel⟩,
    by decide +kernel, fun x => ?_, fun x => ?_⟩
  · simp [willing]
  · simp only [full]; split <;> simp <;> omega

end C61
