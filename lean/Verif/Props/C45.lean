import Verif.Lemmas.ParseAccept
import Verif.Lemmas.ReadsOnly
import Verif.Spec.SampleFont

/-!
# C45: `Parse` accepts exactly the well-formed fonts

Well-formed data is accepted, with every section where its counts and end offsets put it; but so is other
data. `Tolerated` is the exact condition.
-/

namespace C45
open Go ParseBuf ParseModel FontModel Spec

/-- Well-formed data is accepted, and the offsets are those of its sections. -/
theorem wellFormed_accepted (junk : Nat → UInt8) {D : Bytes} {r : Reader} (hr : r.Serves D)
    (hD : D.length ≤ maxFontDataSize) {f : Font} (hf : f.data = D) (h : WellFormed D f) :
    parseStream junk r = .ok f :=
  (parseStream_checks junk hr hD hf h.layout h.kerning).1 h.checks

/-- Data whose sections fill it exactly is rejected unless the checks hold. -/
theorem checks_needed (junk : Nat → UInt8) {D : Bytes} {r : Reader} (hr : r.Serves D)
    (hD : D.length ≤ maxFontDataSize) {f : Font} (hf : f.data = D) (hL : Layout D f)
    (hK : KernLayout D f D.length) (hC : ¬ Checks D f) : ∃ m, parseStream junk r = .err m :=
  (parseStream_checks junk hr hD hf hL hK).2 hC

/-- For all data and readers: an error is returned exactly when the data cannot be tolerated. Missing: data that
is tolerated without being well-formed should be rejected. -/
theorem rejected_iff_partial (junk : Nat → UInt8) {D : Bytes} {r : Reader} (hr : r.Serves D)
    (hD : D.length ≤ maxFontDataSize) :
    (∃ m, parseStream junk r = .err m) ↔ ¬ ∃ f stop, Tolerated D f stop := by
  rcases parseStream_flat junk hr hD with ⟨m, h1, h2⟩ | ⟨f, i, s, h1, _, _, h3⟩
  · refine iff_of_true ⟨m, h2⟩ ?_
    rintro ⟨f, stop, h⟩
    have h := (parseBody_iff (f := { f with data := [] }) hD).2 ⟨rfl, rfl, h.setData []⟩
    rw [h1] at h
    cases h
  · refine iff_of_false ?_ fun hn => hn ⟨f, i, ((parseBody_iff hD).1 h1).2.2⟩
    rintro ⟨m, h⟩
    rcases h3 with ⟨_, h3⟩ | ⟨h3, _⟩ <;> rw [h3] at h <;> cases h

/-- The font that is returned: its offsets are those of the tolerated font, and its data contains this font
and is a prefix of what was served. -/
theorem accepted_partial (junk : Nat → UInt8) {D : Bytes} {r : Reader} (hr : r.Serves D)
    (hD : D.length ≤ maxFontDataSize) {f : Font} (h : parseStream junk r = .ok f) :
    ∃ stop, Tolerated D f stop ∧ f.data <+: D ∧ D.take stop <+: f.data := by
  rcases parseStream_flat junk hr hD with ⟨m, _, h2⟩ | ⟨f0, i, s, h1, _, hi, h3⟩
  · rw [h2] at h; cases h
  · rcases h3 with ⟨_, h3⟩ | ⟨h3, _⟩
    · rw [h3] at h
      cases h
      obtain ⟨_, _, t⟩ := (parseBody_iff hD).1 h1
      exact ⟨i, t.setData _, hi.dataBytes.trans hi.bytes, hi.data⟩
    · rw [h3] at h; cases h

/-- Tolerated data that ends where it should is accepted for every reader; if more follows, `Parse` may panic. -/
theorem tolerated (junk : Nat → UInt8) {D : Bytes} {r : Reader} (hr : r.Serves D)
    (hD : D.length ≤ maxFontDataSize) {f : Font} {stop : Nat} (h : Tolerated D f stop) :
    (∃ f', parseStream junk r = .ok f') ∨ (parseStream junk r = .panic "broken code" ∧ stop < D.length) := by
  have hb := (parseBody_iff (f := { f with data := [] }) hD).2 ⟨rfl, rfl, h.setData []⟩
  rcases parseStream_flat junk hr hD with ⟨m, h1, _⟩ | ⟨f0, i, s, h1, _, hi, h3⟩
  · rw [hb] at h1; cases h1
  · rw [hb] at h1
    cases h1
    rcases h3 with ⟨_, h3⟩ | ⟨h3, _, h4⟩
    · exact Or.inl ⟨_, h3⟩
    · exact Or.inr ⟨h3, h4⟩

/-- Files begin with the signature (`specification.md:51`, "tggfnt"); all others are rejected, whatever comes after it. -/
theorem signature (junk : Nat → UInt8) (first : Ev) (gz : Res Reader) :
    (first.status = .nil ∧ first.bytes = [0x74, 0x67, 0x67, 0x66, 0x6E, 0x74] → ∀ r, gz = .ok r →
      parse junk first gz = parseStream junk r) ∧
    (first.bytes ≠ [0x74, 0x67, 0x67, 0x66, 0x6E, 0x74] → ∃ m, parse junk first gz = .err m) := by
  refine ⟨fun ⟨h1, h2⟩ r hr => ?_, fun h => ?_⟩
  · simp [parse, h1, h2, hr]
  · unfold parse
    split
    · exact ⟨_, rfl⟩
    · exact ⟨_, rfl⟩

/-- Data that is no font is accepted: its kerning tables are missing. -/
theorem accepts_exactly_violated : ¬ ∀ (junk : Nat → UInt8) (D : Bytes) (r : Reader), r.Serves D →
    D.length ≤ maxFontDataSize → ∀ f, parseStream junk r = .ok f → WellFormed D f := by
  intro h
  have := h (fun _ => 0) (tinyFont.take 70) ⟨[⟨tinyFont.take 70, .nil⟩], .eof⟩
    ⟨by decide, rfl, ⟨[], by simp, rfl⟩, by simp [StallFree, tinyFont]⟩ (by decide +kernel)
    { tinyParsed with data := tinyFont.take 70, offVertKern := 69 } (by decide +kernel)
  have := this.kerning.vertKern
  revert this
  decide +kernel

/-- The sample font is well-formed, and is served by a reader. -/
example : WellFormed richFont richParsed ∧ richFont.length ≤ maxFontDataSize ∧ richParsed.data = richFont ∧
    Reader.Serves ⟨[⟨richFont, .nil⟩], .eof⟩ richFont := by
  have hs : Reader.Serves ⟨[⟨richFont, .nil⟩], .eof⟩ richFont :=
    ⟨by decide +kernel, rfl, ⟨[], by simp, rfl⟩, by simp [StallFree, richFont]⟩
  have hD : richFont.length ≤ maxFontDataSize := by decide +kernel
  have hp : parseStream (fun _ => 0) ⟨[⟨richFont, .nil⟩], .eof⟩ = .ok richParsed := by decide +kernel
  obtain ⟨stop, t, _, _⟩ := accepted_partial _ hs hD hp
  have k : KernLayout richFont richParsed richFont.length :=
    ⟨by decide +kernel, by decide +kernel, by decide +kernel⟩
  refine ⟨⟨t.layout, k, Checks.iff.2 ⟨t.checks, by decide +kernel, by decide +kernel⟩⟩, hD, rfl, hs⟩

end C45
