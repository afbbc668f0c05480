import Verif.Lemmas.ReadsOnly
import Verif.Lemmas.BrokenReader
import Verif.Spec.SampleFont

/-!
# C13: Parse rejects trailing data and truncated files

The code violates both parts. Trailing bytes are never rejected with an error: they are accepted or
make `Parse` panic. Files cut inside one of the two kerning counts (or just before one) are accepted.
-/

namespace C13
open Go ParseBuf ParseBuf.Prog ParseModel FontModel Spec

/-- The sample font is one. -/
theorem tiny_whole : Whole tinyFont tinyParsed :=
  ⟨by decide +kernel, ⟨⟨[⟨tinyFont, .nil⟩], .eof⟩, fun _ => 0,
    ⟨by decide, rfl, ⟨[], by simp, rfl⟩, by simp [StallFree, tinyFont]⟩, by decide +kernel⟩,
    by decide +kernel⟩

/-- A font with a byte after its end is accepted. -/
theorem trailing_violated : ∃ D x r f junk, Whole D tinyParsed ∧ x ≠ [] ∧ Reader.Serves r (D ++ x) ∧
    parseStream junk r = .ok f :=
  ⟨tinyFont, [7], ⟨[⟨tinyFont ++ [7], .nil⟩], .eof⟩, { tinyParsed with data := tinyFont ++ [7] },
    fun _ => 0, tiny_whole, by simp, ⟨by decide, rfl, ⟨[], by simp, rfl⟩, by simp [StallFree, tinyFont]⟩,
    by decide +kernel⟩

/-- Whatever follows a whole font, and however it is read, `Parse` never returns an error: it
accepts the file or panics. -/
theorem trailing_never_rejected {D x : Bytes} {f : Font} (h : Whole D f)
    (hx : (D ++ x).length ≤ maxFontDataSize) {r : Reader} (hr : r.Serves (D ++ x))
    (junk : Nat → UInt8) (m : String) : parseStream junk r ≠ .err m := by
  obtain ⟨f0, h1, _, _, h2⟩ := whole_flat h
  have hl : parseBody.flat (D ++ x) 0 0 = .ok (f0, D.length, D.length) :=
    parseBody_local h.1 h1 (by simp) (by simp) (Or.inl h2)
  rcases parseStream_flat junk hr hx with ⟨m, a, _⟩ | ⟨f1, i, s, _, _, _, c1⟩
  · rw [hl] at a; simp at a
  · rcases c1 with ⟨_, c⟩ | ⟨c, _⟩ <;> rw [c] <;> simp

example : Whole tinyFont tinyParsed ∧ (tinyFont ++ [1, 2, 3]).length ≤ maxFontDataSize ∧
    (⟨[⟨tinyFont, .nil⟩, ⟨[1, 2], .nil⟩, ⟨[3], .eof⟩], .eof⟩ : Reader).Serves (tinyFont ++ [1, 2, 3]) :=
  ⟨tiny_whole, by decide +kernel, by decide, rfl, ⟨[1, 2, 3], rfl, [3], rfl, rfl⟩,
    by simp [StallFree, tinyFont]⟩

/-- A font cut short is accepted. -/
theorem truncated_violated : ∃ D n r f junk, Whole D tinyParsed ∧ n < D.length ∧
    Reader.Serves r (D.take n) ∧ parseStream junk r = .ok f :=
  ⟨tinyFont, 70, ⟨[⟨tinyFont.take 70, .nil⟩], .eof⟩,
    { tinyParsed with data := tinyFont.take 70, offVertKern := 69 },
    fun _ => 0, tiny_whole, by decide +kernel,
    ⟨by decide, rfl, ⟨[], by simp, rfl⟩, by simp [StallFree, tinyFont]⟩, by decide +kernel⟩

/-- Exactly which cut points are noticed, for every font and every reader: all except those that lie
at the start of or inside one of the two kerning counts. Those are accepted; all others are rejected
with an error (and never panic). -/
theorem truncated_partial {D : Bytes} {f : Font} (h : Whole D f) {n : Nat} (hn : n < D.length)
    {r : Reader} (hr : r.Serves (D.take n)) (junk : Nat → UInt8) :
    (∃ f', parseStream junk r = .ok f') ∧
      (f.offHorzKern ≤ n ∧ n < f.offHorzKern + 3 ∨ f.offVertKern ≤ n ∧ n < f.offVertKern + 3) ∨
    (∃ m, parseStream junk r = .err m) ∧
      ¬ (f.offHorzKern ≤ n ∧ n < f.offHorzKern + 3 ∨ f.offVertKern ≤ n ∧ n < f.offVertKern + 3) := by
  obtain ⟨f0, h1, ev, eh, h2⟩ := whole_flat h
  have hDn : (D.take n).length ≤ maxFontDataSize := by
    have := h.1; rw [List.length_take]; omega
  have hl : (D.take n).length = n := by rw [List.length_take]; omega
  rw [ev, eh]
  rcases parseBody_take h.1 h1 h2 hn with ⟨⟨f', a, b⟩, c⟩ | ⟨a, c⟩
  · exact Or.inl ⟨parseStream_cut junk hr hDn a (by rw [hl]; exact b), c⟩
  · refine Or.inr ⟨?_, c⟩
    rcases parseStream_flat junk hr hDn with ⟨m, _, b⟩ | ⟨f1, i, s, b, _⟩
    · exact ⟨m, b⟩
    · exact absurd b (a _)

example : Whole tinyFont tinyParsed ∧ 60 < tinyFont.length ∧
    (⟨[⟨tinyFont.take 9, .nil⟩, ⟨(tinyFont.take 60).drop 9, .nil⟩], .eof⟩ : Reader).Serves (tinyFont.take 60) :=
  ⟨tiny_whole, by decide +kernel, by decide, rfl, ⟨(tinyFont.take 60).drop 9, rfl, [], rfl, rfl⟩,
    by simp [StallFree, tinyFont]⟩

/-- A file whose compressed stream is broken (cut, or with a wrong checksum: the reader gives an error instead of
the end of the file) is never accepted, even if all the bytes of a font were read before, and whatever is
ignored while reading the kerning tables. -/
theorem broken_rejected (junk : Nat → UInt8) (first : Ev) {r : Reader} (hr : r.Broken) (f : Font) :
    parse junk first (.ok r) ≠ .ok f := by
  unfold parse
  split
  · simp
  · split
    · simp
    · exact parseStream_endless junk hr f

/-- All of the sample font, then a wrong checksum. -/
example : (⟨[⟨tinyFont, .nil⟩], .err "gzip: invalid checksum"⟩ : Reader).Broken ∧
    parse (fun _ => 0) ⟨[116, 103, 103, 102, 110, 116], .nil⟩
      (.ok ⟨[⟨tinyFont, .nil⟩], .err "gzip: invalid checksum"⟩) = .err "gzip: invalid checksum" :=
  ⟨⟨by decide, by decide⟩, by decide +kernel⟩

end C13
