import Verif.Lemmas.ReadsOnly
import Verif.Spec.SampleFont

/-!
# C12: parsing does not depend on how the reader splits the data

`r.Serves D`: the reader `r` delivers exactly the bytes `D`, in chunks of any sizes up to the buffer
size, with at most two consecutive empty reads, and reports the end of the file either together with
the last bytes or later. `FInv D s i d`: the buffer `s` has been reading `D` and stands at `i`
(`FInv.init`: a fresh buffer is at 0).

It holds for all parsers, within the size limit. `Parse` itself violates it because of `EnsureEOF`:
whether bytes after the end of the font are noticed depends on the chunks.
-/

namespace C12
open Go ParseBuf ParseBuf.Prog ParseModel FontModel Spec

/-- Every parser made of reads has the same outcome on every reader for the same data: the same
value and consumed length, or the same error. -/
theorem reads_independent {α : Type} (p : Prog α) (hp : p.ReadsOnly) {D : Bytes}
    (hD : D.length ≤ maxFontDataSize) {r1 r2 : Reader} (h1 : r1.Serves D) (h2 : r2.Serves D)
    (j1 j2 : Nat → UInt8) :
    SameOutcome (p.exec j1 (PBuf.init r1)) (p.exec j2 (PBuf.init r2)) :=
  readsOnly_same hD p j1 j2 hp _ _ 0 0 0 (FInv.init h1) (FInv.init h2)

/-- One byte at a time with empty reads in between, and all at once with the end of the file. -/
example : (⟨[⟨[1], .nil⟩, ⟨[], .nil⟩, ⟨[2], .nil⟩, ⟨[], .nil⟩, ⟨[], .nil⟩, ⟨[3], .nil⟩], .eof⟩ : Reader).Serves
    [1, 2, 3] ∧ (⟨[⟨[1, 2, 3], .eof⟩], .eof⟩ : Reader).Serves [1, 2, 3] ∧
    (readUint8 >>= fun _ => readUint16).ReadsOnly := by
  refine ⟨⟨by decide, rfl, ?_, ?_⟩, ⟨by decide, rfl, rfl, ?_⟩, ?_⟩
  · exact ⟨[2, 3], rfl, [2, 3], rfl, [3], rfl, [3], rfl, [3], rfl, [], rfl, rfl⟩
  · simp [StallFree]
  · simp [StallFree]
  · refine ⟨fun _ => trivial, fun b => ?_⟩
    show (ofRes (rd8 b 0) >>= fun _ => readUint16).ReadsOnly
    cases rd8 b 0 with
    | ok v =>
      refine ⟨fun _ => trivial, fun c => ?_⟩
      show (ofRes (Helpers.decodeUint16LE c)).ReadsOnly
      cases Helpers.decodeUint16LE c <;> trivial
    | err m => trivial
    | panic m => trivial

/-! ## The primitives give the fields of the data -/

section
variable {D : Bytes} (hD : D.length ≤ maxFontDataSize) {s : PBuf} {i d : Nat} (h : FInv D s i d)
  (junk : Nat → UInt8)
include hD h

theorem advanceBytes_outcome (n : Nat) : Outcome ((advanceBytes n).exec junk s)
    (if n = 0 ∨ i + n ≤ D.length then some ((), i + n) else none) := by
  refine outcome_of_flat junk hD h (Adv.advance n) ?_ ?_
  · intro a j hv
    split at hv
    · simp only [Option.some.injEq, Prod.mk.injEq] at hv
      rw [flat_advance]; exact ⟨‹_›, hv.2.symm, rfl⟩
    · simp at hv
  · intro hv a j d' hx
    split at hv
    · simp at hv
    · rw [flat_advance] at hx; exact absurd hx.1 ‹_›

theorem readUint8_outcome : Outcome (readUint8.exec junk s)
    (if i + 1 ≤ D.length then some (byteAt D i, i + 1) else none) :=
  outcome_fixed junk hD h Adv.readUint8 flat_readUint8

theorem readUint16_outcome : Outcome (readUint16.exec junk s)
    (if i + 2 ≤ D.length then some (u16At D i, i + 2) else none) :=
  outcome_fixed junk hD h Adv.readUint16 flat_readUint16

theorem readUint24_outcome : Outcome (readUint24.exec junk s)
    (if i + 3 ≤ D.length then some (u24At D i, i + 3) else none) :=
  outcome_fixed junk hD h Adv.readUint24 flat_readUint24

theorem readUint32_outcome : Outcome (readUint32.exec junk s)
    (if i + 4 ≤ D.length then some (u32At D i, i + 4) else none) :=
  outcome_fixed junk hD h Adv.readUint32 flat_readUint32

theorem readUint64_outcome : Outcome (readUint64.exec junk s)
    (if i + 8 ≤ D.length then some (u32At D i + 4294967296 * u32At D (i + 4), i + 8) else none) :=
  outcome_fixed junk hD h Adv.readUint64 flat_readUint64

theorem readInt32_outcome : Outcome (readInt32.exec junk s)
    (if i + 4 ≤ D.length then
      some ((if u32At D i < 2147483648 then (u32At D i : Int) else (u32At D i : Int) - 4294967296), i + 4)
    else none) :=
  outcome_fixed junk hD h Adv.readInt32 flat_readInt32

theorem readInt8_outcome : Outcome (readInt8.exec junk s)
    (if i + 1 ≤ D.length then
      some ((if byteAt D i < 128 then (byteAt D i : Int) else (byteAt D i : Int) - 256), i + 1)
    else none) :=
  outcome_fixed junk hD h Adv.readInt8 flat_readInt8

theorem readBool_outcome : Outcome (readBool.exec junk s)
    (if i + 1 ≤ D.length ∧ byteAt D i ≤ 1 then some (byteAt D i == 1, i + 1) else none) := by
  refine outcome_of_flat junk hD h Adv.readBool ?_ ?_
  · intro a j hv
    split at hv
    · simp only [Option.some.injEq, Prod.mk.injEq] at hv
      rw [flat_readBool]; exact ⟨‹_›, hv.1.symm, hv.2.symm, rfl⟩
    · simp at hv
  · intro hv a j d' hx
    split at hv
    · simp at hv
    · rw [flat_readBool] at hx; exact absurd hx.1 ‹_›

theorem readShortStr_outcome : Outcome (readShortStr.exec junk s)
    (if i + 1 ≤ D.length ∧ i + 1 + byteAt D i ≤ D.length then
      some ((D.drop (i + 1)).take (byteAt D i), i + 1 + byteAt D i) else none) := by
  refine outcome_of_flat junk hD h Adv.readShortStr ?_ ?_
  · intro a j hv
    split at hv
    · rename_i hc
      simp only [Option.some.injEq, Prod.mk.injEq] at hv
      rw [flat_readShortStr]; exact ⟨hc.1, hc.2, hv.1.symm, hv.2.symm, rfl⟩
    · simp at hv
  · intro hv a j d' hx
    split at hv
    · simp at hv
    · rename_i hc
      rw [flat_readShortStr] at hx; exact hc ⟨hx.1, hx.2.1⟩

theorem readString_outcome : Outcome (readString.exec junk s)
    (if i + 2 ≤ D.length ∧ i + 2 + u16At D i ≤ D.length then
      some ((D.drop (i + 2)).take (u16At D i), i + 2 + u16At D i) else none) := by
  refine outcome_of_flat junk hD h Adv.readString ?_ ?_
  · intro a j hv
    split at hv
    · rename_i hc
      simp only [Option.some.injEq, Prod.mk.injEq] at hv
      rw [flat_readString]; exact ⟨hc.1, hc.2, hv.1.symm, hv.2.symm, rfl⟩
    · simp at hv
  · intro hv a j d' hx
    split at hv
    · simp at hv
    · rename_i hc
      rw [flat_readString] at hx; exact hc ⟨hx.1, hx.2.1⟩

theorem advanceShortSlice_outcome : Outcome (advanceShortSlice.exec junk s)
    (if i + 1 ≤ D.length ∧ i + 1 + byteAt D i ≤ D.length then some ((), i + 1 + byteAt D i)
    else none) := by
  refine outcome_of_flat junk hD h Adv.advanceShortSlice ?_ ?_
  · intro a j hv
    split at hv
    · rename_i hc
      simp only [Option.some.injEq, Prod.mk.injEq] at hv
      rw [flat_advanceShortSlice]; exact ⟨hc.1, hc.2, hv.2.symm, rfl⟩
    · simp at hv
  · intro hv a j d' hx
    split at hv
    · simp at hv
    · rename_i hc
      rw [flat_advanceShortSlice] at hx; exact hc ⟨hx.1, hx.2.1⟩

end

/-- A buffer in the middle of some data, and a string read from it over chunk borders. -/
example : readShortStr.exec (fun _ => 0) (PBuf.init ⟨[⟨[2], .nil⟩, ⟨[65], .nil⟩, ⟨[66, 7], .eof⟩], .eof⟩) =
    .ok ([65, 66], ⟨[2, 65, 66, 7], 3, true, ⟨[], .eof⟩, []⟩) := by decide +kernel

/-! ## The whole parser -/

/-- Everything before the check for the end of the file. -/
theorem body_independent {D : Bytes} (hD : D.length ≤ maxFontDataSize) {r1 r2 : Reader}
    (h1 : r1.Serves D) (h2 : r2.Serves D) (j1 j2 : Nat → UInt8) :
    SameOutcome (parseBody.exec j1 (PBuf.init r1)) (parseBody.exec j2 (PBuf.init r2)) := by
  rcases parseBody_exec j1 h1 hD with ⟨m, a1, b1⟩ | ⟨f, i, s, a1, b1, c1⟩ <;>
  rcases parseBody_exec j2 h2 hD with ⟨m2, a2, b2⟩ | ⟨f2, i2, s2, a2, b2, c2⟩
  · rw [a1] at a2; rw [b1, b2]
    exact Res.err.inj a2
  · rw [a1] at a2; simp at a2
  · rw [a1] at a2; simp at a2
  · rw [a1] at a2; rw [b1, b2]
    simp only [Res.ok.injEq, Prod.mk.injEq] at a2
    obtain ⟨rfl, rfl, _⟩ := a2
    exact ⟨rfl, c1.idx.trans c2.idx.symm⟩

/-- The same bytes are accepted from one reader and make `Parse` panic from another. -/
theorem parse_independent_violated : ¬ ∀ (D : Bytes) (r1 r2 : Reader), D.length ≤ maxFontDataSize →
    r1.Serves D → r2.Serves D → ∀ j : Nat → UInt8, parseStream j r1 = parseStream j r2 := by
  intro h
  have := h (tinyFont ++ [7]) ⟨[⟨tinyFont ++ [7], .nil⟩], .eof⟩ ⟨[⟨tinyFont, .nil⟩, ⟨[7], .nil⟩], .eof⟩
    (by decide +kernel)
    ⟨by decide, rfl, ⟨[], by simp, rfl⟩, by simp [StallFree, tinyFont]⟩
    ⟨by decide, rfl, ⟨[7], rfl, [], rfl, rfl⟩, by simp [StallFree, tinyFont]⟩ (fun _ => 0)
  have h2 : (parseStream (fun _ => 0) ⟨[⟨tinyFont ++ [7], .nil⟩], .eof⟩).isPanic = false := by
    decide +kernel
  have h3 : (parseStream (fun _ => 0) ⟨[⟨tinyFont, .nil⟩, ⟨[7], .nil⟩], .eof⟩).isPanic = true := by
    decide +kernel
  rw [this] at h2
  rw [h2] at h3
  simp at h3

/-- An error from one reader is the same error from every reader. -/
theorem parse_error_independent_partial {D : Bytes} (hD : D.length ≤ maxFontDataSize) {r1 r2 : Reader}
    (h1 : r1.Serves D) (h2 : r2.Serves D) {j1 : Nat → UInt8} (j2 : Nat → UInt8) {m : String}
    (h : parseStream j1 r1 = .err m) : parseStream j2 r2 = .err m := by
  rcases parseStream_flat j1 h1 hD with ⟨m1, a1, b1⟩ | ⟨f, i, s, _, _, _, h3⟩
  · rcases parseStream_flat j2 h2 hD with ⟨m2, a2, b2⟩ | ⟨f, i, s, a2, _⟩
    · rw [b1] at h; rw [a1] at a2
      rw [b2, ← Res.err.inj a2, Res.err.inj h]
    · rw [a1] at a2; simp at a2
  · rcases h3 with ⟨_, h3⟩ | ⟨h3, _⟩ <;> rw [h3] at h <;> simp at h

/-- If the font that is read takes up all of the data (both kerning tables are there and end with
the data), every reader gives the same font. What is missing for the full property: data that goes
on after the font, see `parse_independent_violated`. -/
theorem parse_font_independent_partial {D : Bytes} (hD : D.length ≤ maxFontDataSize) {r1 r2 : Reader}
    (h1 : r1.Serves D) (h2 : r2.Serves D) {j1 : Nat → UInt8} (j2 : Nat → UInt8) {f : Font}
    (h : parseStream j1 r1 = .ok f) (hv : f.offVertKern + kernSize D f.offVertKern = D.length) :
    parseStream j2 r2 = .ok f ∧ f.data = D := by
  rcases parseStream_flat j1 h1 hD with ⟨m1, a1, b1⟩ | ⟨f1, i, s, a1, _, b1, c1⟩
  · rw [b1] at h; simp at h
  · rcases c1 with ⟨_, c1⟩ | ⟨c1, _⟩
    · rw [c1] at h
      have hf := Res.ok.inj h
      have hb := parseBody_flat hD a1
      have ev : f.offVertKern = f1.offVertKern := by rw [← hf]
      rw [ev] at hv
      have hi : i = D.length := by
        rcases hb.2.2.2.1 with ⟨x, y⟩ | ⟨x, y⟩
        · have : kernSize D f1.offVertKern = 3 + 5 * u24At D f1.offVertKern := rfl
          omega
        · omega
      subst hi
      have hs := FInv.data_eq b1
      rcases parseStream_flat j2 h2 hD with ⟨m1, a2, b2⟩ | ⟨f2, i2, s2, a2, _, b2, c2⟩
      · rw [a1] at a2; simp at a2
      · rw [a1] at a2
        simp only [Res.ok.injEq, Prod.mk.injEq] at a2
        obtain ⟨rfl, rfl, _⟩ := a2
        have hs2 := FInv.data_eq b2
        rcases c2 with ⟨_, c2⟩ | ⟨_, _, c2⟩
        · rw [c2, ← hf, hs, hs2]; exact ⟨rfl, rfl⟩
        · omega
    · rw [c1] at h; simp at h

example : parseStream (fun _ => 0) ⟨[⟨tinyFont.take 40, .nil⟩, ⟨[], .nil⟩, ⟨tinyFont.drop 40, .nil⟩], .eof⟩ =
    .ok tinyParsed ∧ tinyParsed.offVertKern + kernSize tinyFont tinyParsed.offVertKern = tinyFont.length := by
  decide +kernel

end C12
