import Verif.Lemmas.ReadsOnly
import Verif.Spec.SampleFont

/-!
# C14: Parse never panics

Violated by `EnsureEOF`. Everything else holds for every reader: `Reader.Fits` only says that reads
do not return more bytes than asked for; the data may be of any size and content, reads may fail
with any error or stall, and `junk` is any content of memory exposed by growing the buffer. The
model panics when fuel runs out, so these theorems also say that the loops terminate.
-/

namespace C14
open Go ParseBuf ParseBuf.Prog ParseModel FontModel Spec

/-- All of `Parse` up to the check for the end of the file returns a font or an error. -/
theorem body_never_panics (junk : Nat → UInt8) {r : Reader} (h : r.Fits) (m : String) :
    parseBody.exec junk (PBuf.init r) ≠ .panic m := by
  rcases exec_wp junk parseBody _ _ (Inv.init h) wp_parseBody with ⟨e, h1⟩ | ⟨a, s, g, h1, _⟩ <;>
    rw [h1] <;> simp

/-- A reader with a short header, a failing read and an error at the end. -/
example : (⟨[⟨[2, 0, 0], .nil⟩, ⟨[], .nil⟩, ⟨[9], .err "broken pipe"⟩], .err "closed"⟩ : Reader).Fits ∧
    parseBody.exec (fun _ => 0) (PBuf.init
      ⟨[⟨[2, 0, 0], .nil⟩, ⟨[], .nil⟩, ⟨[9], .err "broken pipe"⟩], .err "closed"⟩) = .err "broken pipe" :=
  ⟨by intro e he; simp at he; rcases he with rfl | rfl | rfl <;> decide, by decide +kernel⟩

/-- `Parse` panics on a font followed by one more byte. -/
theorem never_panics_violated : ¬ ∀ (junk : Nat → UInt8) (r : Reader), r.Fits →
    (parseStream junk r).isPanic = false := by
  intro h
  have := h (fun _ => 0) ⟨[⟨tinyFont, .nil⟩, ⟨[7], .nil⟩], .eof⟩
    (by intro e he; simp at he; rcases he with rfl | rfl <;> decide)
  have h2 : (parseStream (fun _ => 0) ⟨[⟨tinyFont, .nil⟩, ⟨[7], .nil⟩], .eof⟩).isPanic = true := by
    decide +kernel
  rw [this] at h2
  simp at h2

/-- The only panic of `Parse`, for all files and readers: the body was read completely, the end of
the file has not been seen, and one more `readMore` delivers further bytes and again no end of file. -/
theorem never_panics_partial (junk : Nat → UInt8) (sig : Ev) (gz : Res Reader)
    (hg : gz.isPanic = false) (hr : ∀ r, gz = .ok r → r.Fits) {m : String}
    (h : parse junk sig gz = .panic m) :
    m = "broken code" ∧ ∃ r f s s', gz = .ok r ∧ parseBody.exec junk (PBuf.init r) = .ok (f, s) ∧
      s.eof = false ∧ readMore junk s = .ok (none, s') ∧ s'.eof = false ∧
      s.bytes.length < s'.bytes.length := by
  unfold parse at h
  split at h
  · simp at h
  · split at h
    · simp at h
    · cases gz with
      | err m => simp at h
      | panic m => simp at hg
      | ok r =>
        simp only [Res.ok_bind] at h
        have hf := hr r rfl
        unfold parseStream at h
        rcases exec_wp junk parseBody _ _ (Inv.init hf) wp_parseBody with ⟨e, h1⟩ | ⟨f, s, g, h1, h2, _⟩
        · rw [h1] at h; simp at h
        · rw [h1] at h
          simp only [Res.ok_bind] at h
          unfold ensureEOF at h
          by_cases he : s.eof = true
          · rw [if_pos he] at h; simp at h
          · rw [if_neg he] at h
            obtain ⟨e, s', k1, _, k3, k4⟩ := readMoreLoop_inv junk 3 s h2.fits
            have k1' : readMore junk s = .ok (e, s') := k1
            rw [k1'] at h
            simp only [Res.ok_bind] at h
            cases e with
            | some e => simp at h
            | none =>
              simp only at h
              rw [if_neg (by rw [k3]; omega)] at h
              by_cases he' : s'.eof = true
              · rw [he'] at h; simp at h
              · have hfalse : s'.eof = false := by simpa using he'
                rw [hfalse] at h
                simp only [Bool.not_false, if_true] at h
                have : m = "broken code" := by
                  simpa using h.symm
                refine ⟨this, r, f, s, s', rfl, h1, by simpa using he, k1', hfalse, ?_⟩
                rcases k4 rfl with k | k
                · exact k
                · exact absurd k he'

/-- For data in memory: `Parse` can only panic when there are bytes after the end of the font, which
the check for the end of the file was meant to reject. -/
theorem whole_never_panics {D : Bytes} {f : Font} (h : Whole D f) {r : Reader} (hr : r.Serves D)
    (junk : Nat → UInt8) (m : String) : parseStream junk r ≠ .panic m := by
  obtain ⟨f0, h1, _⟩ := whole_flat h
  rcases parseStream_flat junk hr h.1 with ⟨m, _, b⟩ | ⟨f1, i, s, b, _, _, c⟩
  · rw [b]; simp
  · rw [h1] at b
    simp only [Res.ok.injEq, Prod.mk.injEq] at b
    rcases c with ⟨_, c⟩ | ⟨_, _, c⟩
    · rw [c]; simp
    · omega

example : Whole tinyFont tinyParsed ∧
    (⟨[⟨tinyFont.take 9, .nil⟩, ⟨[], .nil⟩, ⟨tinyFont.drop 9, .eof⟩], .eof⟩ : Reader).Serves tinyFont :=
  ⟨⟨by decide +kernel, ⟨⟨[⟨tinyFont, .nil⟩], .eof⟩, fun _ => 0,
    ⟨by decide, rfl, ⟨[], by simp, rfl⟩, by simp [StallFree, tinyFont]⟩, by decide +kernel⟩,
    by decide +kernel⟩,
   by decide, rfl, ⟨tinyFont.drop 9, rfl, tinyFont.drop 9, rfl, rfl⟩, by simp [StallFree, tinyFont]⟩

end C14
