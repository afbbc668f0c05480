import Verif.Lemmas.Search32

/-! # Accepted fonts have the layout of the format -/

namespace ParseModel
open Go ParseBuf ParseBuf.Prog FontModel Spec

theorem accepted_layout {f : Font} (h : Accepted f) :
    Layout f.data f ∧ Limits f.data f ∧ KernOk f.data f.offHorzKern f.offVertKern ∧
      ∃ stop, KernOk f.data f.offVertKern stop ∧ stop ≤ f.data.length := by
  obtain ⟨D, r, junk, hD, hr, h⟩ := h
  rcases parseStream_flat junk hr hD with ⟨m, _, b⟩ | ⟨f1, i, s, a1, _, b1, c1⟩
  · rw [b] at h; simp at h
  · rcases c1 with ⟨_, c1⟩ | ⟨c1, _⟩
    · rw [c1] at h
      have hf := Res.ok.inj h
      subst hf
      have hp := b1.dataBytes.trans b1.bytes
      obtain ⟨t1, ht1⟩ := b1.data
      have hi : i ≤ s.data.length := by
        have h1 := b1.ile
        have h2 := b1.bytes.length_le
        rw [← ht1]; simp; omega
      have hil : i ≤ D.length := Nat.le_trans hi hp.length_le
      have ht : s.data.take i = D.take i := by
        rw [← ht1, List.take_append_of_le_length (by simp; omega)]
        rw [List.take_take, Nat.min_self]
      have hl := parseBody_local hD a1 hi ht (Or.inr hp.length_le)
      have := parseBody_flat (Nat.le_trans hp.length_le hD) hl
      exact ⟨⟨this.1.1, this.1.2, this.1.3, this.1.4, this.1.5, this.1.6, this.1.7, this.1.8, this.1.9,
        this.1.10, this.1.11, this.1.12, this.1.13, this.1.14, this.1.15, this.1.16, this.1.17⟩,
        ⟨this.2.1.1, this.2.1.2, this.2.1.3, this.2.1.4, this.2.1.5, this.2.1.6, this.2.1.7,
          this.2.1.8⟩, this.2.2.1, i, this.2.2.2.1, hi⟩
    · rw [c1] at h; simp at h

end ParseModel

namespace ParseModel
open ParseBuf Spec

/-- A reader that hands out everything at once. -/
theorem serves_one (D : Bytes) (h : D ≠ [] ∧ D.length ≤ 1024) :
    Reader.Serves ⟨[⟨D, .nil⟩], .eof⟩ D where
  fits := by simpa using h.2
  fin := rfl
  delivers := ⟨[], by simp, rfl⟩
  stallFree := by simp [StallFree, h.1]

end ParseModel
