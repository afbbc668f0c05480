import Verif.Spec.Document
import Verif.Spec.SampleFull
import Verif.Spec.SampleFont
import Verif.Lemmas.Accepted
import Verif.Lemmas.Names
import Verif.Lemmas.ParseAccept
import Verif.Lemmas.Exported

/-! # Fonts that break the demands of the document -/

namespace Spec
open Go FontModel ParseModel ParseBuf

theorem accepted_one {D : Bytes} {f : Font} (h : D ≠ [] ∧ D.length ≤ 1024)
    (hp : parseStream (fun _ => 0) ⟨[⟨D, .nil⟩], .eof⟩ = .ok f) : Accepted f :=
  ⟨D, ⟨[⟨D, .nil⟩], .eof⟩, fun _ => 0, by have := h.2; exact Nat.le_trans this (by decide), serves_one _ h, hp⟩

theorem Names.not_basic {c : UInt8} {s : Bytes} (h : ¬ Names.Letter c) : ¬ Names.BasicName (c :: s) := by
  rintro ⟨_, d, parts, e, hd, _⟩
  injection e with e _
  exact h (e ▸ hd)

instance (c : UInt8) : Decidable (Names.Letter c) := by unfold Names.Letter; infer_instance

theorem Names.part_of {p : Bytes} (h : p ≠ [] ∧ (∀ c ∈ p, Names.Alnum c) ∨
    ∃ w, p = 45 :: w ∧ w ≠ [] ∧ ∀ c ∈ w, Names.Alnum c) : Names.Part p := by
  rcases h with ⟨h1, h2⟩ | ⟨w, rfl, h1, h2⟩
  · exact ⟨[], p, rfl, Or.inl rfl, h1, h2⟩
  · exact ⟨[45], w, rfl, Or.inr rfl, h1, h2⟩

instance (c : UInt8) : Decidable (Names.Alnum c) := by unfold Names.Alnum; infer_instance

/-- The data of accepted fonts passes all checks. -/
theorem accepted_tolerated {f : Font} (h : Accepted f) :
    ∃ stop, Tolerated f.data f stop ∧ stop ≤ f.data.length ∧ f.data.length ≤ maxFontDataSize := by
  obtain ⟨D, r, junk, hD, hr, h⟩ := h
  rcases parseStream_flat junk hr hD with ⟨m, _, b⟩ | ⟨f1, i, s, a1, _, b1, c1⟩
  · rw [b] at h; simp at h
  · rcases c1 with ⟨_, c1⟩ | ⟨c1, _⟩
    · rw [c1] at h
      have hf := Res.ok.inj h
      subst hf
      have hp := b1.dataBytes.trans b1.bytes
      obtain ⟨t1, ht1⟩ := b1.data
      have hi : i ≤ s.data.length := by
        have h1 := b1.ile
        have h2 := b1.bytes.length_le
        rw [← ht1]; simp; omega
      have hil : i ≤ D.length := Nat.le_trans hi hp.length_le
      have ht : s.data.take i = D.take i := by
        rw [← ht1, List.take_append_of_le_length (by simp; omega)]
        rw [List.take_take, Nat.min_self]
      have hl := parseBody_local hD a1 hi ht (Or.inr hp.length_le)
      obtain ⟨_, _, t⟩ := (parseBody_iff (Nat.le_trans hp.length_le hD)).1 hl
      exact ⟨i, t.setData _, hi, Nat.le_trans hp.length_le hD⟩
    · rw [c1] at h; simp at h

theorem manyFont_byte (n i : Nat) : byteAt (manyFont n).data i =
    if i < 71 + 4 * n then (manyByte n i).toNat else 0 := by
  simp only [byteAt, manyFont, List.getD_eq_getElem?_getD, List.getElem?_map, List.getElem?_range']
  split <;> simp [List.getElem?_range, *]

theorem manyFont_low {n i : Nat} (h : i < 34) : byteAt (manyFont n).data i = byteAt tinyFont i := by
  rw [manyFont_byte, if_pos (by omega), manyByte, if_pos h, byteAt]

theorem manyFont_zero {n i : Nat} (h : 36 ≤ i) (h1 : i ≠ 38) (h2 : i ≠ 50 + 3 * n) (h3 : i ≠ 51 + 3 * n) :
    byteAt (manyFont n).data i = 0 := by
  rw [manyFont_byte]
  split
  · rw [manyByte, if_neg (by omega), if_neg (by omega), if_neg (by omega), if_neg (by omega)]; rfl
  · rfl

theorem manyFont_wellFormed {n : Nat} (h0 : 0 < n) (h1 : n ≤ 65535) :
    WellFormed (manyFont n).data (manyFont n) ∧ nGlyphs (manyFont n).data (manyFont n) = n := by
  have z := @manyFont_zero n
  have lo := @manyFont_low n
  have hl : (manyFont n).data.length = 71 + 4 * n := by simp [manyFont]
  have b34 : byteAt (manyFont n).data 34 = n % 256 := by
    rw [manyFont_byte, if_pos (by omega), manyByte, if_neg (by omega), if_pos (Or.inl rfl), byte_toNat]
  have b35 : byteAt (manyFont n).data 35 = n / 256 := by
    rw [manyFont_byte, if_pos (by omega), manyByte, if_neg (by omega), if_neg (by omega), if_pos (Or.inl rfl),
      byte_toNat, Nat.mod_eq_of_lt (by omega)]
  have b38 : byteAt (manyFont n).data 38 = 1 := by
    rw [manyFont_byte, if_pos (by omega), manyByte, if_neg (by omega), if_neg (by omega), if_neg (by omega),
      if_pos rfl]; rfl
  have e0 : byteAt (manyFont n).data (50 + 3 * n) = n % 256 := by
    rw [manyFont_byte, if_pos (by omega), manyByte, if_neg (by omega), if_pos (Or.inr rfl), byte_toNat]
  have e1 : byteAt (manyFont n).data (51 + 3 * n) = n / 256 := by
    rw [manyFont_byte, if_pos (by omega), manyByte, if_neg (by omega), if_neg (by omega), if_pos (Or.inr rfl),
      byte_toNat, Nat.mod_eq_of_lt (by omega)]
  generalize hD : (manyFont n).data = D at *
  have z16 : ∀ o, 53 + 4 * n ≤ o → u16At D o = 0 := fun o ho => by
    simp only [u16At, z (i := o) (by omega) (by omega) (by omega) (by omega),
      z (i := o + 1) (by omega) (by omega) (by omega) (by omega)]
  have z8 : ∀ o, 53 + 4 * n ≤ o → byteAt D o = 0 := fun o ho => z (by omega) (by omega) (by omega) (by omega)
  have z24 : ∀ o, 53 + 4 * n ≤ o → u24At D o = 0 := fun o ho => by
    simp only [u24At, z16 o ho, z8 (o + 2) (by omega)]
  have zb : ∀ o, 53 + 4 * n ≤ o → blocks16Size D o = 1 := fun o ho => by simp [blocks16Size, z8 o ho]
  have zr : ∀ o, 53 + 4 * n ≤ o → rulesSize D o = 2 := fun o ho => by simp [rulesSize, z16 o ho]
  have zk : ∀ o, 53 + 4 * n ≤ o → kernSize D o = 3 := fun o ho => by simp [kernSize, z24 o ho]
  have g : u16At D 34 = n := by simp only [u16At, b34, b35]; omega
  have last : u24At D (53 + 3 * (n - 1)) = n := by
    have : 53 + 3 * (n - 1) = 50 + 3 * n := by omega
    rw [this, u24At, u16At, e0, show 50 + 3 * n + 1 = 51 + 3 * n by omega, e1,
      z (i := 50 + 3 * n + 2) (by omega) (by omega) (by omega) (by omega)]
    omega
  have d0 : byteAt D 49 = 0 := z (by omega) (by omega) (by omega) (by omega)
  have p0 : byteAt D 50 = 0 := z (by omega) (by omega) (by omega) (by omega)
  have n0 : u16At D 51 = 0 := by
    simp only [u16At, z (i := 51) (by omega) (by omega) (by omega) (by omega),
      z (i := 52) (by omega) (by omega) (by omega) (by omega)]
  have v0 : byteAt D 36 = 0 := z (by omega) (by omega) (by omega) (by omega)
  have x0 : byteAt D 39 = 0 := z (by omega) (by omega) (by omega) (by omega)
  have i0 : byteAt D 45 = 0 := z (by omega) (by omega) (by omega) (by omega)
  have zbc : ∀ o least most, 53 + 4 * n ≤ o → BlocksChecks D o least most := fun o _ _ ho hx => by
    rw [z8 o ho] at hx; omega
  have zrc : ∀ o most, 53 + 4 * n ≤ o → RulesChecks D o most := fun o _ ho hx => by
    rw [z16 o ho] at hx; omega
  refine ⟨⟨⟨?_, rfl, ?_, ?_, ?_, ?_, ?_, ?_, ?_, ?_, ?_, ?_, ?_, ?_, ?_, ?_, ?_⟩, ⟨?_, ?_, Nat.le_refl _⟩,
    ⟨⟨?_, ?_, ?_⟩, ⟨?_, ?_, ?_, ?_, ?_⟩, ?_, ?_, ?_, ?_, ?_, ?_, ?_, ?_, ?_, ?_, ?_, ?_, ?_, ?_, ?_, ?_, ?_, ?_⟩⟩, ?_⟩
  all_goals try simp only [manyFont]
  · simp only [headerSize, u16At, lo (i := 28) (by omega)]
    rw [show byteAt tinyFont 28 = 1 from rfl, lo (by omega), show byteAt tinyFont (29 + 1) = 0 from rfl,
      lo (by omega), show byteAt tinyFont (30 + 1 + 0) = 0 from rfl, lo (by omega), lo (by omega)]
    rfl
  · simp [dyesSize, d0]
  · simp [palettesSize, p0]
  · simp [glyphNamesSize, n0]
  · rw [masksSize, g, last]; omega
  · rw [zb _ (by omega)]; omega
  · rw [zb _ (by omega)]; omega
  · simp [settingDefsSize, z8 (54 + 4 * n) (by omega)]
  · rw [zb _ (by omega)]; omega
  · simp only [mappingSize, z16 (56 + 4 * n) (by omega)]; simp; omega
  · rw [zb _ (by omega)]; omega
  · rw [zb _ (by omega)]; omega
  · rw [zb _ (by omega)]; omega
  · rw [zr _ (by omega)]; omega
  · rw [zr _ (by omega)]; omega
  · omega
  · rw [zk _ (by omega)]; omega
  · rw [zk _ (by omega)]; omega
  · simp only [u32At, u24At, u16At]
    rw [lo (by omega), lo (by omega), lo (by omega), lo (by omega)]; rfl
  · simp only [u64At, u32At, u24At, u16At]
    rw [lo (by omega), lo (by omega), lo (by omega), lo (by omega), lo (by omega), lo (by omega), lo (by omega),
      lo (by omega)]
    decide +kernel
  · rw [lo (by omega)]; decide
  · rw [g]; exact h0
  · rw [v0]; omega
  · rw [b38]; omega
  · rw [x0]; omega
  · exact Or.inl i0
  · intro hx; rw [d0] at hx; omega
  · intro hx; rw [p0] at hx; omega
  · rw [d0, p0]; omega
  · intro hx; rw [n0] at hx; omega
  · simp only [MasksChecks, g, last, v0]
    simp; omega
  · exact zbc _ _ _ (by omega)
  · exact zbc _ _ _ (by omega)
  · intro hx; rw [z8 _ (by omega)] at hx; omega
  · rw [z8 _ (by omega)]; omega
  · exact zbc _ _ _ (by omega)
  · intro hx; rw [z16 _ (by omega)] at hx; omega
  · exact zbc _ _ _ (by omega)
  · exact zbc _ _ _ (by omega)
  · exact zbc _ _ _ (by omega)
  · exact zrc _ _ (by omega)
  · exact zrc _ _ (by omega)
  · rw [z24 _ (by omega)]; omega
  · rw [z24 _ (by omega)]; omega
  · exact g

/-- Fonts with any number of glyphs are accepted. -/
theorem manyFont_accepted {n : Nat} (h0 : 0 < n) (h1 : n ≤ 65535) : Accepted (manyFont n) := by
  obtain ⟨first, gz, he⟩ := exists_exported (manyFont n)
  obtain ⟨r, hr, _⟩ := he.parse fun _ => 0
  have hD : (manyFont n).data.length ≤ maxFontDataSize := by
    have : (manyFont n).data.length = 71 + 4 * n := by simp [manyFont]
    rw [this]
    exact Nat.le_trans (show 71 + 4 * n ≤ 262211 by omega) (by decide)
  have hw := (manyFont_wellFormed h0 h1).1
  exact ⟨_, r, fun _ => 0, hD, hr, (parseStream_checks _ hr hD rfl hw.layout hw.kerning).1 hw.checks⟩

end Spec
