import Verif.Lemmas.ParseTrunc
import Verif.Lemmas.ReadsOnly
import Verif.Spec.Checks

/-! # `Parse` accepts exactly what passes the checks -/

namespace ParseModel
open Go ParseBuf ParseBuf.Prog FontModel Spec
variable {D : Bytes} {i d i' d' : Nat}

theorem bind_flat {α β : Type} {p : Prog α} {k : α → Prog β} {a : α} {i1 d1 : Nat}
    (h : p.flat D i d = .ok (a, i1, d1)) : (p >>= k).flat D i d = (k a).flat D i1 d1 := by
  rw [flat_bind, h]; rfl

theorem adv {n : Nat} {β : Type} {k : Unit → Prog β} (h : n = 0 ∨ i + n ≤ D.length) :
    (advanceBytes n >>= k).flat D i d = (k ()).flat D (i + n) d :=
  bind_flat (flat_advance.2 ⟨h, rfl, rfl⟩)
theorem read8 {β : Type} {k : Nat → Prog β} (h : i + 1 ≤ D.length) :
    (readUint8 >>= k).flat D i d = (k (byteAt D i)).flat D (i + 1) d :=
  bind_flat (flat_readUint8.2 ⟨h, rfl, rfl, rfl⟩)
theorem read16 {β : Type} {k : Nat → Prog β} (h : i + 2 ≤ D.length) :
    (readUint16 >>= k).flat D i d = (k (u16At D i)).flat D (i + 2) d :=
  bind_flat (flat_readUint16.2 ⟨h, rfl, rfl, rfl⟩)
theorem read24 {β : Type} {k : Nat → Prog β} (h : i + 3 ≤ D.length) :
    (readUint24 >>= k).flat D i d = (k (u24At D i)).flat D (i + 3) d :=
  bind_flat (flat_readUint24.2 ⟨h, rfl, rfl, rfl⟩)
theorem read24Ig {β : Type} {k : Nat → Prog β} (h : i + 3 ≤ D.length) :
    (readUint24IgnoringError >>= k).flat D i d = (k (u24At D i)).flat D (i + 3) d :=
  bind_flat (flat_readUint24Ig.2 (Or.inl ⟨h, rfl, rfl, rfl⟩))
theorem here' {β : Type} {k : Nat → Prog β} (hD : D.length ≤ maxFontDataSize) (h : i ≤ D.length) :
    (here >>= k).flat D i d = (k i).flat D i d := by
  rw [bind_flat (flat_here.2 ⟨rfl, rfl, rfl⟩), u32_eq hD h]
theorem sync' {β : Type} {k : Unit → Prog β} :
    (syncData >>= k).flat D i d = (k ()).flat D i i := bind_flat (flat_sync.2 ⟨rfl, rfl⟩)
theorem onFont' {α β : Type} {f : Font} {v : Font → Res α} {k : α → Prog β} {a : α}
    (h : v { f with data := D.take d } = .ok a) :
    (onFont f v >>= k).flat D i d = (k a).flat D i d := bind_flat (flat_onFont.2 ⟨h, rfl, rfl⟩)
theorem advEnd {n : Nat} (h : n = 0 ∨ i + n ≤ D.length) :
    (advanceBytes n).flat D i d = .ok ((), i + n, d) := flat_advance.2 ⟨h, rfl, rfl⟩
theorem pureEnd {α : Type} {a : α} : (pure a : Prog α).flat D i d = .ok (a, i, d) := rfl

theorem parseDyes_of {n : Nat} (hn : 0 < n) (h1 : n ≤ byteAt D (i + n - 1))
    (h2 : n ≤ u16At D (i + n + byteAt D (i + n - 1) + 2 * (n - 1)))
    (hl : i + n + byteAt D (i + n - 1) + 2 * n + u16At D (i + n + byteAt D (i + n - 1) + 2 * (n - 1))
      ≤ D.length) :
    (parseDyes n).flat D i d = .ok (byteAt D (i + n - 1),
      i + n + byteAt D (i + n - 1) + 2 * n + u16At D (i + n + byteAt D (i + n - 1) + 2 * (n - 1)), d) := by
  unfold parseDyes
  have e1 : i + (n - 1) = i + n - 1 := by omega
  have e2 : i + n - 1 + 1 + byteAt D (i + n - 1) + (n - 1) * 2 =
    i + n + byteAt D (i + n - 1) + 2 * (n - 1) := by omega
  rw [adv (by omega), e1, read8 (by omega), if_neg (by omega), adv (by omega), adv (by omega), e2,
    read16 (by omega), if_neg (by omega), adv (by omega), pureEnd]
  congr 3; omega

theorem parsePalettes_of {n used : Nat} (hn : 0 < n) (h0 : used + byteAt D (i + n - 1) ≤ 255)
    (h1 : n ≤ byteAt D (i + n - 1))
    (h2 : n ≤ u16At D (i + n + 4 * byteAt D (i + n - 1) + 2 * (n - 1)))
    (hl : i + n + 4 * byteAt D (i + n - 1) + 2 * n +
      u16At D (i + n + 4 * byteAt D (i + n - 1) + 2 * (n - 1)) ≤ D.length) :
    (parsePalettes n used).flat D i d = .ok ((), i + n + 4 * byteAt D (i + n - 1) + 2 * n +
      u16At D (i + n + 4 * byteAt D (i + n - 1) + 2 * (n - 1)), d) := by
  unfold parsePalettes
  have e1 : i + (n - 1) = i + n - 1 := by omega
  have e2 : i + n - 1 + 1 + byteAt D (i + n - 1) * 4 + (n - 1) * 2 =
    i + n + 4 * byteAt D (i + n - 1) + 2 * (n - 1) := by omega
  rw [adv (by omega), e1, read8 (by omega), if_neg (by omega), if_neg (by omega), adv (by omega),
    adv (by omega), e2, read16 (by omega), if_neg (by omega), advEnd (by omega)]
  congr 3; omega

theorem parseGlyphNames_of {n g : Nat} (hn : 0 < n) (h0 : n ≤ g)
    (h1 : u24At D (i + 2 * n + 3 * (n - 1)) ≤ n * 32)
    (hl : i + 2 * n + 3 * n + u24At D (i + 2 * n + 3 * (n - 1)) ≤ D.length) :
    (parseGlyphNames n g).flat D i d =
      .ok ((), i + 2 * n + 3 * n + u24At D (i + 2 * n + 3 * (n - 1)), d) := by
  unfold parseGlyphNames
  have e1 : i + n * 2 + (n - 1) * 3 = i + 2 * n + 3 * (n - 1) := by omega
  rw [if_neg (by omega), adv (by omega), adv (by omega), e1, read24 (by omega), if_neg (by omega),
    advEnd (by omega)]
  congr 3; omega

theorem parseWords_iff {n : Nat} {u : Unit} (hn : 0 < n) :
    (parseWords n).flat D i d = .ok (u, i', d') ↔
      d' = d ∧ i' = i + 2 * n + u16At D (i + 2 * (n - 1)) ∧ i' ≤ D.length ∧
      n ≤ u16At D (i + 2 * (n - 1)) ∧ u16At D (i + 2 * (n - 1)) ≤ n * 32 := by
  have e1 : i + (n - 1) * 2 = i + 2 * (n - 1) := by omega
  constructor
  · intro h
    obtain ⟨a, b, c, e⟩ := parseWords_flat hn h
    refine ⟨a, b, c, e, ?_⟩
    unfold parseWords at h
    rw [adv (by omega), e1, read16 (by omega), if_neg (by omega)] at h
    split at h
    · exact absurd h flat_fail
    · omega
  · rintro ⟨rfl, rfl, h1, h2, h3⟩
    unfold parseWords
    rw [adv (by omega), e1, read16 (by omega), if_neg (by omega), if_neg (by omega), advEnd (by omega)]
    congr 3; omega

theorem parseSwitches_iff {n m : Nat} {u : Unit} (hn : 0 < n) :
    (parseSwitches n m).flat D i d = .ok (u, i', d') ↔
      d' = d ∧ i' = i + 2 * n + u16At D (i + 2 * (n - 1)) ∧ i' ≤ D.length ∧
      n ≤ u16At D (i + 2 * (n - 1)) ∧ u16At D (i + 2 * (n - 1)) ≤ n * m := by
  have e1 : i + (n - 1) * 2 = i + 2 * (n - 1) := by omega
  constructor
  · intro h
    obtain ⟨a, b, c, e⟩ := parseSwitches_flat hn h
    refine ⟨a, b, c, e, ?_⟩
    unfold parseSwitches at h
    rw [adv (by omega), e1, read16 (by omega), if_neg (by omega)] at h
    split at h
    · exact absurd h flat_fail
    · omega
  · rintro ⟨rfl, rfl, h1, h2, h3⟩
    unfold parseSwitches
    rw [adv (by omega), e1, read16 (by omega), if_neg (by omega), if_neg (by omega), advEnd (by omega)]
    congr 3; omega

theorem parseSettingDefs_iff {n o : Nat} (hn : 0 < n) :
    (parseSettingDefs n).flat D i d = .ok (o, i', d') ↔
    d' = d ∧ o = u32 (i + 2 * n + u16At D (i + 2 * (n - 1))) ∧
      n ≤ u16At D (i + 2 * (n - 1)) ∧ u16At D (i + 2 * (n - 1)) ≤ n * 32 ∧
      ∃ j, j = i + 2 * n + u16At D (i + 2 * (n - 1)) ∧
      i' = j + 2 * n + u16At D (j + 2 * (n - 1)) ∧ i' ≤ D.length ∧
      n ≤ u16At D (j + 2 * (n - 1)) := by
  have e1 : i + (n - 1) * 2 = i + 2 * (n - 1) := by omega
  constructor
  · intro h
    obtain ⟨a, b, c, j, e, f, g, k⟩ := parseSettingDefs_flat hn h
    refine ⟨a, b, c, ?_, j, e, f, g, k⟩
    unfold parseSettingDefs at h
    rw [adv (by omega), e1, read16 (by omega), if_neg (by omega)] at h
    split at h
    · exact absurd h flat_fail
    · omega
  · rintro ⟨rfl, rfl, h1, h2, j, rfl, rfl, h3, h4⟩
    unfold parseSettingDefs
    have e2 : i + 2 * (n - 1) + 2 + u16At D (i + 2 * (n - 1)) = i + 2 * n + u16At D (i + 2 * (n - 1)) := by
      omega
    rw [adv (by omega), e1, read16 (by omega), if_neg (by omega), if_neg (by omega), adv (by omega), e2]
    generalize i + 2 * n + u16At D (i + 2 * (n - 1)) = j at *
    have e3 : j + (n - 1) * 2 = j + 2 * (n - 1) := by omega
    rw [bind_flat (flat_here.2 ⟨rfl, rfl, rfl⟩), adv (by omega), e3, read16 (by omega), if_neg (by omega),
      adv (by omega), pureEnd]
    congr 3; omega

theorem parseBlocks16_of {n m : Nat} (hn : 0 < n) (h : m ≤ u16At D (i + 2 * (n - 1)))
    (hl : i + 2 * n + u16At D (i + 2 * (n - 1)) ≤ D.length) :
    (parseBlocks16 n m).flat D i d = .ok ((), i + 2 * n + u16At D (i + 2 * (n - 1)), d) := by
  unfold parseBlocks16
  have e1 : i + (n - 1) * 2 = i + 2 * (n - 1) := by omega
  rw [adv (by omega), e1, read16 (by omega), if_neg (by omega), advEnd (by omega)]
  congr 3; omega

theorem parseEntries_of {n : Nat} (hn : 0 < n) (h : 3 * n ≤ u24At D (i + 4 * n + 3 * (n - 1)))
    (hl : i + 4 * n + 3 * n + u24At D (i + 4 * n + 3 * (n - 1)) ≤ D.length) :
    (parseEntries n).flat D i d =
      .ok ((), i + 4 * n + 3 * n + u24At D (i + 4 * n + 3 * (n - 1)), d) := by
  unfold parseEntries
  have e1 : i + n * 4 + (n - 1) * 3 = i + 4 * n + 3 * (n - 1) := by omega
  rw [adv (by omega), adv (by omega), e1, read24 (by omega), if_neg (by omega), advEnd (by omega)]
  congr 3; omega

theorem parseRules_iff {n m : Nat} {u : Unit} (hn : 0 < n) :
    (parseRules n m).flat D i d = .ok (u, i', d') ↔
    d' = d ∧ i' = i + 3 * n + u24At D (i + 3 * (n - 1)) ∧ i' ≤ D.length ∧
      8 * n ≤ u24At D (i + 3 * (n - 1)) ∧ u24At D (i + 3 * (n - 1)) ≤ n * m := by
  have e1 : i + (n - 1) * 3 = i + 3 * (n - 1) := by omega
  constructor
  · intro h
    obtain ⟨a, b, c, e⟩ := parseRules_flat hn h
    refine ⟨a, b, c, e, ?_⟩
    unfold parseRules at h
    rw [adv (by omega), e1, read24Ig (by omega), if_neg (by omega)] at h
    split at h
    · exact absurd h flat_fail
    · omega
  · rintro ⟨rfl, rfl, h1, h2, h3⟩
    unfold parseRules
    rw [adv (by omega), e1, read24Ig (by omega), if_neg (by omega), if_neg (by omega), advEnd (by omega)]
    congr 3; omega

/-! ## Steps -/

theorem read8_iff {β : Type} {k : Nat → Prog β} {r : β × Nat × Nat} :
    (readUint8 >>= k).flat D i d = .ok r ↔
      i + 1 ≤ D.length ∧ (k (byteAt D i)).flat D (i + 1) d = .ok r :=
  ⟨read8Step_flat, fun h => by rw [read8 h.1]; exact h.2⟩

theorem read16_iff {β : Type} {k : Nat → Prog β} {r : β × Nat × Nat} :
    (readUint16 >>= k).flat D i d = .ok r ↔
      i + 2 ≤ D.length ∧ (k (u16At D i)).flat D (i + 2) d = .ok r :=
  ⟨read16Step_flat, fun h => by rw [read16 h.1]; exact h.2⟩

theorem onFont_iff {α β : Type} {f : Font} {v : Font → Res α} {k : α → Prog β} {r : β × Nat × Nat} :
    (onFont f v >>= k).flat D i d = .ok r ↔
      ∃ a, v { f with data := D.take d } = .ok a ∧ (k a).flat D i d = .ok r := by
  constructor
  · intro h
    rw [flat_bind_ok] at h
    obtain ⟨a, _, _, h1, h2⟩ := h
    obtain ⟨h3, rfl, rfl⟩ := flat_onFont.1 h1
    exact ⟨a, h3, h2⟩
  · rintro ⟨a, h1, h2⟩
    rw [onFont' h1]; exact h2

theorem dyes_iff {β : Type} {k : Nat → Prog β} {r : β × Nat × Nat} (hi : i + 1 ≤ D.length) :
    ((if byteAt D i > 0 then parseDyes (byteAt D i) else .ret 0) >>= k).flat D (i + 1) d = .ok r ↔
      DyesChecks D i ∧ i + dyesSize D i ≤ D.length ∧
        (k (usedColors D i)).flat D (i + dyesSize D i) d = .ok r := by
  rcases Nat.eq_zero_or_pos (byteAt D i) with hz | hz
  · rw [if_neg (by omega)]
    simp only [DyesChecks, dyesSize, usedColors, hz, Nat.lt_irrefl, false_implies, true_and, if_true, hi]
    exact Iff.rfl
  · rw [if_pos hz]
    simp only [DyesChecks, dyesSize, usedColors, hz, true_implies]
    rw [if_neg (by omega), if_neg (by omega)]
    generalize byteAt D i = n at *
    have e1 : i + 1 + n - 1 = i + n := by omega
    constructor
    · intro h
      rw [flat_bind_ok] at h
      obtain ⟨u, i1, d1, h1, h2⟩ := h
      obtain ⟨rfl, hu, hv, hj, hl, hw⟩ := parseDyes_flat hz h1
      rw [e1] at hu
      subst hu
      have e2 : i + 1 + n + byteAt D (i + n) + 2 * n + u16At D (i + 1 + n + byteAt D (i + n) + 2 * (n - 1)) =
        i + (1 + n + byteAt D (i + n) + 2 * n + u16At D (i + 1 + n + byteAt D (i + n) + 2 * (n - 1))) := by
        omega
      rw [e2] at hj
      subst hj
      exact ⟨⟨hv, hw⟩, hl, h2⟩
    · rintro ⟨⟨h1, h2⟩, h3, h4⟩
      have := parseDyes_of (D := D) (i := i + 1) (d := d) hz (by rw [e1]; exact h1)
        (by rw [e1]; exact h2) (by rw [e1]; omega)
      rw [e1] at this
      rw [bind_flat this]
      have e2 : i + 1 + n + byteAt D (i + n) + 2 * n + u16At D (i + 1 + n + byteAt D (i + n) + 2 * (n - 1)) =
        i + (1 + n + byteAt D (i + n) + 2 * n + u16At D (i + 1 + n + byteAt D (i + n) + 2 * (n - 1))) := by
        omega
      rw [e2]
      exact h4

/-- A section with a count: what is read after the count, and the checks. -/
theorem when_iff {β : Type} {n size : Nat} {c : Prop} {p : Prog Unit} {k : Unit → Prog β}
    {r : β × Nat × Nat} {w : Nat} (hi : i + w ≤ D.length)
    (hz : n = 0 → size = w ∧ c)
    (hp : 0 < n → ∀ i' d', p.flat D (i + w) d = .ok ((), i', d') ↔
      d' = d ∧ i' = i + size ∧ i' ≤ D.length ∧ c) :
    (if n > 0 then p >>= k else k ()).flat D (i + w) d = .ok r ↔
      c ∧ i + size ≤ D.length ∧ (k ()).flat D (i + size) d = .ok r := by
  rw [flat_when]
  rcases Nat.eq_zero_or_pos n with h0 | h0
  · obtain ⟨rfl, hc⟩ := hz h0
    simp [h0, hc, hi]
  · simp only [h0, true_and, show n ≠ 0 by omega, false_and, false_or]
    constructor
    · rintro ⟨i1, d1, h1, h2⟩
      obtain ⟨rfl, rfl, h3, h4⟩ := (hp h0 _ _).1 h1
      exact ⟨h4, h3, h2⟩
    · rintro ⟨h1, h2, h3⟩
      exact ⟨_, _, (hp h0 _ _).2 ⟨rfl, rfl, h2, h1⟩, h3⟩

theorem palettes_iff {β : Type} {used : Nat} {k : Unit → Prog β} {r : β × Nat × Nat}
    (hi : i + 1 ≤ D.length) :
    (if byteAt D i > 0 then parsePalettes (byteAt D i) used >>= k else k ()).flat D (i + 1) d = .ok r ↔
      PalettesChecks D i used ∧ i + palettesSize D i ≤ D.length ∧
        (k ()).flat D (i + palettesSize D i) d = .ok r := by
  apply when_iff hi
  · intro h; simp [palettesSize, PalettesChecks, h]
  · intro h i' d'
    simp only [PalettesChecks, palettesSize, h, true_implies]
    rw [if_neg (by omega)]
    generalize byteAt D i = n at *
    have e1 : i + 1 + n - 1 = i + n := by omega
    constructor
    · intro h1
      obtain ⟨h1, h2, h3, h4, h5, h6⟩ := parsePalettes_flat h h1
      rw [e1] at *
      exact ⟨h1, by omega, h5, h2, h3, h6⟩
    · rintro ⟨rfl, rfl, h1, h2, h3, h4⟩
      have := parsePalettes_of (D := D) (i := i + 1) (d := d') (used := used) h (by rw [e1]; exact h2)
        (by rw [e1]; exact h3) (by rw [e1]; exact h4) (by rw [e1]; omega)
      rw [e1] at this
      rw [this]
      congr 3; omega

theorem names_iff {β : Type} {g : Nat} {k : Unit → Prog β} {r : β × Nat × Nat}
    (hi : i + 2 ≤ D.length) :
    (if u16At D i > 0 then parseGlyphNames (u16At D i) g >>= k else k ()).flat D (i + 2) d = .ok r ↔
      GlyphNamesChecks D g i ∧ i + glyphNamesSize D i ≤ D.length ∧
        (k ()).flat D (i + glyphNamesSize D i) d = .ok r := by
  apply when_iff hi
  · intro h; simp [glyphNamesSize, GlyphNamesChecks, h]
  · intro h i' d'
    simp only [GlyphNamesChecks, glyphNamesSize, h, true_implies]
    rw [if_neg (by omega)]
    generalize u16At D i = n at *
    constructor
    · intro h1
      obtain ⟨h1, h2, h3, h4, h5⟩ := parseGlyphNames_flat h h1
      exact ⟨h1, by omega, h4, h2, h5⟩
    · rintro ⟨rfl, rfl, h1, h2, h3⟩
      rw [parseGlyphNames_of (D := D) (i := i + 2) (d := d') h h2 h3 (by omega)]
      congr 3; omega

theorem words_iff {β : Type} {k : Unit → Prog β} {r : β × Nat × Nat} (hi : i + 1 ≤ D.length) :
    (if byteAt D i > 0 then parseWords (byteAt D i) >>= k else k ()).flat D (i + 1) d = .ok r ↔
      BlocksChecks D i id (· * 32) ∧ i + blocks16Size D i ≤ D.length ∧
        (k ()).flat D (i + blocks16Size D i) d = .ok r := by
  apply when_iff hi
  · intro h; simp [blocks16Size, BlocksChecks, h]
  · intro h i' d'
    rw [parseWords_iff h]
    simp only [BlocksChecks, blocks16Size, h, true_implies, id]
    rw [if_neg (by omega)]
    generalize byteAt D i = n at *
    constructor
    · rintro ⟨rfl, rfl, h1, h2, h3⟩
      exact ⟨rfl, by omega, h1, h2, h3⟩
    · rintro ⟨rfl, rfl, h1, h2, h3⟩
      exact ⟨rfl, by omega, h1, h2, h3⟩

theorem switches_iff {β : Type} {m : Nat} {k : Unit → Prog β} {r : β × Nat × Nat} (hi : i + 1 ≤ D.length) :
    (if byteAt D i > 0 then parseSwitches (byteAt D i) m >>= k else k ()).flat D (i + 1) d = .ok r ↔
      BlocksChecks D i id (· * m) ∧ i + blocks16Size D i ≤ D.length ∧
        (k ()).flat D (i + blocks16Size D i) d = .ok r := by
  apply when_iff hi
  · intro h; simp [blocks16Size, BlocksChecks, h]
  · intro h i' d'
    rw [parseSwitches_iff h]
    simp only [BlocksChecks, blocks16Size, h, true_implies, id]
    rw [if_neg (by omega)]
    generalize byteAt D i = n at *
    constructor
    · rintro ⟨rfl, rfl, h1, h2, h3⟩
      exact ⟨rfl, by omega, h1, h2, h3⟩
    · rintro ⟨rfl, rfl, h1, h2, h3⟩
      exact ⟨rfl, by omega, h1, h2, h3⟩

theorem u16At_le (D : Bytes) (i : Nat) : u16At D i ≤ 65535 := by
  have := u16At_lt D i; omega

theorem blocks_iff {β : Type} {least : Nat → Nat} {k : Unit → Prog β} {r : β × Nat × Nat}
    (hl : ∀ n, 0 < n → 0 < least n) (hi : i + 1 ≤ D.length) :
    (if byteAt D i > 0 then parseBlocks16 (byteAt D i) (least (byteAt D i)) >>= k
      else k ()).flat D (i + 1) d = .ok r ↔
      BlocksChecks D i least (fun _ => 65535) ∧ i + blocks16Size D i ≤ D.length ∧
        (k ()).flat D (i + blocks16Size D i) d = .ok r := by
  apply when_iff hi
  · intro h; simp [blocks16Size, BlocksChecks, h]
  · intro h i' d'
    simp only [BlocksChecks, blocks16Size, h, true_implies, u16At_le, and_true]
    rw [if_neg (by omega)]
    have hm := hl _ h
    generalize least (byteAt D i) = m at *
    generalize byteAt D i = n at *
    constructor
    · intro h1
      obtain ⟨h1, h2, h3, h4⟩ := parseBlocks16_flat h hm h1
      exact ⟨h1, by omega, h3, h4⟩
    · rintro ⟨rfl, rfl, h1, h2⟩
      rw [parseBlocks16_of (D := D) (i := i + 1) (d := d') h h2 (by omega)]
      congr 3; omega

theorem entries_iff {β : Type} {k : Unit → Prog β} {r : β × Nat × Nat} (hi : i + 2 ≤ D.length) :
    (if u16At D i > 0 then parseEntries (u16At D i) >>= k else k ()).flat D (i + 2) d = .ok r ↔
      MappingChecks D i ∧ i + mappingSize D i ≤ D.length ∧
        (k ()).flat D (i + mappingSize D i) d = .ok r := by
  apply when_iff hi
  · intro h; simp [mappingSize, MappingChecks, h]
  · intro h i' d'
    simp only [MappingChecks, mappingSize, h, true_implies]
    rw [if_neg (by omega)]
    generalize u16At D i = n at *
    constructor
    · intro h1
      obtain ⟨h1, h2, h3, h4⟩ := parseEntries_flat h h1
      exact ⟨h1, by omega, h3, h4⟩
    · rintro ⟨rfl, rfl, h1, h2⟩
      rw [parseEntries_of (D := D) (i := i + 2) (d := d') h h2 (by omega)]
      congr 3; omega

theorem rules_iff {β : Type} {m : Nat} {k : Unit → Prog β} {r : β × Nat × Nat} (hi : i + 2 ≤ D.length) :
    (if u16At D i > 0 then parseRules (u16At D i) m >>= k else k ()).flat D (i + 2) d = .ok r ↔
      RulesChecks D i m ∧ i + rulesSize D i ≤ D.length ∧
        (k ()).flat D (i + rulesSize D i) d = .ok r := by
  apply when_iff hi
  · intro h; simp [rulesSize, RulesChecks, h]
  · intro h i' d'
    rw [parseRules_iff h]
    simp only [RulesChecks, rulesSize, h, true_implies]
    rw [if_neg (by omega)]
    generalize u16At D i = n at *
    constructor
    · rintro ⟨rfl, rfl, h1, h2, h3⟩
      exact ⟨rfl, by omega, h1, h2, h3⟩
    · rintro ⟨rfl, rfl, h1, h2, h3⟩
      exact ⟨rfl, by omega, h1, h2, h3⟩

theorem settingDefs_iff {β : Type} {k : Nat → Prog β} {r : β × Nat × Nat}
    (hD : D.length ≤ maxFontDataSize) (hi : i + 1 ≤ D.length) :
    ((if byteAt D i > 0 then parseSettingDefs (byteAt D i) else .ret (u32 (i + 1))) >>= k).flat D (i + 1) d
      = .ok r ↔
      ∃ j, j = i + blocks16Size D i ∧ BlocksChecks D i id (· * 32) ∧ SettingDefsChecks D (byteAt D i) j ∧
        j + settingDefsSize D (byteAt D i) j ≤ D.length ∧
        (k j).flat D (j + settingDefsSize D (byteAt D i) j) d = .ok r := by
  rcases Nat.eq_zero_or_pos (byteAt D i) with hz | hz
  · rw [if_neg (by omega)]
    simp only [BlocksChecks, blocks16Size, SettingDefsChecks, settingDefsSize, hz, Nat.lt_irrefl,
      false_implies, true_and, if_true, Nat.add_zero, exists_eq_left, hi]
    rw [u32_eq hD hi]
    exact Iff.rfl
  · rw [if_pos hz]
    simp only [BlocksChecks, blocks16Size, SettingDefsChecks, settingDefsSize, hz, true_implies, id]
    rw [if_neg (by omega)]
    generalize byteAt D i = n at *
    rw [flat_bind_ok]
    constructor
    · rintro ⟨o, i1, d1, h1, h2⟩
      obtain ⟨rfl, rfl, h3, h4, j, hj, h5, h6, h7⟩ := (parseSettingDefs_iff hz).1 h1
      refine ⟨j, by omega, ⟨h3, h4⟩, h7, ?_, ?_⟩
      · rw [if_neg (by omega)]; omega
      · rw [← hj, u32_eq hD (by omega)] at h2
        rw [if_neg (by omega)]
        rw [h5, Nat.add_assoc] at h2
        exact h2
    · rintro ⟨j, hj, ⟨h1, h2⟩, h3, h4, h5⟩
      rw [if_neg (by omega)] at h4 h5
      have hj' : i + 1 + 2 * n + u16At D (i + 1 + 2 * (n - 1)) = j := by omega
      refine ⟨j, _, d, (parseSettingDefs_iff hz).2 ⟨rfl, ?_, h1, h2, j, hj'.symm, rfl, by omega, h3⟩, ?_⟩
      · rw [hj', u32_eq hD (by omega)]
      · rw [Nat.add_assoc]; exact h5

end ParseModel
