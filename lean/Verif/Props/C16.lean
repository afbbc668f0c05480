import Verif.Lemmas.Header
import Verif.Spec.SampleBuilder

/-!
# C16: header accessors return the encoded fields

`Spec.Header.bytes` is the encoding of the header in the format. Violated: the accessors of family,
author and about text compute positions in `uint8`.
-/

namespace C16
open Go Spec FontModel BuilderModel

/-- Format version, identifier, version, dates and name are the stored ones, for all field values. -/
theorem fixed_fields (h : Header) (hv : h.Fits) (rest : Bytes) (f : Font)
    (hf : f.data = h.bytes ++ rest) :
    f.formatVersion = .ok h.format ∧ f.id = .ok h.id ∧ f.versionMajor = .ok h.major ∧
    f.versionMinor = .ok h.minor ∧
    f.firstVersionDate = .ok ⟨h.first.year, h.first.month, h.first.day⟩ ∧
    f.majorVersionDate = .ok ⟨h.majorDate.year, h.majorDate.month, h.majorDate.day⟩ ∧
    f.minorVersionDate = .ok ⟨h.minorDate.year, h.minorDate.month, h.minorDate.day⟩ ∧
    f.name = .ok h.name := by
  have hD : At f.data 0 h.bytes := by rw [hf]; simpa using At.intro [] h.bytes rest
  obtain ⟨h1, h2, h3, h4, h5, h6, h7, h8, h9, h10, _⟩ := header_at hD
  refine ⟨le_rd32 h1 hv.format, le_rd64 h2 hv.id, le_rd16 h3 hv.major, le_rd16 h4 hv.minor,
    le_date h5 hv.first, le_date h6 hv.majorDate, le_date h7 hv.minorDate, ?_⟩
  rw [Font.name, le_rd8 h8 (by have := hv.name; omega), Res.ok_bind]
  exact unsafeString_at h9 (by have := h10.le_fits; omega)

/-- The family name is the stored one for names of at most 225 bytes (the format allows 255). -/
theorem family_partial (h : Header) (hv : h.Fits) (rest : Bytes) (f : Font)
    (hf : f.data = h.bytes ++ rest) (hn : h.name.length ≤ 225) : f.family = .ok h.family := by
  have hD : At f.data 0 h.bytes := by rw [hf]; simpa using At.intro [] h.bytes rest
  obtain ⟨_, _, _, _, _, _, _, h8, h9, h10, h11, h12, _⟩ := header_at hD
  rw [Font.family, le_rd8 h8 (by omega), Res.ok_bind, show u8 (29 + h.name.length) = 29 + h.name.length
    by rw [u8]; omega, le_rd8 h10 (by have := hv.family; omega), Res.ok_bind,
    show u8 (30 + h.name.length) = 30 + h.name.length by rw [u8]; omega]
  exact unsafeString_at h11 (by have := h12.le_fits; omega)

/-- The author is the stored one for name and family of together at most 224 bytes. -/
theorem author_partial (h : Header) (hv : h.Fits) (rest : Bytes) (f : Font)
    (hf : f.data = h.bytes ++ rest) (hn : h.name.length + h.family.length ≤ 224) :
    f.author = .ok h.author := by
  have hD : At f.data 0 h.bytes := by rw [hf]; simpa using At.intro [] h.bytes rest
  obtain ⟨_, _, _, _, _, _, _, h8, h9, h10, h11, h12, h13, h14, _⟩ := header_at hD
  rw [Font.author, le_rd8 h8 (by omega), Res.ok_bind, show u8 (29 + h.name.length) = 29 + h.name.length
    by rw [u8]; omega, le_rd8 h10 (by have := hv.family; omega), Res.ok_bind,
    show u8 (30 + h.name.length + h.family.length) = 30 + h.name.length + h.family.length by
      rw [u8]; omega, le_rd8 h12 (by have := hv.author; omega), Res.ok_bind,
    show u8 (31 + h.name.length + h.family.length) = 31 + h.name.length + h.family.length by
      rw [u8]; omega]
  exact unsafeString_at h13 (by have := h14.le_fits; omega)

/-- The about text is the stored one for name, family and author of together at most 222 bytes. -/
theorem about_partial (h : Header) (hv : h.Fits) (rest : Bytes) (f : Font) (hr : rest ≠ [])
    (hf : f.data = h.bytes ++ rest)
    (hn : h.name.length + h.family.length + h.author.length ≤ 222) :
    f.about = .ok h.about := by
  have hD : At f.data 0 (h.bytes ++ rest) := by rw [hf]; simpa using At.intro [] (h.bytes ++ rest) []
  have hD' := hD.left
  have hR := hD.right
  obtain ⟨_, _, _, _, _, _, _, h8, h9, h10, h11, h12, h13, h14, h15⟩ := header_at hD'
  rw [Font.about, le_rd8 h8 (by omega), Res.ok_bind, show u8 (29 + h.name.length) = 29 + h.name.length
    by rw [u8]; omega, le_rd8 h10 (by have := hv.family; omega), Res.ok_bind,
    show u8 (30 + h.name.length + h.family.length) = 30 + h.name.length + h.family.length by
      rw [u8]; omega, le_rd8 h12 (by have := hv.author; omega), Res.ok_bind,
    show u8 (31 + h.name.length + h.family.length + h.author.length) =
      31 + h.name.length + h.family.length + h.author.length by rw [u8]; omega,
    show u8 (33 + h.name.length + h.family.length + h.author.length) =
      33 + h.name.length + h.family.length + h.author.length by rw [u8]; omega]
  have hs := h14.le_fits
  simp only
  rw [show u8 (31 + h.name.length + h.family.length + h.author.length + 2) =
      31 + h.name.length + h.family.length + h.author.length + 2 by rw [u8]; omega,
    slice_sub (by omega) hs, Res.ok_bind,
    show 31 + h.name.length + h.family.length + h.author.length + 2 -
      (31 + h.name.length + h.family.length + h.author.length) = 2 by omega, Spec.sub, h14.le,
    Helpers.decodeUint16LE_eq (by simp [le_length]), List.take_of_length_le (by simp [le_length]),
    le_value, Nat.mod_eq_of_lt (by have := hv.about; omega), Res.ok_bind]
  refine unsafeString_at h15 ?_
  have h16 := hR.len
  rw [bytes_about, List.length_append, preAbout_length, List.length_append, le_length] at h16
  have : 0 < rest.length := List.length_pos_iff.2 hr
  omega

/-- The bound of `family_partial` is exact: whatever the other fields, with a longer name there is a
family name that is not read back. -/
theorem family_violated (h : Header) (hn : 226 ≤ h.name.length) (rest : Bytes) :
    ∃ family : Bytes, family.length ≤ 2 ∧ ∀ f : Font,
      f.data = { h with family := family }.bytes ++ rest → f.family ≠ .ok family := by
  by_cases hb : h.name.length = 226
  · -- the length is found, the text is looked for at position 0
    refine ⟨[UInt8.ofNat (h.format % 256) + 1], by simp, ?_⟩
    intro f hf
    have hD : At f.data 0 { h with family := [UInt8.ofNat (h.format % 256) + 1] }.bytes := by
      rw [hf]; simpa using At.intro [] _ rest
    obtain ⟨h0, _, _, _, _, _, _, h8, h9, h10, h11, _⟩ := header_at hD
    simp only [hb] at h8 h10 h11
    rw [Font.family, le_rd8 h8 (by omega), Res.ok_bind]
    rw [show u8 (29 + 226) = 29 + 226 from rfl, le_rd8 h10 (by simp), Res.ok_bind,
      show u8 (30 + 226) = 0 from rfl]
    have := h11.len
    simp only [List.length_cons, List.length_nil] at this
    rw [unsafeString_eq (by omega) (by simp; omega)]
    obtain ⟨_, t, ht⟩ := h0
    rw [← ht]
    simp only [le, List.cons_append, List.length_singleton, List.take_succ_cons, List.take_zero, ne_eq,
      Res.ok.injEq, List.cons.injEq, and_true]
    intro he
    exact succ_ne _ he
  · have key := two_lengths (g := fun s : Bytes => (⟨{ h with family := s }.bytes ++ rest, 0, 0, 0, 0, 0,
      0, 0, 0, 0, 0, 0, 0, 0, 0, 0, 0, 0⟩ : Font).family) (len := List.length) id (fun _ => rfl) (by
        intro x y hx hy
        refine (same_lengths ?_).1 x y hx hy
        simp only [bytes_family, List.append_assoc]
        have : preFamily { h with family := [0] } = preFamily { h with family := [0, 0] } := rfl
        rw [this]
        have hl := preFamily_length { h with family := [0, 0] }
        simp only at hl
        exact take_256_append (by omega))
    obtain ⟨s, hs, hx⟩ := key
    refine ⟨s, hs, ?_⟩
    intro f hf he
    refine hx s ?_ rfl
    rw [← he]
    simp only [Font.family, hf]

/-- The bound of `author_partial` is exact. -/
theorem author_violated (h : Header) (hn : 225 ≤ h.name.length + h.family.length) (rest : Bytes)
    (hv : h.Fits) :
    ∃ author : Bytes, author.length ≤ 2 ∧ ∀ f : Font,
      f.data = { h with author := author }.bytes ++ rest → f.author ≠ .ok author := by
  by_cases hb : h.name.length + h.family.length = 225
  · refine ⟨[UInt8.ofNat (h.format % 256) + 1], by simp, ?_⟩
    intro f hf
    have hD : At f.data 0 { h with author := [UInt8.ofNat (h.format % 256) + 1] }.bytes := by
      rw [hf]; simpa using At.intro [] _ rest
    obtain ⟨h0, _, _, _, _, _, _, h8, h9, h10, h11, h12, h13, _⟩ := header_at hD
    simp only at h8 h9 h10 h11 h12 h13
    have hv1 := hv.family
    rw [Font.author, le_rd8 h8 (by omega), Res.ok_bind,
      show u8 (29 + h.name.length) = 29 + h.name.length by rw [u8]; omega,
      le_rd8 h10 (by omega), Res.ok_bind, show u8 (30 + h.name.length + h.family.length) =
        30 + h.name.length + h.family.length by rw [u8]; omega, le_rd8 h12 (by simp), Res.ok_bind,
      show u8 (31 + h.name.length + h.family.length) = 0 by rw [u8]; omega]
    have := h13.len
    simp only [List.length_cons, List.length_nil] at this
    rw [unsafeString_eq (by omega) (by simp; omega)]
    obtain ⟨_, t, ht⟩ := h0
    rw [← ht]
    simp only [le, List.cons_append, List.length_singleton, List.take_succ_cons, List.take_zero, ne_eq,
      Res.ok.injEq, List.cons.injEq, and_true]
    intro he
    exact succ_ne _ he
  · have key := two_lengths (g := fun s : Bytes => (⟨{ h with author := s }.bytes ++ rest, 0, 0, 0, 0, 0,
      0, 0, 0, 0, 0, 0, 0, 0, 0, 0, 0, 0⟩ : Font).author) (len := List.length) id (fun _ => rfl) (by
        intro x y hx hy
        refine (same_lengths ?_).2.1 x y hx hy
        simp only [bytes_author, List.append_assoc]
        have : preAuthor { h with author := [0] } = preAuthor { h with author := [0, 0] } := rfl
        rw [this]
        have hl := preAuthor_length { h with author := [0, 0] }
        simp only at hl
        exact take_256_append (by omega))
    obtain ⟨s, hs, hx⟩ := key
    refine ⟨s, hs, ?_⟩
    intro f hf he
    refine hx s ?_ rfl
    rw [← he]
    simp only [Font.author, hf]

/-- The bound of `about_partial` is exact (with 223 or 224 bytes the accessor panics). -/
theorem about_violated (h : Header) (hn : 223 ≤ h.name.length + h.family.length + h.author.length)
    (rest : Bytes) (hv : h.Fits) :
    ∃ about : Bytes, about.length ≤ 2 ∧ ∀ f : Font,
      f.data = { h with about := about }.bytes ++ rest → f.about ≠ .ok about := by
  by_cases hb : h.name.length + h.family.length + h.author.length ≤ 224
  · refine ⟨[], by simp, ?_⟩
    intro f hf
    have hD : At f.data 0 { h with about := [] }.bytes := by
      rw [hf]; simpa using At.intro [] _ rest
    obtain ⟨h0, _, _, _, _, _, _, h8, h9, h10, h11, h12, h13, h14, h15⟩ := header_at hD
    simp only at h8 h9 h10 h11 h12 h13 h14 h15
    have hv1 := hv.family
    have hv2 := hv.author
    rw [Font.about, le_rd8 h8 (by omega), Res.ok_bind,
      show u8 (29 + h.name.length) = 29 + h.name.length by rw [u8]; omega,
      le_rd8 h10 (by omega), Res.ok_bind, show u8 (30 + h.name.length + h.family.length) =
        30 + h.name.length + h.family.length by rw [u8]; omega, le_rd8 h12 (by omega), Res.ok_bind,
      show u8 (31 + h.name.length + h.family.length + h.author.length) =
        31 + h.name.length + h.family.length + h.author.length by rw [u8]; omega]
    simp only
    rw [slice, if_neg]
    · simp
    · rw [u8]; omega
  · have key := two_lengths (g := fun s : Bytes => (⟨{ h with about := s }.bytes ++ rest, 0, 0, 0, 0, 0,
      0, 0, 0, 0, 0, 0, 0, 0, 0, 0, 0, 0⟩ : Font).about) (len := List.length) id (fun _ => rfl) (by
        intro x y hx hy
        refine (same_lengths ?_).2.2 x y hx hy
        simp only [bytes_about, List.append_assoc]
        have : preAbout { h with about := [0] } = preAbout { h with about := [0, 0] } := rfl
        rw [this]
        have hl := preAbout_length { h with about := [0, 0] }
        simp only at hl
        exact take_256_append (by omega))
    obtain ⟨s, hs, hx⟩ := key
    refine ⟨s, hs, ?_⟩
    intro f hf he
    refine hx s ?_ rfl
    rw [← he]
    simp only [Font.about, hf]

/-- What `Build` writes is the header of the format with the fields of the builder. -/
theorem built (env : Env) (b b' : Builder) (f : Font) (h : b.build env = .ok (b', f)) :
    ∃ rest, rest ≠ [] ∧ f.data = Header.bytes
      ⟨2, b.fontID.toNat, b.versionMajor.toNat, b.versionMinor.toNat,
        ⟨b.firstVersionDate.year, b.firstVersionDate.month, b.firstVersionDate.day⟩,
        ⟨b.majorVersionDate.year, b.majorVersionDate.month, b.majorVersionDate.day⟩,
        ⟨b.minorVersionDate.year, b.minorVersionDate.month, b.minorVersionDate.day⟩,
        b.fontName, b.fontFamily, b.fontAuthor, b.fontAbout⟩ ++ rest ∧
      b.fontName.length ≤ 255 ∧ b.fontFamily.length ≤ 255 ∧ b.fontAuthor.length ≤ 255 ∧
      b.fontAbout.length ≤ 65535 := by
  obtain ⟨s, w, bi, hb⟩ := build_parts h
  obtain ⟨hh, hl⟩ := headerSection_eq hb.header
  refine ⟨(s.list.drop 1).flatten, ?_, ?_, hl⟩
  · simp [Parts.list, hb.metrics, Builder.metricsSection, Helpers.appendUint16LE]
  · rw [hb.font, Parts.font, show s.list = s.header :: s.list.drop 1 from rfl, List.flatten_cons, hh]
    rfl

/-- A builder with a name of 226 bytes, all set with the public functions: the built font has another
family name. -/
theorem built_violated : ∃ f : Font, (Sample.longName.build Sample.env = .ok (Sample.longName, f)) ∧
    Sample.longName.fontFamily = ascii "Fam" ∧ f.family = .ok [2, 0, 0] := by
  refine ⟨(Sample.result Sample.longName).2, ?_, ?_, ?_⟩ <;> decide +kernel

/-- A built font returns the header fields of the builder, within the bounds above. The three
conditions on dates say that they are values of the Go type. -/
theorem built_read_partial (env : Env) (b b' : Builder) (f : Font) (h : b.build env = .ok (b', f))
    (h1 : b.firstVersionDate.year < 65536 ∧ b.firstVersionDate.month < 256 ∧
      b.firstVersionDate.day < 256)
    (h2 : b.majorVersionDate.year < 65536 ∧ b.majorVersionDate.month < 256 ∧
      b.majorVersionDate.day < 256)
    (h3 : b.minorVersionDate.year < 65536 ∧ b.minorVersionDate.month < 256 ∧
      b.minorVersionDate.day < 256) :
    f.formatVersion = .ok 2 ∧ f.id = .ok b.fontID.toNat ∧
    f.versionMajor = .ok b.versionMajor.toNat ∧ f.versionMinor = .ok b.versionMinor.toNat ∧
    f.firstVersionDate = .ok b.firstVersionDate ∧ f.majorVersionDate = .ok b.majorVersionDate ∧
    f.minorVersionDate = .ok b.minorVersionDate ∧ f.name = .ok b.fontName ∧
    (b.fontName.length ≤ 225 → f.family = .ok b.fontFamily) ∧
    (b.fontName.length + b.fontFamily.length ≤ 224 → f.author = .ok b.fontAuthor) ∧
    (b.fontName.length + b.fontFamily.length + b.fontAuthor.length ≤ 222 →
      f.about = .ok b.fontAbout) := by
  obtain ⟨rest, hr, hd, hl1, hl2, hl3, hl4⟩ := built env b b' f h
  have hv : Header.Fits
      ⟨2, b.fontID.toNat, b.versionMajor.toNat, b.versionMinor.toNat,
        ⟨b.firstVersionDate.year, b.firstVersionDate.month, b.firstVersionDate.day⟩,
        ⟨b.majorVersionDate.year, b.majorVersionDate.month, b.majorVersionDate.day⟩,
        ⟨b.minorVersionDate.year, b.minorVersionDate.month, b.minorVersionDate.day⟩,
        b.fontName, b.fontFamily, b.fontAuthor, b.fontAbout⟩ :=
    ⟨by simp, UInt64.toNat_lt _, UInt16.toNat_lt _, UInt16.toNat_lt _, h1, h2, h3, hl1, hl2, hl3, hl4⟩
  obtain ⟨a1, a2, a3, a4, a5, a6, a7, a8⟩ := fixed_fields _ hv rest f hd
  exact ⟨a1, a2, a3, a4, a5, a6, a7, a8, family_partial _ hv rest f hd, author_partial _ hv rest f hd,
    about_partial _ hv rest f hr hd⟩

/-- The hypotheses are met: a built font with all fields set. -/
example : ∃ f, Sample.oneGlyph.build Sample.env = .ok ((Sample.result Sample.oneGlyph).1, f) ∧
    f.author = .ok (ascii "Authorless") ∧ f.about = .ok (ascii "No information available.") ∧
    f.minorVersionDate = .ok ⟨2024, 5, 17⟩ := by
  refine ⟨(Sample.result Sample.oneGlyph).2, ?_, ?_, ?_, ?_⟩ <;> decide +kernel

/-- And a header with the longest name for which the family name is found. -/
example : ∃ h : Header, h.Fits ∧ h.name.length = 225 ∧ h.family = [1, 2] :=
  ⟨⟨2, 5, 1, 2, ⟨1999, 1, 2⟩, ⟨2000, 12, 31⟩, ⟨0, 0, 0⟩, List.replicate 225 97, [1, 2], [3], []⟩,
    by constructor <;> (try unfold YMD.Fits) <;> decide +kernel, List.length_replicate, rfl⟩

end C16
