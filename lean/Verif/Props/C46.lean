import Verif.Lemmas.EditionLoad
import Verif.Lemmas.BrokenReader
import Verif.Lemmas.SampleEdition

/-!
# C46: `ParseEditionData`

Property: files of the specified format that belong to the font are loaded; anything else gives an error that
leaves the builder as it was, without edition data; there are no panics.

Files are loaded when they have the format that the code reads (`EditionData.bytes`, `Valid`), and what they
contain is what the builder gets (`Loaded`). All else fails: the format of the specification (24-bit counts), sizes
of categories and numbers of classes (unchecked), data after the end, glyphs that do not exist (panic), and
pairs that stay after an error.
-/

namespace C46
open Go ParseBuf BuilderModel EditionModel Spec

variable {e e' : Editor} {D : Bytes} {first : Ev} {gz : Res Reader}

/-- **C46, loading.** Data that belongs to the builder is loaded, in any chunks. -/
theorem loaded_partial (junk : Nat → UInt8) (hn : Named e) {x : EditionData} (hx : x.Valid e.builder)
    (hl : x.bytes.length ≤ FontModel.maxFontDataSize) (hf : FileWith editionSignature x.bytes first gz) :
    ∃ e', parseEditionData junk first gz e = .ok (none, e') ∧ Loaded x e e' := by
  obtain ⟨r, hr, hp⟩ := parseEditionData_file (e := e) junk hf
  rw [hp]
  rcases editionStream_outcome junk hr hl hn with ⟨y, hy, py, _, h⟩ | ⟨_, h, _⟩ | ⟨_, h, _⟩
  · obtain ⟨h1, h2⟩ := starts_iff hn.1 hx hy (List.prefix_refl _) py
    rcases h with h | ⟨_, h⟩
    · exact ⟨_, h, h2 ▸ loaded_applied hx⟩
    · omega
  · exact absurd ⟨x, hx, List.prefix_refl _⟩ h
  · exact absurd ⟨x, hx, List.prefix_refl _⟩ h

/-- **C46, nothing else is loaded.** Without an error, the data starts with contents that belong to the builder, and
the builder has them. -/
theorem only_valid_partial (junk : Nat → UInt8) (hn : Named e) (hl : D.length ≤ FontModel.maxFontDataSize)
    (hf : FileWith editionSignature D first gz) (h : parseEditionData junk first gz e = .ok (none, e')) :
    ∃ x : EditionData, x.Valid e.builder ∧ x.bytes <+: D ∧ Loaded x e e' := by
  obtain ⟨r, hr, hp⟩ := parseEditionData_file (e := e) junk hf
  rw [hp] at h
  rcases editionStream_outcome junk hr hl hn with ⟨y, hy, py, _, g⟩ | ⟨_, _, g⟩ | ⟨_, _, m, _, g⟩
  · rcases g with g | ⟨g, _⟩
    · rw [g] at h
      simp only [Res.ok.injEq, Prod.mk.injEq, true_and] at h
      exact ⟨y, hy, py, h ▸ loaded_applied hy⟩
    · rw [g] at h; cases h
  · rw [g] at h; cases h
  · rw [g] at h; cases h

/-- **C46, other files.** Another signature, or data that is not gzipped, is an error. -/
theorem other_files (junk : Nat → UInt8)
    (h : first.status ≠ .nil ∨ first.bytes ≠ editionSignature ∨ ∃ m, gz = .err m) :
    ∃ m e', parseEditionData junk first gz e = .ok (some m, e') := by
  unfold parseEditionData
  simp only
  split
  · exact ⟨_, _, rfl⟩
  split
  · exact ⟨_, _, rfl⟩
  · rename_i h1 h2
    rcases h with h | h | ⟨m, rfl⟩
    · exact absurd (Or.inl h) h1
    · exact absurd h h2
    · exact ⟨_, _, rfl⟩

/-- A file whose compressed stream is broken (cut, or with a wrong checksum: the reader gives an error instead of
the end of the file) never loads without an error, even if all its data was read before. -/
theorem broken_rejected (junk : Nat → UInt8) {r : Reader} (hr : r.Broken) :
    parseEditionData junk first (.ok r) e ≠ .ok (none, e') := by
  unfold parseEditionData
  simp only
  split
  · simp
  · split
    · simp
    · exact editionStream_endless junk hr _ _

example : (⟨[⟨Sample.editionData.bytes, .nil⟩], .err "gzip: invalid checksum"⟩ : Reader).Broken ∧
    Sample.editionData.bytes.length > 0 :=
  ⟨⟨by decide, by decide⟩, by decide +kernel⟩

/-- **C46, errors.** After an error there is no edition data. The rest of the builder is the same, except that there
can be new pairs with value 0. -/
theorem failed_partial {junk : Nat → UInt8} {m : String}
    (h : parseEditionData junk first gz e = .ok (some m, e')) : Failed e e' :=
  parseEditionData_failed h

/-- **C46, panics.** The method panics for glyphs that do not exist; and possibly when there is more data than the
contents. -/
theorem panics_partial (junk : Nat → UInt8) (hn : Named e) (hl : D.length ≤ FontModel.maxFontDataSize)
    (hf : FileWith editionSignature D first gz) {m : String} :
    parseEditionData junk first gz e = .panic m ↔
      (m = "index out of range" ∧ MissingGlyph e.builder D) ∨
      (m = "broken code" ∧ parseEditionData junk first gz e = .panic m ∧
        ∃ x : EditionData, x.Valid e.builder ∧ x.bytes <+: D ∧ x.bytes.length < D.length) := by
  obtain ⟨r, hr, hp⟩ := parseEditionData_file (e := e) junk hf
  rw [hp]
  rcases editionStream_outcome junk hr hl hn with ⟨y, hy, py, g1, g | ⟨g, g2⟩⟩ | ⟨g1, g2, g⟩ | ⟨g1, g2, m', _, g⟩
  · rw [g]; simp [g1]
  · rw [g]
    constructor
    · intro h; cases h
      exact Or.inr ⟨rfl, rfl, y, hy, py, g2⟩
    · rintro (⟨_, h⟩ | ⟨_, h, _⟩)
      · exact absurd h g1
      · exact h
  · rw [g]
    constructor
    · intro h; cases h
      exact Or.inl ⟨rfl, g1⟩
    · rintro (⟨rfl, h⟩ | ⟨_, h, _⟩)
      · rfl
      · exact h
  · rw [g]; simp [g1]

/-- **C46, rejection.** There is an error exactly for data that neither starts with contents that belong to the
builder, nor with a glyph that does not exist in place of such contents. -/
theorem rejected_iff_partial (junk : Nat → UInt8) (hn : Named e) (hl : D.length ≤ FontModel.maxFontDataSize)
    (hf : FileWith editionSignature D first gz) :
    (∃ m e', parseEditionData junk first gz e = .ok (some m, e')) ↔
      ¬ MissingGlyph e.builder D ∧ ¬ ∃ x : EditionData, x.Valid e.builder ∧ x.bytes <+: D := by
  obtain ⟨r, hr, hp⟩ := parseEditionData_file (e := e) junk hf
  rw [hp]
  rcases editionStream_outcome junk hr hl hn with ⟨y, hy, py, g1, g | ⟨g, g2⟩⟩ | ⟨g1, g2, g⟩ | ⟨g1, g2, m', e', g⟩
  · rw [g]; simp only [Res.ok.injEq, Prod.mk.injEq, reduceCtorEq, false_and, exists_false, false_iff]
    exact fun h => h.2 ⟨y, hy, py⟩
  · rw [g]; simp only [reduceCtorEq, exists_false, false_iff]
    exact fun h => h.2 ⟨y, hy, py⟩
  · rw [g]; simp [g1]
  · rw [g]; exact ⟨fun _ => ⟨g1, g2⟩, fun _ => ⟨m', e', rfl⟩⟩

/-- Builders made with the public methods satisfy the hypothesis above. -/
theorem public_named (h : Edits e) : Named e := (edits_named h).1

/-- For every builder with up to 65535 glyphs there is data that makes the method panic. -/
theorem never_panics_violated (hn : Named e) (hg : e.builder.glyphOrder.length ≤ 65535) :
    ∃ D, ∀ junk first gz, FileWith editionSignature D first gz →
      parseEditionData junk first gz e = .panic "index out of range" := by
  let x : EditionData := ⟨e.builder.fontID.toNat, [], [], [], [], []⟩
  refine ⟨x.headBytes ++ badBytes 1 [] ⟨65535, 65535, 1⟩, fun junk first gz hf => ?_⟩
  refine (panics_partial junk hn ?_ hf).2 (Or.inl ⟨rfl, x, 1, [], ⟨65535, 65535, 1⟩,
    ⟨rfl, by simp [x], by simp [x], by simp [x], by simp [x]⟩,
    ⟨by decide, by simp, by simp [PairClass.Fits], Or.inl hg⟩, Or.inl (List.prefix_refl _)⟩)
  have : (x.headBytes ++ badBytes 1 [] ⟨65535, 65535, 1⟩).length = 21 := by
    simp [x, EditionData.headBytes, EditionData.categoryBytes, EditionData.classBytes, badBytes, PairClass.bytes,
      leBytes_length]
  rw [this]; decide +kernel

/-- A file of the specified format is rejected: the code reads 32-bit counts. -/
theorem specified_format_violated : ¬ ∀ (junk : Nat → UInt8) (e : Editor) (x : EditionData) (first : Ev)
    (gz : Res Reader), Edits e → x.Valid e.builder → x.Conforms e.builder →
    FileWith editionSignature x.specBytes first gz →
    ∃ e', parseEditionData junk first gz e = .ok (none, e') := by
  intro h
  obtain ⟨e', h⟩ := h (fun _ => 0) Sample.kernedEditor Sample.editionData ⟨editionSignature, .nil⟩
    (.ok (Sample.atOnce Sample.editionData.specBytes)) Sample.kernedEditor_edits
    Sample.editionData_valid Sample.editionData_conforms
    ⟨rfl, _, rfl, Sample.atOnce_serves (by decide +kernel) (by decide +kernel)⟩
  have : parseEditionData (fun _ => 0) ⟨editionSignature, .nil⟩ (.ok (Sample.atOnce Sample.editionData.specBytes))
      Sample.kernedEditor = .panic "index out of range" := by decide +kernel
  rw [this] at h
  cases h

/-- Data that contradicts the specification is loaded: a category is larger than the font, and the class of a
pair does not exist. -/
theorem conforming_violated : ¬ ∀ (junk : Nat → UInt8) (e e' : Editor) (x : EditionData) (first : Ev)
    (gz : Res Reader), Edits e → FileWith editionSignature x.bytes first gz →
    parseEditionData junk first gz e = .ok (none, e') → x.Conforms e.builder := by
  intro h
  have hp : (match parseEditionData (fun _ => 0) ⟨editionSignature, .nil⟩
      (.ok (Sample.atOnce Sample.nonconforming.bytes)) Sample.kernedEditor with
      | .ok (none, _) => true | _ => false) = true := by decide +kernel
  split at hp
  · rename_i e' he
    have := h (fun _ => 0) Sample.kernedEditor e' Sample.nonconforming _ _ Sample.kernedEditor_edits
      ⟨rfl, _, rfl, Sample.atOnce_serves (by decide +kernel) (by decide +kernel)⟩ he
    exact absurd this.sizes (by decide +kernel)
  · cases hp

/-- Data after the contents is not noticed when it arrives with them, and is a panic when it arrives later. -/
theorem end_violated : ∃ (D : Bytes) (r r' : Reader), Sample.editionData.bytes.length < D.length ∧ r.Serves D ∧
    r'.Serves D ∧
    (∃ e', parseEditionData (fun _ => 0) ⟨editionSignature, .nil⟩ (.ok r) Sample.kernedEditor = .ok (none, e')) ∧
    parseEditionData (fun _ => 0) ⟨editionSignature, .nil⟩ (.ok r') Sample.kernedEditor = .panic "broken code" := by
  refine ⟨Sample.editionData.bytes ++ [7], Sample.atOnce (Sample.editionData.bytes ++ [7]),
    ⟨[⟨Sample.editionData.bytes, .nil⟩, ⟨[7], .nil⟩], .eof⟩, by simp, Sample.atOnce_serves (by simp) (by decide +kernel),
    ⟨by decide +kernel, rfl, ⟨[7], rfl, [], rfl, rfl⟩, ?_⟩, ?_, by decide +kernel⟩
  · refine Or.inr ⟨?_, Or.inr ⟨by simp, trivial⟩⟩
    rintro ⟨_, h⟩
    exact absurd (congrArg List.length h) (by decide +kernel)
  · have hp : (match parseEditionData (fun _ => 0) ⟨editionSignature, .nil⟩
        (.ok (Sample.atOnce (Sample.editionData.bytes ++ [7]))) Sample.kernedEditor with
        | .ok (none, _) => true | _ => false) = true := by decide +kernel
    split at hp
    · rename_i e' he
      exact ⟨e', he⟩
    · cases hp

/-- A pair that was read before the error stays. -/
theorem unchanged_violated : ¬ ∀ (junk : Nat → UInt8) (e e' : Editor) (m : String) (first : Ev)
    (gz : Res Reader), Edits e → parseEditionData junk first gz e = .ok (some m, e') →
    ∀ key, (e'.builder.horzKern.get key).isSome = (e.builder.horzKern.get key).isSome := by
  intro h
  have hp : (match parseEditionData (fun _ => 0) ⟨editionSignature, .nil⟩
      (.ok (Sample.atOnce Sample.badEdition.bytes)) Sample.kernedEditor with
      | .ok (some _, e') => (e'.builder.horzKern.get (1002, 1001)).isSome &&
          !(Sample.kernedEditor.builder.horzKern.get (1002, 1001)).isSome
      | _ => false) = true := by decide +kernel
  split at hp
  · rename_i m e' he
    have := h _ _ _ _ _ _ Sample.kernedEditor_edits he (1002, 1001)
    rw [this, Bool.and_not_self] at hp
    cases hp
  · cases hp

/-- The sample is loaded. -/
example : Edits Sample.kernedEditor ∧ Sample.editionData.Valid Sample.kernedEditor.builder ∧
    Sample.editionData.bytes.length ≤ FontModel.maxFontDataSize ∧
    FileWith editionSignature Sample.editionData.bytes ⟨editionSignature, .nil⟩
      (.ok (Sample.atOnce Sample.editionData.bytes)) ∧
    parseEditionData (fun _ => 0) ⟨editionSignature, .nil⟩ (.ok (Sample.atOnce Sample.editionData.bytes))
      Sample.kernedEditor = .ok (none,
        { builder := { Sample.twoGlyphs with
            kernClasses := [-3, 4]
            horzKern := [((1001, 1002), ⟨1, -2⟩), ((1002, 1001), ⟨2, 0⟩)]
            vertKern := [((1002, 1002), ⟨2, 0⟩)] }
          categories := [(ascii "All letters", 2)]
          classNames := [ascii "tight", ascii "wide"] }) :=
  ⟨Sample.kernedEditor_edits, Sample.editionData_valid, by decide +kernel,
    ⟨rfl, _, rfl, Sample.atOnce_serves (by decide +kernel) (by decide +kernel)⟩, by decide +kernel⟩

/-- Without the last byte, the data is rejected. -/
example : ∃ m, parseEditionData (fun _ => 0) ⟨editionSignature, .nil⟩
    (.ok (Sample.atOnce Sample.editionData.bytes.dropLast)) Sample.kernedEditor = .ok (some m,
        { builder := { Sample.twoGlyphs with
            horzKern := [((1001, 1002), ⟨0, -2⟩), ((1002, 1001), ⟨0, 0⟩)]
            vertKern := [((1002, 1002), ⟨0, 0⟩)] } }) :=
  ⟨"premature end of file (or font offsets are wrong)", by decide +kernel⟩

end C46
