import Verif.Lemmas.RuleCode
import Verif.Lemmas.ScanRefuses
import Verif.Spec.SampleRules

/-!
# C31: encoded rewrite rules scan back to the same elements

Rules scan back for every division in fragments, also the one made by the builder. Two parts fail. The
builder makes rules that the scanner refuses (no output elements, more output elements than the body, the
code point U+FFFD), and malformed rules can panic or be accepted.
-/

namespace C31
open Go Spec ScannerModel BuilderModel Builder

/-! ## Scanning encoded rules -/

/-- Every encoded rule over glyphs yields its elements with their blocks, and ends. -/
theorem scan_glyph (r : RuleCode) (h : r.Ok (· < 56789)) :
    scanRule glyphKind (r.bytes word16) = .ok (r.elems.map (pair glyphKind)) :=
  scanRule_ok glyph_coded (by decide) (by decide) r h

/-- The same for code points. -/
theorem scan_utf8 (r : RuleCode) (h : r.Ok fun v => v < 4294967296 ∧ v ≠ 65533) :
    scanRule utf8Kind (r.bytes word32) = .ok (r.elems.map (pair utf8Kind)) :=
  scanRule_ok utf8_coded (by decide) (by decide) r h

example : RuleCode.Ok (· < 56789) ⟨3, [7], [⟨[2], [300]⟩, ⟨[], [4]⟩], [⟨[0, 1], []⟩], []⟩ := by
  refine ⟨?_, ?_, by simp, by decide, by decide, by decide⟩
  · intro f hf
    simp only [List.mem_cons, List.not_mem_nil, or_false] at hf
    rcases hf with rfl | rfl <;> exact ⟨by decide, by decide, by decide, by decide, by decide⟩
  · intro f hf
    simp only [List.mem_cons, List.not_mem_nil, or_false] at hf
    subst hf
    exact ⟨by decide, by decide, by decide, by decide, by decide⟩

example : scanRule glyphKind [3, 3, 2, 0, 1, 7, 0, 0x11, 2, 44, 1, 0x01, 4, 0, 0x20, 0, 1, 0] =
    .ok [(0, 65535, 2), (0, 300, 255), (0, 4, 255), (1, 65535, 0), (1, 65535, 1)] := by decide

/-- Rules with other words than glyphs are refused, wherever they are in the rule. -/
theorem scan_glyph_refused (r : RuleCode) (h : r.Ok (· < 65536)) {b x : Nat} (hx : (b, InElem.one x) ∈ r.elems)
    (hv : 56789 ≤ x) : scanRule glyphKind (r.bytes word16) = .err invalidRule := glyph_refuses h hx hv

/-- So are rules with the code point U+FFFD, the only one that is refused (`scan_utf8`). -/
theorem scan_utf8_refused (r : RuleCode) (h : r.Ok (· < 4294967296)) {b : Nat} (hx : (b, InElem.one 65533) ∈ r.elems) :
    scanRule utf8Kind (r.bytes word32) = .err invalidRule := utf8_refuses h hx

example : RuleCode.Ok (· < 65536) ⟨3, [7], [⟨[2], [300]⟩, ⟨[], [60000]⟩], [⟨[0, 1], [65533]⟩], []⟩ ∧
    (0, InElem.one 60000) ∈ (⟨3, [7], [⟨[2], [300]⟩, ⟨[], [60000]⟩], [⟨[0, 1], [65533]⟩], []⟩ : RuleCode).elems := by
  refine ⟨⟨?_, ?_, by simp, by decide, by decide, by decide⟩, by decide⟩
  · intro f hf
    simp only [List.mem_cons, List.not_mem_nil, or_false] at hf
    rcases hf with rfl | rfl <;> exact ⟨by decide, by decide, by decide, by decide, by decide⟩
  · intro f hf
    simp only [List.mem_cons, List.not_mem_nil, or_false] at hf
    subst hf
    exact ⟨by decide, by decide, by decide, by decide, by decide⟩

/-! ## The rules of the builder -/

/-- Rules added for glyphs keep the input that was given. -/
theorem added_glyph {b b' : Builder} {hl bl tl : UInt8} {input out : List Nat}
    (h : b.addGlyphRule hl bl tl input out = .ok b') : ∃ r bits, b' = { b with glyphRules := b.glyphRules ++ [r] } ∧
      RuleOk r bits ∧ r.headLen = hl.toNat ∧ r.bodyLen = bl.toNat ∧ r.tailLen = tl.toNat ∧ r.output = out ∧
      r.condition = 255 ∧ merge bits r.inGroups r.inElems = input.map b.inElem :=
  addGlyphRule_ok h

/-- Rules added for code points keep the sequence that was given. -/
theorem added_utf8 {b b' : Builder} {c : Nat} {seq : List Nat}
    (h : b.addSimpleUtf8Rule c seq = .ok b') : ∃ r bits, b' = { b with utf8Rules := b.utf8Rules ++ [r] } ∧
      RuleOk r bits ∧ r.headLen = 0 ∧ r.bodyLen = seq.length ∧ r.tailLen = 0 ∧ r.output = [c] ∧
      r.condition = 255 ∧ 0 < seq.length ∧ merge bits r.inGroups r.inElems = seq.map .one :=
  addSimpleUtf8Rule_ok h

/-- Scanning what the builder writes for a rule over glyphs yields the elements of the rule in order with
their blocks. Missing: rules without output elements and with more of them than the body, which the
scanner refuses (`output_violated`). -/
theorem built_glyph_partial {b : Builder} (hn : b.glyphOrder.Nodup) (hl : b.glyphOrder.length ≤ 56789)
    (hs : b.glyphSetsOrder.Nodup) (hsl : b.glyphSetsOrder.length ≤ 256) {r : Rule} {bits : List Bool}
    (hr : RuleOk r bits) (ho : 0 < r.output.length) (hob : r.output.length ≤ r.bodyLen) {x : Bytes}
    (hx : ruleBytes b.groupRef b.glyphElem r = .ok x) :
    ∃ elems : List (Nat × InElem), scanRule glyphKind x = .ok (elems.map (pair glyphKind)) ∧
      elems.map (fun p => (p.1, b.glyphBack p.2)) =
        (blocks r).zip ((merge bits r.inGroups r.inElems).map some) := by
  obtain ⟨rc, rfl, _, h1, h2, h3, h4, h5, h6, h7, _, h8⟩ := ruleBytes_enc (glyph_codes hn hl hs hsl) hr hx
  refine ⟨rc.elems, scan_glyph rc ⟨h1, h2, h3, ?_, by omega, by omega⟩, h8⟩
  have := hr.len
  have := hr.le
  omega

/-- The same for code points, where the elements are the code points themselves. -/
theorem built_utf8_partial {r : Rule} {bits : List Bool} (hr : RuleOk r bits) (ho : 0 < r.output.length)
    (hob : r.output.length ≤ r.bodyLen) (hc : ∀ c ∈ r.inElems, c < 4294967296 ∧ c ≠ 65533) {x : Bytes}
    (hx : ruleBytes noGroup runeElem r = .ok x) :
    scanRule utf8Kind x = .ok (((blocks r).zip (merge bits r.inGroups r.inElems)).map (pair utf8Kind)) := by
  obtain ⟨rc, rfl, _, h1, h2, h3, h4, h5, h6, h7, _, h8⟩ := ruleBytes_enc (rune_codes (fun _ => True) fun _ => trivial) hr hx
  have he : rc.elems = (blocks r).zip (merge bits r.inGroups r.inElems) := zip_some h8
  have hmem : ∀ v, (.one v : InElem) ∈ merge bits r.inGroups r.inElems → v ∈ r.inElems := fun v => merge_one_mem
  have key : ∀ fs : List Fragment, (∀ f ∈ fs, f.Ok fun _ => True) →
      (∀ v, (.one v : InElem) ∈ blockElems fs → v ∈ r.inElems) →
      ∀ f ∈ fs, f.Ok fun v => v < 4294967296 ∧ v ≠ 65533 := by
    intro fs h hm f hf
    obtain ⟨a1, a2, a3, a4, _⟩ := h f hf
    refine ⟨a1, a2, a3, a4, fun v hv => hc v (hm v ?_)⟩
    rw [blockElems, List.mem_flatMap]
    exact ⟨f, hf, by simp [Fragment.elems, hv]⟩
  have sub : ∀ k v, (k, (.one v : InElem)) ∈ rc.elems → v ∈ r.inElems := by
    intro k v hv
    rw [he] at hv
    exact hmem v (List.of_mem_zip hv).2
  rw [← he]
  refine scan_utf8 rc ⟨key _ h1 ?_, key _ h2 ?_, key _ h3 ?_, ?_, by omega, by omega⟩
  · intro v hv; exact sub 0 v (by simp [RuleCode.elems, hv])
  · intro v hv; exact sub 1 v (by simp [RuleCode.elems, hv])
  · intro v hv; exact sub 2 v (by simp [RuleCode.elems, hv])
  · have := hr.len
    have := hr.le
    omega

/-- A rule of the sample builder, with the set 77 (the only one) before the glyph 1002 (the second one). -/
example : mapRes (ruleBytes Sample.ruled.groupRef Sample.ruled.glyphElem) Sample.ruled.glyphRules =
      .ok [[255, 1, 1, 0, 1, 3, 0, 0x10, 0, 0x01, 1, 0, 0]] ∧
    scanRule glyphKind [255, 1, 1, 0, 1, 3, 0, 0x10, 0, 0x01, 1, 0, 0] = .ok [(0, 65535, 0), (1, 1, 255)] ∧
    [(0, InElem.set 0), (1, .one 1)].map (fun p => (p.1, Sample.ruled.glyphBack p.2)) =
      [(0, some (.set 77)), (1, some (.one 1002))] := by decide +kernel

/-- The builder takes rules without output elements and rules with more of them than the body, which the
scanner refuses. -/
theorem output_violated :
    (∃ b', Sample.withSet.addGlyphRule 0 1 0 [1001] [] = .ok b' ∧
      ∃ x, mapRes (ruleBytes b'.groupRef b'.glyphElem) b'.glyphRules = .ok [x] ∧
        (scanRule glyphKind x).isErr = true) ∧
    (∃ b', Sample.withSet.addGlyphRule 0 1 0 [1001] [1002, 1003] = .ok b' ∧
      ∃ x, mapRes (ruleBytes b'.groupRef b'.glyphElem) b'.glyphRules = .ok [x] ∧
        (scanRule glyphKind x).isErr = true) := by
  refine ⟨⟨_, rfl, [255, 0, 1, 0, 0, 0, 1, 0, 0, 0], ?_, ?_⟩,
    ⟨_, rfl, [255, 0, 1, 0, 2, 1, 0, 2, 0, 0, 1, 0, 0, 0], ?_, ?_⟩⟩ <;> decide +kernel

/-- The builder takes the code point U+FFFD, which the scanner refuses. -/
theorem rune_error_violated : ∃ b', Sample.withSet.addSimpleUtf8Rule 63 [65533] = .ok b' ∧
    ∃ x, mapRes (ruleBytes noGroup runeElem) b'.utf8Rules = .ok [x] ∧
      (scanRule utf8Kind x).isErr = true := by
  refine ⟨_, rfl, [255, 0, 1, 0, 1, 63, 0, 0, 0, 0, 1, 0xFD, 0xFF, 0, 0, 0], ?_, ?_⟩ <;> decide +kernel

/-! ## Malformed rules -/

/-- A rule that ends before its first control byte: `Start` panics. -/
theorem start_violated : (start glyphKind [255, 0, 9, 0, 9, 0, 0, 0, 0, 0, 0]).isPanic = true := by decide

/-- A control byte zero where elements are due: the error is dropped by `Start` and `Next` panics. -/
theorem control_violated : (scanRule glyphKind [255, 0, 1, 0, 1, 7, 0, 0, 0, 0x01, 1, 0]).isPanic = true := by decide

/-- Bytes after the end of the rule: `Next` panics. -/
theorem trailing_violated : (scanRule glyphKind [255, 0, 1, 0, 1, 7, 0, 0, 0x01, 1, 0, 0, 0]).isPanic = true := by decide

/-- A rule cut off after the control byte of its tail is accepted, with the tail missing. -/
theorem truncated_violated : scanRule glyphKind [255, 0, 1, 1, 1, 7, 0, 0, 0x01, 1, 0, 0x01] = .ok [(1, 1, 255)] := by
  decide

/-- A rule without input elements is accepted although its body has two. -/
theorem empty_violated : scanRule glyphKind [255, 0, 2, 0, 2, 7, 0, 8, 0, 0, 0] = .ok [] := by decide

/-- The safety that does hold: in every state that can be reached with any bytes, `Next` panics exactly when
the fragment has no elements left. -/
theorem next_panics_partial {k : Kind} (hk : k = glyphKind ∨ k = utf8Kind) {rule : Bytes} {s : Scanner}
    (h : Reached k rule s) : (next k s).isPanic = true ↔ s.remSets = 0 ∧ s.remElems = 0 := by
  have hs : k.Safe := by
    rcases hk with rfl | rfl
    · exact glyph_safe
    · exact utf8_safe
  obtain ⟨h1, h2, h3⟩ := reached_inv hs h
  constructor
  · intro hp
    by_cases h0 : 0 < s.remSets + s.remElems
    · rcases next_cases hs h2 (by rw [h1]; exact h3) h0 with h | ⟨t, y, h4, _⟩
      · rw [h] at hp; simp at hp
      · rw [h4] at hp; simp at hp
    · omega
  · intro h0
    exact next_zero (by omega)

example : Reached glyphKind [255, 0, 1, 0, 1, 7, 0, 0, 0x01, 1, 0, 0]
    ⟨[255, 0, 1, 0, 1, 7, 0, 0, 0x01, 1, 0, 0], 9, 1, 0, 1, 0, 0, 1⟩ := .start (by decide)

/-- Rules below the minimum length are refused. -/
theorem short_refused (k : Kind) (rule : Bytes) (h : rule.length < k.minLen) : start k rule = .err invalidRule := by
  rw [start, if_pos h]

/-- An element that ends the bytes is only accepted if nothing is missing: no elements of the fragment or of
the block, no body, and no tail. -/
theorem end_checked {k : Kind} {s s' : Scanner} {x : Nat × Nat} (h : next k s = .ok (s', x))
    (hl : s.rule.length ≤ u16 (s.dataIndex + if s.remSets > 0 then 1 else k.width)) :
    s'.remSets = 0 ∧ s'.remElems = 0 ∧ s'.remBlock = 0 ∧
      (s'.block = 1 ∧ rdb s'.rule 3 = .ok 0 ∨ s'.block = 2 ∧ rdb s'.rule 3 = .ok (u8 (s'.accSets + s'.accElems))) := by
  have key : ∀ t : Scanner, t.rule.length ≤ t.dataIndex → ∀ t', afterElem t = .ok t' →
      t'.remSets = 0 ∧ t'.remElems = 0 ∧ t'.remBlock = 0 ∧
      (t'.block = 1 ∧ rdb t'.rule 3 = .ok 0 ∨ t'.block = 2 ∧ rdb t'.rule 3 = .ok (u8 (t'.accSets + t'.accElems))) := by
    intro t ht t' h
    rw [afterElem, if_pos ht] at h
    simp only [Res.bind_eq_ok, Res.pure_eq, Res.ok.injEq] at h
    obtain ⟨_, hc, rfl⟩ := h
    unfold checkTermination at hc
    split at hc
    · cases hc
    rename_i h1
    split at hc
    · cases hc
    refine ⟨by omega, by omega, by omega, ?_⟩
    split at hc
    · rename_i hb
      rw [Res.bind_eq_ok] at hc
      obtain ⟨n, hn, hc⟩ := hc
      split at hc
      · cases hc
      · rename_i h0
        exact Or.inl ⟨hb, by rw [hn]; congr 1; omega⟩
    · split at hc
      · rename_i hb
        rw [Res.bind_eq_ok] at hc
        obtain ⟨n, hn, hc⟩ := hc
        split at hc
        · cases hc
        · rename_i h0
          exact Or.inr ⟨hb, by rw [hn]; congr 1; omega⟩
      · cases hc
  unfold next at h
  split at h
  · rename_i h1
    rw [if_pos h1] at hl
    simp only at h
    split at h
    · cases h
    simp only [Res.bind_eq_ok, Res.pure_eq, Res.ok.injEq] at h
    obtain ⟨_, _, t', ht, he⟩ := h
    cases he
    exact key _ (by exact hl) _ ht
  · rename_i h1
    rw [if_neg h1] at hl
    split at h
    · simp only at h
      split at h
      · cases h
      simp only [Res.bind_eq_ok] at h
      obtain ⟨_, _, _, _, h⟩ := h
      split at h
      · cases h
      simp only [Res.bind_eq_ok, Res.pure_eq, Res.ok.injEq] at h
      obtain ⟨t', ht, he⟩ := h
      cases he
      exact key _ (by exact hl) _ ht
    · split at h <;> cases h

example : next glyphKind ⟨[255, 0, 1, 1, 1, 7, 0, 0, 0x01, 1, 0, 0x01, 4, 0], 12, 2, 0, 1, 0, 0, 1⟩ =
    .ok (⟨[255, 0, 1, 1, 1, 7, 0, 0, 0x01, 1, 0, 0x01, 4, 0], 14, 2, 0, 0, 0, 0, 1⟩, 4, 255) := by decide

/-- Every byte string of at most 65535 bytes is scanned with at most as many steps as it has bytes. -/
theorem scan_ends {k : Kind} (hk : k = glyphKind ∨ k = utf8Kind) {rule : Bytes} (hl : rule.length ≤ 65535)
    {s : Scanner} (h : start k rule = .ok s) (n : Nat) : scan k rule.length s = scan k (rule.length + n) s := by
  have hs : k.Safe := by
    rcases hk with rfl | rfl
    · exact glyph_safe
    · exact utf8_safe
  induction n with
  | zero => rfl
  | succ n ih => rw [ih]; exact scan_fuel hs hl _ (.start h) (by omega)

example : ∃ s, start glyphKind [255, 0, 1, 0, 1, 7, 0, 0, 0x01, 1, 0, 0] = .ok s := ⟨_, rfl⟩

end C31
