import Verif.Lemmas.RangePair
import Verif.Lemmas.InsideRange
import Verif.Lemmas.InsideApart
import Verif.Spec.SampleTester
import Verif.Lemmas.Scanner

/-!
# C33: rules with overlapping sets compile

The outcome for every pair of ranges in every relative position. Ranges that are apart, equal starts with a
second range that is not shorter, and a first range of one element inside the second are right. The other
overlaps panic, or give the second rule inputs of the first.
-/

namespace C33
open Go Spec ScannerModel TreeModel Helpers

/-- The positions cover everything. -/
theorem positions {a b : Nat} (h : a ≤ b) (x y : Nat) : Spec.Fits a b x y ∨ Split a b x y ∨ Taken a b x y :=
  pair_cases h x y

/-- Two rules that consist of one set with one range each (`a`-`b` with index `q` first, then `x`-`y` with
index `r`), in the positions of `Fits`: they compile and each matches its own inputs, the first rule
those in both ranges. Missing: the other positions, see below. -/
theorem ranges_glyph_partial {mv : Nat → Bool} {sets : Sets} {c : Compiler} (hc : c.compiling = false)
    {i₁ i₂ a b x y q r o₁ o₂ : Nat} {c₁ c₂ : UInt8} (h₁ : i₁ < 255) (h₂ : i₂ < 255) (hq : q < 255) (hr : r < 255)
    (hs₁ : sets i₁ = .ok ([(a, b)], [])) (hs₂ : sets i₂ = .ok ([(x, y)], [])) (ha : a ≤ b) (hx : x ≤ y)
    (hb : b < 65535) (hy : y < 65535) (h : Spec.Fits a b x y) :
    ∃ S c', compile glyphKind mv sets [((RuleCode.oneSet i₁ [o₁] c₁).bytes word16, q),
        ((RuleCode.oneSet i₂ [o₂] c₂).bytes word16, r)] c = .ok (S, c') ∧
      ∀ g w, Tree.run ⟨S, 0, 0, false⟩ (g :: w) =
        .ok (if a ≤ g ∧ g ≤ b then q else if x ≤ g ∧ g ≤ y then r else 255) := by
  have hns : ¬ Split a b x y := by unfold Split; unfold Spec.Fits at h; omega
  obtain ⟨c', h1⟩ := (compile_pair (k := glyphKind) (mv := mv) hc (oneSet_scan_glyph h₁ o₁ c₁) (ne_none h₁) rfl
    (oneSet_scan_glyph h₂ o₂ c₂) (ne_none h₂) rfl hs₁ hs₂ (ne_none hq)
    (ne_none hr) ha hx (glyph_width hb) (glyph_width hy)).2 hns
  exact ⟨_, c', h1, fun g w => pair_run ha hx h g w⟩

/-- The same for code points. -/
theorem ranges_utf8_partial {mv : Nat → Bool} {sets : Sets} {c : Compiler} (hc : c.compiling = false)
    {i₁ i₂ a b x y q r o₁ o₂ : Nat} {c₁ c₂ : UInt8} (h₁ : i₁ < 255) (h₂ : i₂ < 255) (hq : q < 255) (hr : r < 255)
    (hs₁ : sets i₁ = .ok ([(a, b)], [])) (hs₂ : sets i₂ = .ok ([(x, y)], [])) (ha : a ≤ b) (hx : x ≤ y)
    (hb : b < 2147483647) (hy : y < 2147483647) (h : Spec.Fits a b x y) :
    ∃ S c', compile utf8Kind mv sets [((RuleCode.oneSet i₁ [o₁] c₁).bytes word32, q),
        ((RuleCode.oneSet i₂ [o₂] c₂).bytes word32, r)] c = .ok (S, c') ∧
      ∀ g w, Tree.run ⟨S, 0, 0, false⟩ (g :: w) =
        .ok (if a ≤ g ∧ g ≤ b then q else if x ≤ g ∧ g ≤ y then r else 255) := by
  have hns : ¬ Split a b x y := by unfold Split; unfold Spec.Fits at h; omega
  obtain ⟨c', h1⟩ := (compile_pair (k := utf8Kind) (mv := mv) hc (oneSet_scan_utf8 h₁ o₁ c₁) (ne_none h₁) rfl
    (oneSet_scan_utf8 h₂ o₂ c₂) (ne_none h₂) rfl hs₁ hs₂ (ne_none hq)
    (ne_none hr) ha hx (utf8_width hb) (utf8_width hy)).2 hns
  exact ⟨_, c', h1, fun g w => pair_run ha hx h g w⟩

example : Spec.Fits 5 8 5 9 ∧ Spec.Fits 5 5 1 9 ∧ Spec.Fits 5 8 9 9 ∧ Spec.Fits 5 8 1 4 := by unfold Spec.Fits; decide

/-- In the positions of `Split`, compiling always panics. -/
theorem split_glyph_violated {mv : Nat → Bool} {sets : Sets} {c : Compiler} (hc : c.compiling = false)
    {i₁ i₂ a b x y q r o₁ o₂ : Nat} {c₁ c₂ : UInt8} (h₁ : i₁ < 255) (h₂ : i₂ < 255) (hq : q < 255) (hr : r < 255)
    (hs₁ : sets i₁ = .ok ([(a, b)], [])) (hs₂ : sets i₂ = .ok ([(x, y)], [])) (ha : a ≤ b) (hx : x ≤ y)
    (hb : b < 65535) (hy : y < 65535) (h : Split a b x y) :
    compile glyphKind mv sets [((RuleCode.oneSet i₁ [o₁] c₁).bytes word16, q),
        ((RuleCode.oneSet i₂ [o₂] c₂).bytes word16, r)] c = .panic brokenCode :=
  (compile_pair (k := glyphKind) (mv := mv) hc (oneSet_scan_glyph h₁ o₁ c₁) (ne_none h₁) rfl
    (oneSet_scan_glyph h₂ o₂ c₂) (ne_none h₂) rfl hs₁ hs₂ (ne_none hq)
    (ne_none hr) ha hx (glyph_width hb) (glyph_width hy)).1 h

theorem split_utf8_violated {mv : Nat → Bool} {sets : Sets} {c : Compiler} (hc : c.compiling = false)
    {i₁ i₂ a b x y q r o₁ o₂ : Nat} {c₁ c₂ : UInt8} (h₁ : i₁ < 255) (h₂ : i₂ < 255) (hq : q < 255) (hr : r < 255)
    (hs₁ : sets i₁ = .ok ([(a, b)], [])) (hs₂ : sets i₂ = .ok ([(x, y)], [])) (ha : a ≤ b) (hx : x ≤ y)
    (hb : b < 2147483647) (hy : y < 2147483647) (h : Split a b x y) :
    compile utf8Kind mv sets [((RuleCode.oneSet i₁ [o₁] c₁).bytes word32, q),
        ((RuleCode.oneSet i₂ [o₂] c₂).bytes word32, r)] c = .panic brokenCode :=
  (compile_pair (k := utf8Kind) (mv := mv) hc (oneSet_scan_utf8 h₁ o₁ c₁) (ne_none h₁) rfl
    (oneSet_scan_utf8 h₂ o₂ c₂) (ne_none h₂) rfl hs₁ hs₂ (ne_none hq)
    (ne_none hr) ha hx (utf8_width hb) (utf8_width hy)).1 h

example : Split 5 8 5 7 ∧ Split 5 8 6 7 ∧ Split 5 8 8 20 ∧ Split 5 8 1 8 := by unfold Split; decide

/-- In the positions of `Taken`, the tree compiles and the second rule always takes the first input of the
first one, which was added before. -/
theorem taken_glyph_violated {mv : Nat → Bool} {sets : Sets} {c : Compiler} (hc : c.compiling = false)
    {i₁ i₂ a b x y q r o₁ o₂ : Nat} {c₁ c₂ : UInt8} (h₁ : i₁ < 255) (h₂ : i₂ < 255) (hq : q < 255) (hr : r < 255)
    (hs₁ : sets i₁ = .ok ([(a, b)], [])) (hs₂ : sets i₂ = .ok ([(x, y)], [])) (ha : a ≤ b) (hx : x ≤ y)
    (hb : b < 65535) (hy : y < 65535) (h : Taken a b x y) :
    ∃ S c', compile glyphKind mv sets [((RuleCode.oneSet i₁ [o₁] c₁).bytes word16, q),
        ((RuleCode.oneSet i₂ [o₂] c₂).bytes word16, r)] c = .ok (S, c') ∧
      ∀ w, Tree.run ⟨S, 0, 0, false⟩ (a :: w) = .ok r := by
  have hns : ¬ Split a b x y := by unfold Split; unfold Taken at h; omega
  obtain ⟨c', h1⟩ := (compile_pair (k := glyphKind) (mv := mv) hc (oneSet_scan_glyph h₁ o₁ c₁) (ne_none h₁) rfl
    (oneSet_scan_glyph h₂ o₂ c₂) (ne_none h₂) rfl hs₁ hs₂ (ne_none hq)
    (ne_none hr) ha hx (glyph_width hb) (glyph_width hy)).2 hns
  exact ⟨_, c', h1, fun w => pair_taken h w⟩

example : Taken 5 8 1 5 ∧ Taken 5 8 4 7 := by unfold Taken; decide

/-- A transition is never split: whatever was compiled before, adding a range to a state fails if it begins inside
the range of a transition without covering this range from its start to its end. -/
theorem split_never {k : Kind} {mv : Nat → Bool} {c : Compiler} {state x y rule : Nat} {st : State}
    (hst : c.states[state]? = some st) (hl : st.trans.length ≤ 254) (hle : ∀ t ∈ st.trans, t.first ≤ t.last)
    (hs : st.trans.Pairwise fun s t => s.last < t.first) (hw : ∀ t ∈ st.trans, t.last < 2 ^ (8 * k.width))
    {t : Transition} (ht : t ∈ st.trans) (h1 : t.first ≤ x) (h2 : x ≤ t.last) (hxy : x ≤ y)
    (h3 : x = t.first → y < t.last) (c' : Compiler) : appendRange k mv c state x y rule ≠ .ok c' :=
  appendRange_inside hst ⟨hle, hs, hl⟩ hw ht h1 h2 hxy h3 c'

/-- After a rule that is one set with one range of several glyphs, no rule can be added that begins with a single
glyph of the range, however it goes on and whatever rules come later. -/
theorem inside_glyph_violated {mv : Nat → Bool} {sets : Sets} {c : Compiler} {i a b x q r o blk : Nat} {cond : UInt8}
    (hi : i < 255) (hq : q < 255) (hs : sets i = .ok ([(a, b)], [])) (ha : a < b) (hb : b < 65536)
    {rule : RuleCode} (hr : rule.Ok (· < 56789)) (he : rule.elems.head? = some (blk, .one x)) (h1 : a ≤ x) (h2 : x ≤ b)
    (hx : x < 56789) (rest : List (Bytes × Nat)) (out : List State × Compiler) :
    compile glyphKind mv sets (((RuleCode.oneSet i [o] cond).bytes word16, q) :: (rule.bytes word16, r) :: rest) c ≠
      .ok out := by
  obtain ⟨es, hes⟩ : ∃ es, rule.elems = (blk, .one x) :: es := by
    cases h : rule.elems with
    | nil => rw [h] at he; cases he
    | cons y es => rw [h] at he; cases he; exact ⟨es, rfl⟩
  refine compile_inside (oneSet_scan_glyph hi o cond) (ne_none hi) rfl hs (ne_none hq) ha hb
    (es := es.map (pair glyphKind)) (blk₂ := blk) (x := x) ?_ (by simp [glyphKind]; omega) h1 h2 rest out
  rw [scanRule_ok glyph_coded (by decide) (by decide) rule hr, hes]
  rfl

/-- The same for code points. -/
theorem inside_utf8_violated {mv : Nat → Bool} {sets : Sets} {c : Compiler} {i a b x q r o blk : Nat} {cond : UInt8}
    (hi : i < 255) (hq : q < 255) (hs : sets i = .ok ([(a, b)], [])) (ha : a < b) (hb : b < 4294967296)
    {rule : RuleCode} (hr : rule.Ok fun v => v < 4294967296 ∧ v ≠ 65533)
    (he : rule.elems.head? = some (blk, .one x)) (h1 : a ≤ x) (h2 : x ≤ b)
    (hx : x ≠ 65533) (rest : List (Bytes × Nat)) (out : List State × Compiler) :
    compile utf8Kind mv sets (((RuleCode.oneSet i [o] cond).bytes word32, q) :: (rule.bytes word32, r) :: rest) c ≠
      .ok out := by
  obtain ⟨es, hes⟩ : ∃ es, rule.elems = (blk, .one x) :: es := by
    cases h : rule.elems with
    | nil => rw [h] at he; cases he
    | cons y es => rw [h] at he; cases he; exact ⟨es, rfl⟩
  refine compile_inside (oneSet_scan_utf8 hi o cond) (ne_none hi) rfl hs (ne_none hq) ha hb
    (es := es.map (pair utf8Kind)) (blk₂ := blk) (x := x) ?_ (by simpa [utf8Kind] using hx) h1 h2 rest out
  rw [scanRule_ok utf8_coded (by decide) (by decide) rule hr, hes]
  rfl

/-- A range of five glyphs, and a rule of three glyphs that begins in it. -/
example : Sample.rewrite124.elems.head? = some (1, .one 1) ∧ (1 : Nat) ≤ 1 ∧ (1 : Nat) ≤ 5 ∧
    Sample.rewrite124.Ok (· < 56789) := by
  refine ⟨by decide, by decide, by decide, ?_⟩
  refine ⟨?_, ?_, ?_, by decide, by decide, by decide⟩
  · intro f hf; exact absurd hf List.not_mem_nil
  · intro f hf
    rw [show Sample.rewrite124.body = [⟨[], [1, 2, 4]⟩] from rfl, List.mem_singleton] at hf
    subst hf
    exact ⟨by simp, by simp, by simp [Fragment.size], by simp, by simp⟩
  · intro f hf; exact absurd hf List.not_mem_nil

/-- More generally, after any rules that start apart (those of `C32.apart_glyph_partial`), no rule can be added that
begins with a single glyph of a range of several glyphs with which one of them begins, however both go on and
whatever rules come later. -/
theorem inside_any_glyph_violated {mv : Nat → Bool} {sets : Sets} {Q : Nat → List (Nat × Nat)}
    {l : List (RuleCode × Nat)} {c : Compiler} (hl : ∀ x ∈ l, x.1.Ok (· < 56789) ∧ Laid sets Q 65535 x.1)
    (hs : l.Pairwise fun a b => a.2 < b.2 ∧ ∀ v ∈ a.1.starts Q, v ∉ b.1.starts Q) (hi : ∀ x ∈ l, x.2 < 255)
    {y : RuleCode × Nat} (hy : y ∈ l) {b i : Nat} (hset : y.1.elems.head? = some (b, .set i)) {p : Nat × Nat}
    (hp : p ∈ Q i) (hlt : p.1 < p.2) {rule : RuleCode} (hr : rule.Ok (· < 56789)) {blk x r : Nat}
    (he : rule.elems.head? = some (blk, .one x)) (h1 : p.1 ≤ x) (h2 : x ≤ p.2) (hx : x < 56789)
    (rest : List (Bytes × Nat)) (out : List State × Compiler) :
    compile glyphKind mv sets ((l.map fun x => (x.1.bytes word16, x.2)) ++ (rule.bytes word16, r) :: rest) c ≠
      .ok out := by
  obtain ⟨es, hes⟩ : ∃ es, rule.elems = (blk, .one x) :: es := by
    cases h : rule.elems with
    | nil => rw [h] at he; cases he
    | cons y es => rw [h] at he; cases he; exact ⟨es, rfl⟩
  refine compile_inside_apart (ok := (· < 56789)) hl (by simp [glyphKind, Kind.width])
    (fun x hx => scanRule_ok glyph_coded (by decide) (by decide) x.1 (hl x hx).1) (by
      intro v hv
      exact ⟨by simp [glyphKind, Kind.width]; omega, by simp [glyphKind]; omega⟩) hs hi hy hset hp hlt
    (es := es.map (pair glyphKind)) (blk := blk) (x := x) ?_ (by simp [glyphKind]; omega) h1 h2 rest out
  rw [scanRule_ok glyph_coded (by decide) (by decide) rule hr, hes]
  rfl

/-- The same for code points. -/
theorem inside_any_utf8_violated {mv : Nat → Bool} {sets : Sets} {Q : Nat → List (Nat × Nat)}
    {l : List (RuleCode × Nat)} {c : Compiler}
    (hl : ∀ x ∈ l, (x.1.Ok fun v => v < 2147483647 ∧ v ≠ 65533) ∧ Laid sets Q 2147483647 x.1)
    (hs : l.Pairwise fun a b => a.2 < b.2 ∧ ∀ v ∈ a.1.starts Q, v ∉ b.1.starts Q) (hi : ∀ x ∈ l, x.2 < 255)
    {y : RuleCode × Nat} (hy : y ∈ l) {b i : Nat} (hset : y.1.elems.head? = some (b, .set i)) {p : Nat × Nat}
    (hp : p ∈ Q i) (hlt : p.1 < p.2) {rule : RuleCode} (hr : rule.Ok fun v => v < 4294967296 ∧ v ≠ 65533) {blk x r : Nat}
    (he : rule.elems.head? = some (blk, .one x)) (h1 : p.1 ≤ x) (h2 : x ≤ p.2) (hx : x ≠ 65533)
    (rest : List (Bytes × Nat)) (out : List State × Compiler) :
    compile utf8Kind mv sets ((l.map fun x => (x.1.bytes word32, x.2)) ++ (rule.bytes word32, r) :: rest) c ≠
      .ok out := by
  have weak : ∀ r : RuleCode, (r.Ok fun v => v < 2147483647 ∧ v ≠ 65533) → r.Ok fun v => v < 4294967296 ∧ v ≠ 65533 := by
    intro r h
    have key : ∀ fs : List Fragment, (∀ f ∈ fs, f.Ok fun v => v < 2147483647 ∧ v ≠ 65533) →
        ∀ f ∈ fs, f.Ok fun v => v < 4294967296 ∧ v ≠ 65533 := fun fs h f hf =>
      ⟨(h f hf).sets, (h f hf).ones, (h f hf).pos, (h f hf).set, fun v hv => by
        have := (h f hf).one v hv; exact ⟨by omega, this.2⟩⟩
    exact ⟨key _ h.head, key _ h.body, key _ h.tail, h.total, h.outPos, h.outLe⟩
  obtain ⟨es, hes⟩ : ∃ es, rule.elems = (blk, .one x) :: es := by
    cases h : rule.elems with
    | nil => rw [h] at he; cases he
    | cons y es => rw [h] at he; cases he; exact ⟨es, rfl⟩
  refine compile_inside_apart (ok := fun v => v < 2147483647 ∧ v ≠ 65533) hl (by simp [utf8Kind, Kind.width])
    (fun x hx => scanRule_ok utf8_coded (by decide) (by decide) x.1 (weak x.1 (hl x hx).1)) (by
      intro v hv
      exact ⟨by simp [utf8Kind, Kind.width]; omega, by simpa [utf8Kind] using hv.2⟩) hs hi hy hset hp hlt
    (es := es.map (pair utf8Kind)) (blk := blk) (x := x) ?_ (by simpa [utf8Kind] using hx) h1 h2 rest out
  rw [scanRule_ok utf8_coded (by decide) (by decide) rule hr, hes]
  rfl

/-- Two rules of which one begins with a range of ten glyphs: together they compile, and with a rule that begins with
one of the ten they do not. (That the two are rules that start apart is the example of `C32.apart_glyph_partial`.) -/
example : Sample.manySets.elems.head? = some (1, .set 1) ∧ (1, 10) ∈ Sample.treeRanges 1 ∧
    Sample.rewrite124.elems.head? = some (1, .one 1) ∧
    Sample.matched (fun _ => true) [(Sample.manySets.bytes word16, 0), (Sample.midSet.bytes word16, 4)] [7, 5, 3, 1] = .ok 0 ∧
    (Sample.matched (fun _ => true) [(Sample.manySets.bytes word16, 0), (Sample.midSet.bytes word16, 4),
      (Sample.rewrite124.bytes word16, 5)] [7, 5, 3, 1]).isPanic := by
  refine ⟨by decide +kernel, by decide +kernel, by decide +kernel, by decide +kernel, by decide +kernel⟩

end C33
