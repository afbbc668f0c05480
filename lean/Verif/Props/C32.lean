import Verif.Lemmas.EmptySet
import Verif.Lemmas.TreeRun
import Verif.Lemmas.ChainCompile
import Verif.Lemmas.BushCompile
import Verif.Lemmas.Scanner
import Verif.Spec.SampleTrees

/-!
# C32: the compiled decision tree recognises exactly the rules

This holds for rules without sets, or with a set as last element, for rules with any sets that start with
different elements, and for rules of both sorts that share single elements and part before or at their first sets,
whatever the growth of slices does to pointers. With other sets it fails.
-/

namespace C32
open Go Spec ScannerModel TreeModel Helpers

/-- The compiler never panics on rules without sets before their last element: it yields a tree or reports that
limits are hit, which needs more than 253 input elements in all, counting those of the sets. Running the tree on
any input reports the rule to be reported. The last element may be a set of which the elements are listed, or given
as ranges of one.
Missing: other rules with sets, which can be compiled when they part from the others before their sets lead
anywhere (`parted_glyph_partial`) and for which it fails otherwise (`sharing_violated` and the others below), and overlapping
ranges (C33). -/
theorem tree_glyph_partial {mv : Nat → Bool} {sets : Sets} {S : Nat → List Nat} {l : List (RuleCode × Nat)}
    {c : Compiler} (hc : c.compiling = false)
    (hr : ∀ x ∈ l, x.1.Ok (· < 56789) ∧ x.1.SetsLast ∧ Known sets S 65535 x.1)
    (hs : l.Pairwise fun a b => a.2 < b.2) (hi : ∀ x ∈ l, x.2 < 255) :
    (compile glyphKind mv sets (l.map fun x => (x.1.bytes word16, x.2)) c = .err hitLimits ∧
      253 < (l.map fun x => x.1.weight S).sum) ∨
    ∃ T c', compile glyphKind mv sets (l.map fun x => (x.1.bytes word16, x.2)) c = .ok (T, c') ∧
      c'.compiling = false ∧ (l ≠ [] → ∀ t : Tree, t.states = T → t.scanning = false → ∀ w,
        ∃ r, t.run w = .ok r ∧ IsBest (l.flatMap (RuleCode.matchings S)) w r) := by
  rcases compile_rules (k := glyphKind) (mv := mv) (S := S) hc (fun x hx => by
    refine plain_of (hr x hx).1 (hr x hx).2.1 (hr x hx).2.2 (by simp [glyphKind, Kind.width])
      (scanRule_ok glyph_coded (by decide) (by decide) x.1 (hr x hx).1) ?_
    intro v hv
    exact ⟨by simp [glyphKind, Kind.width]; omega, by simp [glyphKind]; omega⟩) hs hi with h | ⟨T, c', h1, h2, h3⟩
  · exact Or.inl h
  · refine Or.inr ⟨T, c', h1, h2, fun hl t ht hsc w => ?_⟩
    obtain ⟨r, h4, h5⟩ := run_ok (h3 hl) (by
      intro f hf
      obtain ⟨x, hx, hf⟩ := List.mem_flatMap.1 hf
      exact fed_path (hr x hx).1 f hf) (feds_sorted hs) ht hsc w
    refine ⟨r, h4, ?_⟩
    unfold BestFor at h5
    rw [List.map_flatMap] at h5
    simp only [fedsOf, List.map_map] at h5
    exact h5

/-- The same for code points. -/
theorem tree_utf8_partial {mv : Nat → Bool} {sets : Sets} {S : Nat → List Nat} {l : List (RuleCode × Nat)}
    {c : Compiler} (hc : c.compiling = false)
    (hr : ∀ x ∈ l, (x.1.Ok fun v => v < 2147483647 ∧ v ≠ 65533) ∧ x.1.SetsLast ∧ Known sets S 2147483647 x.1)
    (hs : l.Pairwise fun a b => a.2 < b.2) (hi : ∀ x ∈ l, x.2 < 255) :
    (compile utf8Kind mv sets (l.map fun x => (x.1.bytes word32, x.2)) c = .err hitLimits ∧
      253 < (l.map fun x => x.1.weight S).sum) ∨
    ∃ T c', compile utf8Kind mv sets (l.map fun x => (x.1.bytes word32, x.2)) c = .ok (T, c') ∧
      c'.compiling = false ∧ (l ≠ [] → ∀ t : Tree, t.states = T → t.scanning = false → ∀ w,
        ∃ r, t.run w = .ok r ∧ IsBest (l.flatMap (RuleCode.matchings S)) w r) := by
  have weak : ∀ r : RuleCode, (r.Ok fun v => v < 2147483647 ∧ v ≠ 65533) → r.Ok fun v => v < 4294967296 ∧ v ≠ 65533 := by
    intro r h
    have key : ∀ fs : List Fragment, (∀ f ∈ fs, f.Ok fun v => v < 2147483647 ∧ v ≠ 65533) →
        ∀ f ∈ fs, f.Ok fun v => v < 4294967296 ∧ v ≠ 65533 := fun fs h f hf =>
      ⟨(h f hf).sets, (h f hf).ones, (h f hf).pos, (h f hf).set, fun v hv => by
        have := (h f hf).one v hv; exact ⟨by omega, this.2⟩⟩
    exact ⟨key _ h.head, key _ h.body, key _ h.tail, h.total, h.outPos, h.outLe⟩
  rcases compile_rules (k := utf8Kind) (mv := mv) (S := S) hc (fun x hx => by
    refine plain_of (hr x hx).1 (hr x hx).2.1 (hr x hx).2.2 (by simp [utf8Kind, Kind.width])
      (scanRule_ok utf8_coded (by decide) (by decide) x.1 (weak x.1 (hr x hx).1)) ?_
    intro v hv
    exact ⟨by simp [utf8Kind, Kind.width]; omega, by simpa [utf8Kind] using hv.2⟩) hs hi with h | ⟨T, c', h1, h2, h3⟩
  · exact Or.inl h
  · refine Or.inr ⟨T, c', h1, h2, fun hl t ht hsc w => ?_⟩
    obtain ⟨r, h4, h5⟩ := run_ok (h3 hl) (by
      intro f hf
      obtain ⟨x, hx, hf⟩ := List.mem_flatMap.1 hf
      exact fed_path (hr x hx).1 f hf) (feds_sorted hs) ht hsc w
    refine ⟨r, h4, ?_⟩
    unfold BestFor at h5
    rw [List.map_flatMap] at h5
    simp only [fedsOf, List.map_map] at h5
    exact h5

/-- Four rules that satisfy the hypotheses (the third repeats the first, the last ends with a set), and what they
match. -/
example : (∀ x ∈ [(⟨255, [7], [], [⟨[], [1, 2, 4]⟩], []⟩, 0), (⟨255, [7], [⟨[], [1]⟩], [⟨[], [2]⟩], []⟩, 3),
      (⟨255, [7], [], [⟨[], [1, 2, 4]⟩], []⟩, 9), (Sample.endsInSet, 11)],
      RuleCode.Ok (· < 56789) x.1 ∧ x.1.SetsLast ∧ Known Sample.treeSets (fun _ => [1, 5]) 65535 x.1) ∧
    Sample.endsInSet.inputs (fun _ => [1, 5]) = [[1, 1], [1, 5]] ∧
    Sample.matched (fun _ => true) Sample.treeRules [1, 2, 4, 5] = .ok 0 ∧
    Sample.matched (fun _ => true) Sample.treeRules [1, 2, 5] = .ok 3 ∧
    Sample.matched (fun _ => true) Sample.treeRules [1, 4] = .ok 255 ∧
    Sample.matched (fun _ => true) Sample.treeRules [1, 5] = .ok 11 ∧
    Sample.matched (fun _ => true) Sample.treeRules [1, 1, 2] = .ok 11 := by
  refine ⟨?_, by decide +kernel, by decide +kernel, by decide +kernel, by decide +kernel, by decide +kernel,
    by decide +kernel⟩
  intro x hx
  simp only [List.mem_cons, List.not_mem_nil, or_false] at hx
  rcases hx with rfl | rfl | rfl | rfl
  all_goals
    refine ⟨⟨?_, ?_, ?_, by decide, by decide, by decide⟩, ?_, ?_⟩
    iterate 3
      · intro f hf
        first
          | exact absurd hf List.not_mem_nil
          | (rw [List.mem_singleton.1 hf]; exact ⟨by decide, by decide, by decide, by decide, by decide⟩)
          | (simp only [Sample.endsInSet, List.mem_cons, List.not_mem_nil, or_false] at hf
             rcases hf with rfl | rfl <;> exact ⟨by decide, by decide, by decide, by decide, by decide⟩)
    · intro b i h; simp [RuleCode.elems, blockElems, Fragment.elems, Sample.endsInSet] at h
    · intro b i h
      simp [RuleCode.elems, blockElems, Fragment.elems, Sample.endsInSet] at h <;>
        (obtain ⟨_, rfl⟩ := h; exact ⟨by decide, by decide, ⟨[], [1, 5], rfl, rfl⟩, by decide⟩)

/-- Rules with sets anywhere, when no two rules start with the same element: the compiler never panics on them. It
yields a tree or reports that limits are hit, which needs more than 253 ranges in all, single elements counting as
ranges. Running the tree on any input reports the rule to be reported. The sets may have ranges of any length that do
not overlap.
Missing: rules that start with the same elements, which is `parted_glyph_partial`. -/
theorem apart_glyph_partial {mv : Nat → Bool} {sets : Sets} {Q : Nat → List (Nat × Nat)} {l : List (RuleCode × Nat)}
    {c : Compiler} (hc : c.compiling = false) (hr : ∀ x ∈ l, x.1.Ok (· < 56789) ∧ Laid sets Q 65535 x.1)
    (hs : l.Pairwise fun a b => a.2 < b.2 ∧ ∀ v ∈ a.1.starts Q, v ∉ b.1.starts Q) (hi : ∀ x ∈ l, x.2 < 255) :
    (compile glyphKind mv sets (l.map fun x => (x.1.bytes word16, x.2)) c = .err hitLimits ∧
      253 < (l.map fun x => x.1.extent Q).sum) ∨
    ∃ T c', compile glyphKind mv sets (l.map fun x => (x.1.bytes word16, x.2)) c = .ok (T, c') ∧
      c'.compiling = false ∧ (l ≠ [] → ∀ t : Tree, t.states = T → t.scanning = false → ∀ w,
        ∃ r, t.run w = .ok r ∧ IsBest (l.flatMap (RuleCode.matchings fun i => spread (Q i))) w r) := by
  rcases compile_apart (k := glyphKind) (mv := mv) (Q := Q) (word := word16) hc hr (by simp [glyphKind, Kind.width])
    (fun x hx => scanRule_ok glyph_coded (by decide) (by decide) x.1 (hr x hx).1) (by
      intro v hv
      exact ⟨by simp [glyphKind, Kind.width]; omega, by simp [glyphKind]; omega⟩) hs hi with h | ⟨T, c', h1, h2, h3⟩
  · exact Or.inl h
  · refine Or.inr ⟨T, c', h1, h2, fun hl t ht hsc w => ?_⟩
    obtain ⟨r, h4, h5⟩ := run_ok (h3 hl) (by
      intro f hf
      obtain ⟨x, hx, hf⟩ := List.mem_flatMap.1 hf
      exact fed_path (hr x hx).1 f hf) (feds_sorted (hs.imp fun h => h.1)) ht hsc w
    refine ⟨r, h4, ?_⟩
    unfold BestFor at h5
    rw [List.map_flatMap] at h5
    simp only [fedsOf, List.map_map] at h5
    exact h5

/-- The same for code points. -/
theorem apart_utf8_partial {mv : Nat → Bool} {sets : Sets} {Q : Nat → List (Nat × Nat)} {l : List (RuleCode × Nat)}
    {c : Compiler} (hc : c.compiling = false) (hr : ∀ x ∈ l, (x.1.Ok fun v => v < 2147483647 ∧ v ≠ 65533) ∧ Laid sets Q 2147483647 x.1)
    (hs : l.Pairwise fun a b => a.2 < b.2 ∧ ∀ v ∈ a.1.starts Q, v ∉ b.1.starts Q) (hi : ∀ x ∈ l, x.2 < 255) :
    (compile utf8Kind mv sets (l.map fun x => (x.1.bytes word32, x.2)) c = .err hitLimits ∧
      253 < (l.map fun x => x.1.extent Q).sum) ∨
    ∃ T c', compile utf8Kind mv sets (l.map fun x => (x.1.bytes word32, x.2)) c = .ok (T, c') ∧
      c'.compiling = false ∧ (l ≠ [] → ∀ t : Tree, t.states = T → t.scanning = false → ∀ w,
        ∃ r, t.run w = .ok r ∧ IsBest (l.flatMap (RuleCode.matchings fun i => spread (Q i))) w r) := by
  have weak : ∀ r : RuleCode, (r.Ok fun v => v < 2147483647 ∧ v ≠ 65533) → r.Ok fun v => v < 4294967296 ∧ v ≠ 65533 := by
    intro r h
    have key : ∀ fs : List Fragment, (∀ f ∈ fs, f.Ok fun v => v < 2147483647 ∧ v ≠ 65533) →
        ∀ f ∈ fs, f.Ok fun v => v < 4294967296 ∧ v ≠ 65533 := fun fs h f hf =>
      ⟨(h f hf).sets, (h f hf).ones, (h f hf).pos, (h f hf).set, fun v hv => by
        have := (h f hf).one v hv; exact ⟨by omega, this.2⟩⟩
    exact ⟨key _ h.head, key _ h.body, key _ h.tail, h.total, h.outPos, h.outLe⟩
  rcases compile_apart (k := utf8Kind) (mv := mv) (Q := Q) (word := word32) hc hr (by simp [utf8Kind, Kind.width])
    (fun x hx => scanRule_ok utf8_coded (by decide) (by decide) x.1 (weak x.1 (hr x hx).1)) (by
      intro v hv
      exact ⟨by simp [utf8Kind, Kind.width]; omega, by simpa [utf8Kind] using hv.2⟩) hs hi with h | ⟨T, c', h1, h2, h3⟩
  · exact Or.inl h
  · refine Or.inr ⟨T, c', h1, h2, fun hl t ht hsc w => ?_⟩
    obtain ⟨r, h4, h5⟩ := run_ok (h3 hl) (by
      intro f hf
      obtain ⟨x, hx, hf⟩ := List.mem_flatMap.1 hf
      exact fed_path (hr x hx).1 f hf) (feds_sorted (hs.imp fun h => h.1)) ht hsc w
    refine ⟨r, h4, ?_⟩
    unfold BestFor at h5
    rw [List.map_flatMap] at h5
    simp only [fedsOf, List.map_map] at h5
    exact h5

/-- Two rules that satisfy the hypotheses, with sets first, and in the middle, and what they match. -/
example : (∀ x ∈ [(Sample.manySets, 0), (Sample.midSet, 4)], RuleCode.Ok (· < 56789) x.1 ∧
      Laid Sample.treeSets Sample.treeRanges 65535 x.1) ∧
    (∀ v ∈ Sample.manySets.starts Sample.treeRanges, v ∉ Sample.midSet.starts Sample.treeRanges) ∧
    (Sample.manySets.inputs fun i => spread (Sample.treeRanges i)).length = 20 ∧
    [[7, 5, 3, 1], [7, 4, 3], [11, 8, 12], [11, 12, 12], [2, 1, 3]].map (fun w => Sample.matched (fun _ => true)
      [(Sample.manySets.bytes word16, 0), (Sample.midSet.bytes word16, 4)] w) = [.ok 0, .ok 255, .ok 4, .ok 255, .ok 0] := by
  refine ⟨?_, by decide +kernel, by decide +kernel, by decide +kernel⟩
  intro x hx
  simp only [List.mem_cons, List.not_mem_nil, or_false] at hx
  rcases hx with rfl | rfl
  all_goals
    refine ⟨⟨?_, ?_, ?_, by decide, by decide, by decide⟩, ?_⟩
    iterate 3
      · intro f hf
        first
          | exact absurd hf List.not_mem_nil
          | (rw [List.mem_singleton.1 hf]; exact ⟨by decide, by decide, by decide, by decide, by decide⟩)
    · intro b i h
      simp [RuleCode.elems, blockElems, Fragment.elems, Sample.manySets, Sample.midSet] at h
      first
        | (obtain ⟨_, rfl⟩ | ⟨_, rfl⟩ := h
           · exact ⟨by decide, by decide, ⟨[(1, 10)], [], rfl, rfl⟩, by decide, by decide⟩
           · exact ⟨by decide, by decide, ⟨[], [1, 5], rfl, rfl⟩, by decide, by decide⟩)
        | (obtain ⟨_, rfl⟩ := h
           exact ⟨by decide, by decide, ⟨[(1, 10)], [], rfl, rfl⟩, by decide, by decide⟩)

/-- Rules that share single elements and then part: every rule may have a fork, with only single elements before
it, and any sets from there on, and no input of another rule then goes on like one of it; a rule without a fork has
single elements, and it may end with a set of which the elements are listed. The compiler never panics on them. It
yields a tree or reports that limits are hit, which needs more than 253 ranges in all, single elements counting as
ranges. Running the tree on any input reports the rule to be reported. Without forks this is `tree_glyph_partial`,
and when all the forks are at the first elements it is `apart_glyph_partial`.
Missing: rules that go on like another one inside or after its sets, for which it fails in general
(`sharing_violated`, `stale_violated`). -/
theorem parted_glyph_partial {mv : Nat → Bool} {sets : Sets} {Q : Nat → List (Nat × Nat)} {fork : RuleCode → Option Nat}
    {l : List (RuleCode × Nat)} {c : Compiler} (hc : c.compiling = false)
    (hr : ∀ x ∈ l, x.1.Ok (· < 56789) ∧ Branching sets Q 65535 (fork x.1) x.1)
    (hs : l.Pairwise fun a b => a.2 < b.2 ∧ Parted Q (fork a.1) a.1 b.1 ∧ Parted Q (fork b.1) b.1 a.1)
    (hi : ∀ x ∈ l, x.2 < 255) :
    (compile glyphKind mv sets (l.map fun x => (x.1.bytes word16, x.2)) c = .err hitLimits ∧
      253 < (l.map fun x => x.1.reach Q (fork x.1)).sum) ∨
    ∃ T c', compile glyphKind mv sets (l.map fun x => (x.1.bytes word16, x.2)) c = .ok (T, c') ∧
      c'.compiling = false ∧ (l ≠ [] → ∀ t : Tree, t.states = T → t.scanning = false → ∀ w,
        ∃ r, t.run w = .ok r ∧ IsBest (l.flatMap (RuleCode.matchings fun i => spread (Q i))) w r) := by
  rcases compile_parted (k := glyphKind) (mv := mv) (Q := Q) (fork := fork) (word := word16) hc hr
    (by simp [glyphKind, Kind.width]) (fun x hx => scanRule_ok glyph_coded (by decide) (by decide) x.1 (hr x hx).1) (by
      intro v hv
      exact ⟨by simp [glyphKind, Kind.width]; omega, by simp [glyphKind]; omega⟩) hs hi with h | ⟨T, c', h1, h2, h3⟩
  · exact Or.inl h
  · refine Or.inr ⟨T, c', h1, h2, fun hl t ht hsc w => ?_⟩
    obtain ⟨r, h4, h5⟩ := run_ok (h3 hl) (by
      intro f hf
      obtain ⟨x, hx, hf⟩ := List.mem_flatMap.1 hf
      exact fed_path (hr x hx).1 f hf) (feds_sorted (hs.imp fun h => h.1)) ht hsc w
    refine ⟨r, h4, ?_⟩
    unfold BestFor at h5
    rw [List.map_flatMap] at h5
    simp only [fedsOf, List.map_map] at h5
    exact h5

/-- The same for code points. -/
theorem parted_utf8_partial {mv : Nat → Bool} {sets : Sets} {Q : Nat → List (Nat × Nat)} {fork : RuleCode → Option Nat}
    {l : List (RuleCode × Nat)} {c : Compiler} (hc : c.compiling = false)
    (hr : ∀ x ∈ l, (x.1.Ok fun v => v < 2147483647 ∧ v ≠ 65533) ∧ Branching sets Q 2147483647 (fork x.1) x.1)
    (hs : l.Pairwise fun a b => a.2 < b.2 ∧ Parted Q (fork a.1) a.1 b.1 ∧ Parted Q (fork b.1) b.1 a.1)
    (hi : ∀ x ∈ l, x.2 < 255) :
    (compile utf8Kind mv sets (l.map fun x => (x.1.bytes word32, x.2)) c = .err hitLimits ∧
      253 < (l.map fun x => x.1.reach Q (fork x.1)).sum) ∨
    ∃ T c', compile utf8Kind mv sets (l.map fun x => (x.1.bytes word32, x.2)) c = .ok (T, c') ∧
      c'.compiling = false ∧ (l ≠ [] → ∀ t : Tree, t.states = T → t.scanning = false → ∀ w,
        ∃ r, t.run w = .ok r ∧ IsBest (l.flatMap (RuleCode.matchings fun i => spread (Q i))) w r) := by
  have weak : ∀ r : RuleCode, (r.Ok fun v => v < 2147483647 ∧ v ≠ 65533) → r.Ok fun v => v < 4294967296 ∧ v ≠ 65533 := by
    intro r h
    have key : ∀ fs : List Fragment, (∀ f ∈ fs, f.Ok fun v => v < 2147483647 ∧ v ≠ 65533) →
        ∀ f ∈ fs, f.Ok fun v => v < 4294967296 ∧ v ≠ 65533 := fun fs h f hf =>
      ⟨(h f hf).sets, (h f hf).ones, (h f hf).pos, (h f hf).set, fun v hv => by
        have := (h f hf).one v hv; exact ⟨by omega, this.2⟩⟩
    exact ⟨key _ h.head, key _ h.body, key _ h.tail, h.total, h.outPos, h.outLe⟩
  rcases compile_parted (k := utf8Kind) (mv := mv) (Q := Q) (fork := fork) (word := word32) hc hr
    (by simp [utf8Kind, Kind.width]) (fun x hx => scanRule_ok utf8_coded (by decide) (by decide) x.1 (weak x.1 (hr x hx).1)) (by
      intro v hv
      exact ⟨by simp [utf8Kind, Kind.width]; omega, by simpa [utf8Kind] using hv.2⟩) hs hi with h | ⟨T, c', h1, h2, h3⟩
  · exact Or.inl h
  · refine Or.inr ⟨T, c', h1, h2, fun hl t ht hsc w => ?_⟩
    obtain ⟨r, h4, h5⟩ := run_ok (h3 hl) (by
      intro f hf
      obtain ⟨x, hx, hf⟩ := List.mem_flatMap.1 hf
      exact fed_path (hr x hx).1 f hf) (feds_sorted (hs.imp fun h => h.1)) ht hsc w
    refine ⟨r, h4, ?_⟩
    unfold BestFor at h5
    rw [List.map_flatMap] at h5
    simp only [fedsOf, List.map_map] at h5
    exact h5

/-- Four rules that satisfy the hypotheses: 1 2 4 and 1 3 11, and two that share 1 2 or 1 3 with them and then have
sets; and what they match. -/
example : (∀ x ∈ [(Sample.noFork, 0), (Sample.forkWide, 2), (Sample.forkList, 4), (Sample.noFork', 5)],
      RuleCode.Ok (· < 56789) x.1 ∧ Branching Sample.treeSets Sample.treeRanges 65535 (Sample.forkOf x.1) x.1) ∧
    ([(Sample.noFork, 0), (Sample.forkWide, 2), (Sample.forkList, 4), (Sample.noFork', 5)].Pairwise fun a b => a.2 < b.2 ∧
      Parted Sample.treeRanges (Sample.forkOf a.1) a.1 b.1 ∧ Parted Sample.treeRanges (Sample.forkOf b.1) b.1 a.1) ∧
    [[1, 2, 4], [1, 3, 7, 12], [1, 2, 5, 9], [1, 2, 1, 9], [1, 3, 11], [1, 2, 3, 9], [1, 3, 7, 9]].map (fun w =>
      Sample.matched (fun _ => true) [(Sample.noFork.bytes word16, 0), (Sample.forkWide.bytes word16, 2),
        (Sample.forkList.bytes word16, 4), (Sample.noFork'.bytes word16, 5)] w) =
      [.ok 0, .ok 2, .ok 4, .ok 4, .ok 5, .ok 255, .ok 255] := by
  have hpart : ∀ a b : RuleCode, (∀ p ∈ a.inputs fun i => spread (Sample.treeRanges i),
      ∀ q ∈ b.inputs fun i => spread (Sample.treeRanges i), ¬ p.take 3 <+: q) →
      Parted Sample.treeRanges (Sample.forkOf a) a b := by
    intro a b h n hn
    unfold Sample.forkOf at hn
    split at hn
    · cases hn
      exact h
    · cases hn
  refine ⟨?_, ?_, by decide +kernel⟩
  · intro x hx
    simp only [List.mem_cons, List.not_mem_nil, or_false] at hx
    rcases hx with rfl | rfl | rfl | rfl
    all_goals
      refine ⟨⟨?_, ?_, ?_, by decide, by decide, by decide⟩, ?_⟩
      iterate 3
        · intro f hf
          first
            | exact absurd hf List.not_mem_nil
            | (rw [List.mem_singleton.1 hf]; exact ⟨by decide, by decide, by decide, by decide, by decide⟩)
            | (simp only [Sample.forkWide, List.mem_cons, List.not_mem_nil, or_false] at hf
               rcases hf with rfl | rfl <;> exact ⟨by decide, by decide, by decide, by decide, by decide⟩)
    · exact ⟨fun b i h => by simp [RuleCode.elems, blockElems, Fragment.elems, Sample.noFork] at h,
        fun b i h => by simp [RuleCode.elems, blockElems, Fragment.elems, Sample.noFork] at h⟩
    · refine ⟨⟨by decide, fun b i h => by simp [RuleCode.elems, blockElems, Fragment.elems, Sample.forkWide] at h⟩, ?_⟩
      intro b i h
      simp [RuleCode.elems, blockElems, Fragment.elems, Sample.forkWide] at h
      obtain ⟨_, rfl⟩ := h
      exact ⟨by decide, by decide, ⟨[(1, 10)], [], rfl, rfl⟩, by decide, by decide⟩
    · refine ⟨⟨by decide, fun b i h => by simp [RuleCode.elems, blockElems, Fragment.elems, Sample.forkList] at h⟩, ?_⟩
      intro b i h
      simp [RuleCode.elems, blockElems, Fragment.elems, Sample.forkList] at h
      obtain ⟨_, rfl⟩ := h
      exact ⟨by decide, by decide, ⟨[], [1, 5], rfl, rfl⟩, by decide, by decide⟩
    · exact ⟨fun b i h => by simp [RuleCode.elems, blockElems, Fragment.elems, Sample.noFork'] at h,
        fun b i h => by simp [RuleCode.elems, blockElems, Fragment.elems, Sample.noFork'] at h⟩
  · have key : ∀ a b : RuleCode, Sample.forkOf a = none → Parted Sample.treeRanges (Sample.forkOf a) a b := by
      intro a b h n hn
      rw [h] at hn
      cases hn
    simp only [List.pairwise_cons, List.mem_cons, List.not_mem_nil, or_false, forall_eq_or_imp, forall_eq]
    refine ⟨⟨⟨by decide, ?_, ?_⟩, ⟨by decide, ?_, ?_⟩, ⟨by decide, ?_, ?_⟩⟩, ⟨⟨by decide, ?_, ?_⟩, ⟨by decide, ?_, ?_⟩⟩,
      ⟨by decide, ?_, ?_⟩, by simp⟩
    all_goals first
      | exact key _ _ rfl
      | exact hpart _ _ (by decide +kernel)

/-! ## With sets -/

/-- Rules with sets that are compiled well: all the elements of a set lead to the rest of the rule, and states for
the same rules are shared. -/
example : Sample.matched (fun _ => false) [(Sample.rule19, 0), (Sample.ruleSet03, 1)] [1, 3] = .ok 1 ∧
    Sample.matched (fun _ => false) [(Sample.rule19, 0), (Sample.ruleSet03, 1)] [5, 3] = .ok 1 ∧
    Sample.matched (fun _ => false) [(Sample.rule19, 0), (Sample.ruleSet03, 1)] [1, 9] = .ok 0 ∧
    Sample.matched (fun _ => false) [(Sample.rule19, 0), (Sample.ruleSet03, 1)] [5, 9] = .ok 255 ∧
    Sample.treeSize (fun _ => false) [(Sample.ruleSet03, 0), (Sample.ruleSet04, 1)] = .ok 3 ∧
    Sample.treeSize (fun _ => false) [(Sample.ruleSet03, 0), (Sample.ruleSet04, 1), (Sample.ruleSet03, 2)] = .ok 4 := by
  decide +kernel

/-- A state shared by the elements of a set is freed when one of them is relinked: the rule with index 0, a
set with 1 and 5 followed by 2 3, matches 5 2 3 on its own; after adding the rules 1 2 4 and 9 2 7 it no
longer does, and 5 2 2 7 matches the last rule. -/
theorem sharing_violated : Sample.matched (fun _ => false) [(Sample.ruleSet023, 0)] [5, 2, 3] = .ok 0 ∧
    Sample.matched (fun _ => false) [(Sample.ruleSet023, 0), (Sample.rule124, 1), (Sample.rule927, 2)] [5, 2, 3] = .ok 255 ∧
    Sample.matched (fun _ => false) [(Sample.ruleSet023, 0), (Sample.rule124, 1), (Sample.rule927, 2)] [5, 2, 2, 7] = .ok 2 := by
  refine ⟨?_, ?_, ?_⟩ <;> decide +kernel

/-- The pointer to the state is stale after its slice was reallocated: the rule with index 1, a set with 1 to
10 followed by 3, does not match 7 3 when the slice moves, and it does when the slice stays. -/
theorem stale_violated :
    Sample.matched (fun _ => true) [(Sample.rule52, 0), (Sample.ruleSet13, 1)] [7, 3] = .ok 255 ∧
    Sample.matched (fun _ => false) [(Sample.rule52, 0), (Sample.ruleSet13, 1)] [7, 3] = .ok 1 := by
  constructor <;> decide +kernel

/-- A set without elements at the start of the first rule panics, if the rule has more elements, whatever these and
the other rules are. -/
theorem empty_set_violated {mv : Nat → Bool} {sets : Sets} {c : Compiler} (hc : c.compiling = false) {rule : RuleCode}
    (hr : rule.Ok (· < 56789)) {blk i q : Nat} (he : rule.elems.head? = some (blk, .set i)) (hl : 1 < rule.elems.length)
    (hi : i < 255) (hs : sets i = .ok ([], [])) (rest : List (Bytes × Nat)) :
    compile glyphKind mv sets ((rule.bytes word16, q) :: rest) c = .panic "index out of range" := by
  obtain ⟨y, es, hes⟩ : ∃ y es, rule.elems = (blk, .set i) :: y :: es := by
    cases h : rule.elems with
    | nil => rw [h] at he; cases he
    | cons y es =>
      rw [h] at he hl
      cases he
      cases es with
      | nil => simp at hl
      | cons z es => exact ⟨z, es, rfl⟩
  refine compile_empty hc (y := pair glyphKind y) (es := es.map (pair glyphKind)) (blk := blk) ?_ (Nat.ne_of_lt hi) rfl hs rest
  rw [scanRule_ok glyph_coded (by decide) (by decide) rule hr, hes]
  rfl

/-- The same for code points. -/
theorem empty_set_utf8_violated {mv : Nat → Bool} {sets : Sets} {c : Compiler} (hc : c.compiling = false) {rule : RuleCode}
    (hr : rule.Ok fun v => v < 4294967296 ∧ v ≠ 65533) {blk i q : Nat} (he : rule.elems.head? = some (blk, .set i))
    (hl : 1 < rule.elems.length) (hi : i < 255) (hs : sets i = .ok ([], [])) (rest : List (Bytes × Nat)) :
    compile utf8Kind mv sets ((rule.bytes word32, q) :: rest) c = .panic "index out of range" := by
  obtain ⟨y, es, hes⟩ : ∃ y es, rule.elems = (blk, .set i) :: y :: es := by
    cases h : rule.elems with
    | nil => rw [h] at he; cases he
    | cons y es =>
      rw [h] at he hl
      cases he
      cases es with
      | nil => simp at hl
      | cons z es => exact ⟨z, es, rfl⟩
  refine compile_empty hc (y := pair utf8Kind y) (es := es.map (pair utf8Kind)) (blk := blk) ?_ (Nat.ne_of_lt hi) rfl hs rest
  rw [scanRule_ok utf8_coded (by decide) (by decide) rule hr, hes]
  rfl

/-- The empty set with index 2, then the glyph 3. -/
example : Sample.emptyFirst.bytes word16 = Sample.ruleSet23 ∧ Sample.emptyFirst.elems = [(1, .set 2), (1, .one 3)] ∧
    Sample.treeSets 2 = .ok ([], []) ∧ (Sample.matched (fun _ => false) [(Sample.ruleSet23, 0)] [3]).isPanic = true ∧
    Sample.emptyFirst.Ok (· < 56789) := by
  refine ⟨by decide +kernel, by decide +kernel, by decide +kernel, by decide +kernel, ?_⟩
  refine ⟨?_, ?_, ?_, by decide, by decide, by decide⟩
  · intro f hf; exact absurd hf List.not_mem_nil
  · intro f hf
    rw [show Sample.emptyFirst.body = [⟨[2], [3]⟩] from rfl, List.mem_singleton] at hf
    subst hf
    exact ⟨by simp, by simp, by simp [Fragment.size], by simp, by simp⟩
  · intro f hf; exact absurd hf List.not_mem_nil

/-- A tree compiled from no rules panics on any input. -/
theorem no_rules_violated (mv : Nat → Bool) (g : Nat) (w : List Nat) :
    (Sample.matched mv [] (g :: w)).isPanic = true := rfl

end C32
