import Verif.Lemmas.BuiltNames
import Verif.Lemmas.Bisection
import Verif.Spec.SampleBuilder

/-!
# C19: glyph lookup by name

A name that is found is right. But the comparison of the binary search is not the order in which the
names are stored (it holds no name smaller than another of the same length), so names are missed.
-/

namespace C19
open Go Spec FontModel BuilderModel

/-- For every table of names (sorted or not) and every name: the lookup does not panic, and what it
returns is the missing glyph or the index of an entry with that name. -/
theorem lookup_sound {f : Font} {names : List Bytes} {ids : List Nat} (ht : NameTable f names ids)
    (x : Bytes) :
    f.findIndexByName x = .ok glyphMissing ∨
    ∃ i, ∃ hi : i < names.length, ∃ hi' : i < ids.length, names[i] = x ∧
      f.findIndexByName x = .ok ids[i] := Font.findIndexByName_eq ht x

/-- Names that no entry has are reported missing. -/
theorem lookup_missing {f : Font} {names : List Bytes} {ids : List Nat} (ht : NameTable f names ids)
    (x : Bytes) (hx : x ∉ names) : f.findIndexByName x = .ok glyphMissing := by
  rcases lookup_sound ht x with h | ⟨i, hi, _, rfl, _⟩
  · exact h
  · exact absurd (List.getElem_mem hi) hx

/-- Every name is found in tables where the comparison agrees with the order: of every two names the
earlier one is byte by byte below the later one, not the other way around, and lengths differ. -/
theorem lookup_complete_partial {f : Font} {names : List Bytes} {ids : List Nat}
    (ht : NameTable f names ids) (hs : Searchable names) {p : Nat} (hp : p < names.length) :
    ∃ hp' : p < ids.length, f.findIndexByName names[p] = .ok ids[p] := by
  have hpw := List.pairwise_iff_getElem.1 hs
  refine Font.findIndexByName_found ht names[p] hp rfl (fun m hm => ?_) (fun m h1 hm => ?_)
  · obtain ⟨h1, h2, _⟩ := hpw m p (by omega) hp hm
    exact Font.smaller_iff.2 ⟨h2, h1⟩
  · obtain ⟨_, _, h3⟩ := hpw p m hp hm h1
    rw [← Bool.not_eq_true, Font.smaller_iff]
    exact fun h => h3 h.1

/-- The same for built fonts: a name that is found is the name of that glyph (names have at most 255
bytes, which `SetGlyphName` ensures), and names are unique. -/
theorem built_sound (env : Env) (b b' : Builder) (f : Font) (h : b.build env = .ok (b', f))
    (hn : b.glyphOrder.Nodup) (hlen : ∀ u g, b.glyphData.get u = some g → g.name.length ≤ 255)
    (x : Bytes) :
    f.findIndexByName x = .ok glyphMissing ∨
    ∃ i u g, f.findIndexByName x = .ok i ∧ b.glyphOrder[i]? = some u ∧ b.glyphData.get u = some g ∧
      g.name = x ∧ x ≠ [] := by
  obtain ⟨s, w, bi, hB⟩ := build_parts h
  obtain ⟨names, ids, ht, _, _, hfrom, _⟩ := built_names hB hn hlen
  rcases lookup_sound ht x with h | ⟨i, hi, hi', hx, he⟩
  · exact .inl h
  · obtain ⟨u, g, h1, h2, h3, h4⟩ := hfrom i hi hi'
    refine .inr ⟨ids[i], u, g, he, h1, h2, h3.trans hx, ?_⟩
    rw [← hx, ← h3]; exact h4

/-- Names of the glyphs of a built font are unique. -/
theorem built_unique (env : Env) (b b' : Builder) (f : Font) (h : b.build env = .ok (b', f))
    (hn : b.glyphOrder.Nodup) (hlen : ∀ u g, b.glyphData.get u = some g → g.name.length ≤ 255)
    {i j u v : Nat} {g k : GlyphData} (hi : b.glyphOrder[i]? = some u) (hj : b.glyphOrder[j]? = some v)
    (hg : b.glyphData.get u = some g) (hk : b.glyphData.get v = some k) (hne : g.name ≠ [])
    (he : g.name = k.name) : i = j := by
  obtain ⟨s, w, bi, hB⟩ := build_parts h
  obtain ⟨names, ids, ht, _, hnd, _, hto⟩ := built_names hB hn hlen
  obtain ⟨a, ha, ha', e1, e2⟩ := hto i u g hi hg hne
  obtain ⟨c, hc, hc', e3, e4⟩ := hto j v k hj hk (he ▸ hne)
  have : a = c := nodup_inj hnd (hi := ha) (hj := hc) (by rw [e1, e3, he])
  subst this
  rw [← e2, ← e4]

/-- A built font finds the name of a glyph when the names of all other glyphs have other lengths and
compare byte by byte as they compare lexicographically (in particular when there are no others). -/
theorem built_complete_partial (env : Env) (b b' : Builder) (f : Font) (h : b.build env = .ok (b', f))
    (hn : b.glyphOrder.Nodup) (hlen : ∀ u g, b.glyphData.get u = some g → g.name.length ≤ 255)
    {i u : Nat} {g : GlyphData} (hi : b.glyphOrder[i]? = some u) (hg : b.glyphData.get u = some g)
    (hne : g.name ≠ [])
    (hsep : ∀ j v k, b.glyphOrder[j]? = some v → b.glyphData.get v = some k → k.name ≠ [] → j ≠ i →
      k.name.length ≠ g.name.length ∧
      (k.name < g.name → Below k.name g.name) ∧ (g.name < k.name → ¬ Below k.name g.name)) :
    f.findIndexByName g.name = .ok i := by
  obtain ⟨s, w, bi, hB⟩ := build_parts h
  obtain ⟨names, ids, ht, hle, hnd, hfrom, hto⟩ := built_names hB hn hlen
  obtain ⟨p, hp, hp', e1, e2⟩ := hto i u g hi hg hne
  have hpw := List.pairwise_iff_getElem.1 hle
  have hlt : ∀ a c (h1 : a < c) (h2 : c < names.length), names[a] < names[c] := by
    intro a c h1 h2
    have h3 := hpw a c (by omega) h2 h1
    rcases List.le_iff_lt_or_eq.1 h3 with h4 | h4
    · exact h4
    · have := nodup_inj hnd (hi := by omega) (hj := h2) h4
      omega
  have hother : ∀ m (hm : m < names.length), m ≠ p → names[m].length ≠ g.name.length ∧
      (names[m] < g.name → Below names[m] g.name) ∧ (g.name < names[m] → ¬ Below names[m] g.name) := by
    intro m hm hmp
    have hm' : m < ids.length := by rw [ht.same]; exact hm
    obtain ⟨v, k, h1, h2, h3, h4⟩ := hfrom m hm hm'
    have := hsep ids[m] v k h1 h2 h4 (fun e => by
      rw [e] at h1
      rw [hi] at h1
      cases h1
      rw [hg] at h2
      cases h2
      exact hmp (nodup_inj hnd (hi := hm) (hj := hp) (by rw [e1, h3])))
    rw [h3] at this; exact this
  obtain ⟨_, h5⟩ := Font.findIndexByName_found ht g.name hp e1
    (fun m hm => by
      obtain ⟨o1, o2, _⟩ := hother m (by omega) (by omega)
      refine Font.smaller_iff.2 ⟨o2 ?_, o1⟩
      rw [← e1]; exact hlt m p hm hp)
    (fun m h1 hm => by
      obtain ⟨_, _, o3⟩ := hother m hm (by omega)
      rw [← Bool.not_eq_true, Font.smaller_iff]
      refine fun h => o3 ?_ h.1
      rw [← e1]; exact hlt p m h1 hm)
  rw [h5, e2]

/-- Exactly which names are found, in every table without repeated names: those where the comparison is right at all
the positions that a bisection for the name looks at. The others are reported missing. -/
theorem lookup_exactly {f : Font} {names : List Bytes} {ids : List Nat} (ht : NameTable f names ids)
    (hn : names.Nodup) {p : Nat} (hp : p < names.length) :
    ∃ hp' : p < ids.length, (Guided names p → f.findIndexByName names[p] = .ok ids[p]) ∧
      (¬ Guided names p → f.findIndexByName names[p] = .ok glyphMissing) := Font.findIndexByName_iff ht hn hp

example : Guided [ascii "ab", ascii "bcd"] 1 ∧ ¬ Guided [ascii "a", ascii "b"] 1 := by
  refine ⟨fun m h => ?_, fun h => absurd ((h 0 (.mid (by decide))).1 (by decide)) (by decide +kernel)⟩
  cases h with
  | mid => decide +kernel
  | up _ _ h =>
    cases h with
    | mid h => exact absurd h (by decide)
    | up h => exact absurd h (by decide)
    | down h => exact absurd h (by decide)
  | down _ h => exact absurd h (by decide)

/-- When all names have the same length, only the first is found. -/
theorem same_length_violated {f : Font} {names : List Bytes} {ids : List Nat} (ht : NameTable f names ids)
    (hn : names.Nodup) {L : Nat} (hL : ∀ x ∈ names, x.length = L) {p : Nat} (hp : p < names.length) :
    (p = 0 → ∃ hp' : p < ids.length, f.findIndexByName names[p] = .ok ids[p]) ∧
    (p ≠ 0 → f.findIndexByName names[p] = .ok glyphMissing) := by
  obtain ⟨hp', h1, h2⟩ := lookup_exactly ht hn hp
  rw [Font.guided_same hL hp] at h1 h2
  exact ⟨fun h => ⟨hp', h1 h⟩, h2⟩

/-- In every built font whose glyph names have the same length, only the smallest name is found. -/
theorem built_same_length_violated (env : Env) (b b' : Builder) (f : Font) (h : b.build env = .ok (b', f))
    (hn : b.glyphOrder.Nodup) (hlen : ∀ u g, b.glyphData.get u = some g → g.name.length ≤ 255)
    {i u : Nat} {g : GlyphData} (hi : b.glyphOrder[i]? = some u) (hg : b.glyphData.get u = some g)
    (hne : g.name ≠ [])
    (hL : ∀ (j v : Nat) k, b.glyphOrder[j]? = some v → b.glyphData.get v = some k → k.name ≠ [] →
      k.name.length = g.name.length) :
    ((∀ (j v : Nat) k, b.glyphOrder[j]? = some v → b.glyphData.get v = some k → k.name ≠ [] → g.name ≤ k.name) →
      f.findIndexByName g.name = .ok i) ∧
    (∀ (j v : Nat) k, b.glyphOrder[j]? = some v → b.glyphData.get v = some k → k.name ≠ [] → k.name < g.name →
      f.findIndexByName g.name = .ok glyphMissing) := by
  obtain ⟨s, w, bi, hB⟩ := build_parts h
  obtain ⟨names, ids, ht, hle, hnd, hfrom, hto⟩ := built_names hB hn hlen
  obtain ⟨p, hp, hp', e1, e2⟩ := hto i u g hi hg hne
  have hpw := List.pairwise_iff_getElem.1 hle
  have hS : ∀ x ∈ names, x.length = g.name.length := by
    intro x hx
    obtain ⟨m, hm, rfl⟩ := List.mem_iff_getElem.1 hx
    obtain ⟨v, k, h1, h2, h3, h4⟩ := hfrom m hm (by rw [ht.same]; exact hm)
    rw [← h3]; exact hL _ v k h1 h2 h4
  obtain ⟨o1, o2⟩ := same_length_violated ht hnd hS hp
  rw [e1] at o1 o2
  refine ⟨fun hmin => ?_, fun j v k hj hk hkn hlt => o2 ?_⟩
  · obtain ⟨_, o3⟩ := o1 (by
      apply Classical.byContradiction
      intro h0
      have h3 := hpw 0 p (by omega) hp (by omega)
      obtain ⟨v, k, h4, h5, h6, h7⟩ := hfrom 0 (by omega) (by rw [ht.same]; omega)
      have h8 := hmin _ v k h4 h5 h7
      rw [h6] at h8
      rw [e1] at h3
      have h9 := List.le_antisymm h3 h8
      have := nodup_inj hnd (hi := by omega) (hj := hp) (h9.trans e1.symm)
      omega)
    rw [o3, e2]
  · rintro rfl
    obtain ⟨a, ha, _, h1, _⟩ := hto j v k hj hk hkn
    by_cases h0 : a = 0
    · subst h0
      rw [e1] at h1; rw [h1] at hlt
      exact absurd hlt (List.lt_irrefl _)
    · have h3 := hpw 0 a (by omega) ha (by omega)
      rw [e1, h1] at h3
      exact absurd hlt (List.not_lt.2 h3)

/-- In a font with the glyph names `a` and `b`, the name `b` is not found. With
`az` and `baz`, the name `baz` is not found. -/
theorem complete_violated :
    (∃ b' f, (Sample.named "a" "b").build Sample.env = .ok (b', f) ∧
      f.findIndexByName (ascii "a") = .ok 0 ∧ f.findIndexByName (ascii "b") = .ok glyphMissing) ∧
    (∃ b' f, (Sample.named "az" "baz").build Sample.env = .ok (b', f) ∧
      f.findIndexByName (ascii "baz") = .ok glyphMissing) := by
  refine ⟨⟨(Sample.result (Sample.named "a" "b")).1, (Sample.result (Sample.named "a" "b")).2, ?_⟩,
    ⟨(Sample.result (Sample.named "az" "baz")).1, (Sample.result (Sample.named "az" "baz")).2, ?_⟩⟩ <;>
    decide +kernel

/-- A font where both names are found. -/
example : ∃ b' f, (Sample.named "bcd" "ab").build Sample.env = .ok (b', f) ∧
    f.findIndexByName (ascii "bcd") = .ok 0 ∧ f.findIndexByName (ascii "ab") = .ok 1 ∧
    f.findIndexByName (ascii "abc") = .ok glyphMissing := by
  refine ⟨(Sample.result (Sample.named "bcd" "ab")).1, (Sample.result (Sample.named "bcd" "ab")).2, ?_⟩
  decide +kernel

example : Searchable [ascii "ab", ascii "bcd"] := by
  simp only [Searchable, List.pairwise_cons, List.mem_singleton, forall_eq]
  decide +kernel

end C19
