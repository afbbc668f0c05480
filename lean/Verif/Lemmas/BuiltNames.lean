import Verif.Lemmas.NameTable
import Verif.Lemmas.BuildAt
import Verif.Lemmas.Sort
import Verif.Lemmas.GlyphIndex

/-! # The glyph names of a built font -/

namespace BuilderModel
open Go Spec FontModel

namespace Builder

theorem namedLoop_congr {b c : Builder} (h : b.glyphData = c.glyphData) : ∀ l : List Nat,
    b.namedLoop l = c.namedLoop l
  | [] => rfl
  | u :: l => by
    have : b.glyph u = c.glyph u := by rw [glyph, glyph, h]
    rw [namedLoop, namedLoop, this, namedLoop_congr h l]

theorem namedLoop_ok {b : Builder} : ∀ {l : List Nat} {named : List (Nat × Bytes)},
    b.namedLoop l = .ok named →
    (named.map Prod.fst).Sublist l ∧
    ∀ u x, (u, x) ∈ named ↔ u ∈ l ∧ x ≠ [] ∧ ∃ g, b.glyphData.get u = some g ∧ g.name = x
  | [], named, h => by
    simp only [namedLoop, Res.ok.injEq] at h; subst h; simp
  | u :: l, named, h => by
    simp only [namedLoop, Res.bind_eq_ok, Res.pure_eq, Res.ok.injEq] at h
    obtain ⟨g, hg, rest, hr, rfl⟩ := h
    have hg' : b.glyphData.get u = some g := by
      unfold glyph at hg
      split at hg
      · rename_i h; rw [h, Res.ok.inj hg]
      · cases hg
    obtain ⟨i1, i2⟩ := namedLoop_ok hr
    split
    · rename_i hne
      refine ⟨by simpa using i1, fun v x => ?_⟩
      rw [List.mem_cons, i2, List.mem_cons]
      constructor
      · rintro (h | ⟨h1, h2⟩)
        · cases h; exact ⟨.inl rfl, hne, g, hg', rfl⟩
        · exact ⟨.inr h1, h2⟩
      · rintro ⟨h1 | h1, h2, g', h3, h4⟩
        · subst h1
          rw [hg'] at h3
          cases h3; subst h4; exact .inl rfl
        · exact .inr ⟨h1, h2, g', h3, h4⟩
    · rename_i hne
      have hne : g.name = [] := Classical.byContradiction hne
      refine ⟨i1.cons _, fun v x => ?_⟩
      rw [i2, List.mem_cons]
      constructor
      · rintro ⟨h1, h2⟩; exact ⟨.inr h1, h2⟩
      · rintro ⟨h1 | h1, h2, g', h3, h4⟩
        · subst h1
          rw [hg'] at h3
          cases h3; exact absurd (h4 ▸ hne) h2
        · exact ⟨h1, h2, g', h3, h4⟩

theorem nameLe_pairwise (l : List (Nat × Bytes)) :
    (isort nameLe l).Pairwise fun a b => a.2 ≤ b.2 := by
  have := isort_pairwise (le := nameLe)
    (by simp only [nameLe, decide_eq_true_eq]; exact fun a b c => List.le_trans)
    (by simp only [nameLe, decide_eq_true_eq]; exact fun a b => List.le_total a.2 b.2) l
  simpa [nameLe] using this

theorem checkDuplicates_ok : ∀ {names : List Bytes} {prev : Bytes},
    names.Pairwise (fun a b => a ≤ b) → (∀ n ∈ names, prev ≤ n) →
    checkDuplicates prev names = .ok () → (prev :: names).Nodup
  | [], prev, _, _, _ => by simp
  | n :: ns, prev, hp, hle, h => by
    rw [checkDuplicates] at h
    split at h
    · cases h
    · rename_i hne
      rw [List.pairwise_cons] at hp
      have ih := checkDuplicates_ok hp.2 hp.1 h
      rw [List.nodup_cons]
      refine ⟨?_, ih⟩
      intro hm
      rcases List.mem_cons.1 hm with rfl | hm
      · exact hne rfl
      · have h1 := hp.1 prev hm
        have h2 := hle n (by simp)
        exact hne (List.le_antisymm h1 h2)

end Builder

variable {env : Env} {b b' : Builder} {f : Font} {s : Parts} {w bi : GoMap Bytes Int}

/-- The names of a built font: sorted, distinct, those of the glyphs, with their indices. -/
theorem built_names (h : Built env b b' f s w bi) (hn : b.glyphOrder.Nodup)
    (hlen : ∀ u g, b.glyphData.get u = some g → g.name.length ≤ 255) :
    ∃ names ids, NameTable f names ids ∧ names.Pairwise (fun x y => x ≤ y) ∧ names.Nodup ∧
      (∀ i (hi : i < names.length) (hi' : i < ids.length), ∃ u g, b.glyphOrder[ids[i]]? = some u ∧
        b.glyphData.get u = some g ∧ g.name = names[i] ∧ g.name ≠ []) ∧
      (∀ i u g, b.glyphOrder[i]? = some u → b.glyphData.get u = some g → g.name ≠ [] →
        ∃ j, ∃ hj : j < names.length, ∃ hj' : j < ids.length, names[j] = g.name ∧ ids[j] = i) := by
  have hol : b.glyphOrder.length ≤ 65535 := by
    have := h.count; have := h.order
    rw [maxGlyphs] at *; omega
  have hs := h.glyphNames
  have hs' : b.glyphNamesSection = .ok s.glyphNames := by
    have e : b'.glyphNamesSection = b.glyphNamesSection := by
      have hb : b' = { b with dyes := b'.dyes } := h.b'_eq
      have h1 : b'.namedLoop b'.glyphOrder = b.namedLoop b.glyphOrder := by
        have h0 : b'.glyphOrder = b.glyphOrder := by rw [hb]
        have h3 : b'.glyphData = b.glyphData := by rw [hb]
        rw [h0]; exact Builder.namedLoop_congr h3 _
      have h2 : b'.glyphIndex = b.glyphIndex := by rw [hb]; rfl
      rw [Builder.glyphNamesSection, Builder.glyphNamesSection, h1, h2]
    rw [← e]; exact hs
  have ha := h.atGlyphNames
  simp only [Builder.glyphNamesSection, Res.bind_eq_ok] at hs'
  obtain ⟨named, hnamed, hs'⟩ := hs'
  obtain ⟨hsub, hmem⟩ := Builder.namedLoop_ok hnamed
  have hnl : named.length ≤ b.glyphOrder.length := by simpa using hsub.length_le
  by_cases h0 : named = []
  · rw [if_pos h0] at hs'
    have hs' : Helpers.appendUint16LE [] 0 = s.glyphNames := Res.ok.inj hs'
    rw [← hs'] at ha
    refine ⟨[], [], ⟨rfl, by rw [Font.namedCount, ha.rd16]; rfl, by simp, by simp⟩, by simp, by simp,
      by simp, ?_⟩
    intro i u g hi hg hne
    have := (hmem u g.name).2 ⟨List.mem_of_getElem? hi, hne, g, hg, rfl⟩
    rw [h0] at this; simp at this
  · rw [if_neg h0] at hs'
    simp only [Res.bind_eq_ok, Res.pure_eq, Res.ok.injEq] at hs'
    obtain ⟨_, hdup, hs'⟩ := hs'
    have hperm := isort_perm Builder.nameLe named
    have hpw := Builder.nameLe_pairwise named
    generalize isort Builder.nameLe named = sorted at *
    have hsl : sorted.length = named.length := hperm.length_eq
    have hmem' : ∀ u x, (u, x) ∈ sorted ↔ u ∈ b.glyphOrder ∧ x ≠ [] ∧
        ∃ g, b.glyphData.get u = some g ∧ g.name = x := fun u x => (hperm.mem_iff).trans (hmem u x)
    have hle : (sorted.map (·.2)).Pairwise (fun x y => x ≤ y) := by
      rw [List.pairwise_map]; exact hpw
    have hnd : (sorted.map (·.2)).Nodup :=
      (List.nodup_cons.1 (Builder.checkDuplicates_ok hle (fun n _ => List.nil_le n) hdup)).2
    have hidx : ∀ u ∈ b.glyphOrder, ∃ i, b.glyphIndex u = some i ∧ b.glyphOrder[i]? = some u := by
      intro u hu
      obtain ⟨i, hi, e⟩ := List.getElem_of_mem hu
      have : b.glyphOrder[i]? = some u := by rw [List.getElem?_eq_getElem hi, e]
      exact ⟨i, (Builder.glyphIndex_iff hn (by omega)).2 this, this⟩
    rw [← hs'] at ha
    have a1 := ha.left.left.left
    have a2 := ha.left.left.right
    have a3 := ha.left.right
    have a4 := ha.right
    have hc : f.namedCount = .ok sorted.length := by
      rw [Font.namedCount, a1.rd16, Nat.mod_eq_of_lt (by omega), hsl]
    have hil : ((sorted.map fun e => Helpers.appendUint16LE [] ((b.glyphIndex e.1).getD 0)).map
        List.length) = List.replicate sorted.length 2 := by
      rw [List.map_map, List.eq_replicate_iff]
      refine ⟨by simp, ?_⟩
      intro x hx
      simp only [List.mem_map, Function.comp_apply] at hx
      obtain ⟨y, _, rfl⟩ := hx
      rfl
    have hps : ∀ a, a ≤ sorted.length → psum (List.replicate sorted.length 2) a = 2 * a := by
      intro a ha
      rw [psum, List.take_replicate, Nat.min_eq_left ha, List.sum_replicate_nat, Nat.mul_comm]
    have hl16 : (Helpers.appendUint16LE [] named.length).length = 2 := rfl
    rw [hl16] at a2
    rw [List.length_append, hl16, flatten_length, hil, List.sum_replicate_nat] at a3
    rw [List.length_append, List.length_append, hl16, flatten_length, hil, List.sum_replicate_nat,
      ends24_length, List.length_map, List.length_map] at a4
    have hsum : ((sorted.map (·.2)).map List.length).sum ≤ 16777215 := by
      have : ∀ l : List (Nat × Bytes), (∀ e ∈ l, e ∈ sorted) →
          ((l.map (·.2)).map List.length).sum ≤ 255 * l.length := by
        intro l
        induction l with
        | nil => simp
        | cons e l ih =>
          intro hl
          have := ih (fun x hx => hl x (by simp [hx]))
          obtain ⟨_, _, g, hg, hgn⟩ := (hmem' e.1 e.2).1 (hl e (by simp))
          have := hlen _ _ hg
          rw [hgn] at this
          simp only [List.map_cons, List.sum_cons, List.length_cons]
          omega
      have := this sorted (fun _ h => h)
      omega
    have hnN : nNamed f.data f = sorted.length := by
      have := a1.u16
      rw [nNamed, this, Nat.mod_eq_of_lt (by omega), hsl]
    have hends : glyphNameEnds f.data f = f.offGlyphNames + (2 + sorted.length * 2) := by
      rw [glyphNameEnds, hnN]; omega
    have hdat : glyphNameData f.data f = f.offGlyphNames + (2 + sorted.length * 2 + 3 * sorted.length) := by
      rw [glyphNameData, hends, hnN]; omega
    have hl4 := a4.len
    rw [flatten_length] at hl4
    refine ⟨sorted.map (·.2), sorted.map fun e => (b.glyphIndex e.1).getD 0, ⟨by simp, ?_, ?_, ?_⟩, hle,
      hnd, ?_, ?_⟩
    · rw [hc]; simp
    · intro i hi
      have hb := bounds24 a3 hsum (i := i) (by simpa using hi)
      have hat := a4.block hi
      have hi' : i < sorted.length := by simpa using hi
      have p0 := psum_le_sum ((sorted.map (·.2)).map List.length) (i + 1)
      have p1 := psum_succ (l := (sorted.map (·.2)).map List.length) (i := i) (by simpa using hi)
      have hx := hat.sub
      rw [List.getElem_map] at p1
      rw [Font.nthGlyphName_eq (by rw [hnN]; simp) (by rw [hends]; omega) (by rw [hends, hb.1, hb.2]; omega)
        (by rw [hends, hdat, hb.2]; omega), hends, hdat, hb.1, hb.2, ← hx]
      congr 2
      omega
    · intro i hi
      have hi' : i < sorted.length := by simpa using hi
      have hat := a2.block (i := i) (by simpa using hi')
      rw [hil, hps i (by omega), List.getElem_map] at hat
      rw [hat.rd16, List.getElem_map]
      obtain ⟨hu, _⟩ := (hmem' (sorted[i]).1 (sorted[i]).2).1 (List.getElem_mem hi')
      obtain ⟨j, hj, hj'⟩ := hidx _ hu
      obtain ⟨hj', _⟩ := List.getElem?_eq_some_iff.1 hj'
      rw [hj, Option.getD_some, Nat.mod_eq_of_lt (by omega)]
    · intro i hi _
      have hi' : i < sorted.length := by simpa using hi
      obtain ⟨hu, hne, g, hg, hgn⟩ := (hmem' (sorted[i]).1 (sorted[i]).2).1 (List.getElem_mem hi')
      obtain ⟨j, hj, hj'⟩ := hidx _ hu
      refine ⟨(sorted[i]).1, g, ?_, hg, ?_, ?_⟩
      · rw [List.getElem_map, hj]; exact hj'
      · rw [List.getElem_map]; exact hgn
      · rw [hgn]; exact hne
    · intro i u g hi hg hne
      have := (hmem' u g.name).2 ⟨List.mem_of_getElem? hi, hne, g, hg, rfl⟩
      obtain ⟨j, hj, e⟩ := List.getElem_of_mem this
      refine ⟨j, by simpa using hj, by simpa using hj, ?_, ?_⟩
      · rw [List.getElem_map, e]
      · rw [List.getElem_map, e, (Builder.glyphIndex_iff hn (by omega)).2 hi]; rfl

end BuilderModel
