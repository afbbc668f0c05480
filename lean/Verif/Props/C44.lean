import Verif.Lemmas.LargeMasks
import Verif.Lemmas.ManyGlyphs
import Verif.Spec.SampleBuilder
import Verif.Props.C10

/-!
# C44: glyph placements and masks read back

The end offsets of the masks have 24 bits, and `Build` does not check that the masks fit.
-/

namespace C44
open Go Spec FontModel BuilderModel

/-- For fonts with at most 16 MiB of masks: every glyph of a built font has the placement and the mask
that were stored in the builder (the vertical placement only with vertical layout). The masks are
images as `image.NewAlpha` makes them; `fragOrder` is a sort. -/
theorem glyphs_read_partial (env : Env) (henv : ∀ l, (env.fragOrder l).Perm l)
    (b b' : Builder) (f : Font) (h : b.build env = .ok (b', f))
    (hsize : f.offWords - (f.offGlyphMasks + 3 * b.glyphOrder.length) ≤ 16777215)
    (i : Nat) (hi : i < b.glyphOrder.length) (g : GlyphData)
    (hg : b.glyphData.get b.glyphOrder[i] = some g) (hm : C10.ValidMask g.mask) :
    f.advance i = .ok g.placement.advance.toNat ∧
    f.placement i = .ok (if b.hasVertLayout then
        ⟨g.placement.advance.toNat, g.placement.topAdvance.toNat, g.placement.bottomAdvance.toNat,
          g.placement.horzCenter.toNat⟩
      else ⟨g.placement.advance.toNat, 0, 0, 0⟩) ∧
    ∃ ops, f.maskOps i = .ok ops ∧ C10.GivesBack g.mask ops := by
  obtain ⟨s, w, bi, hb⟩ := build_parts h
  obtain ⟨blocks, hbl, he⟩ := hb.glyphMasks_eq
  obtain ⟨hl, hblk⟩ := mapRes_ok hbl
  have hi' : i < blocks.length := by omega
  obtain ⟨hs, hen, hat⟩ := hb.masks_at he hl hsize hi'
  have hblock := hblk i hi hi'
  rw [Builder.glyphBlock, Builder.glyph, hg] at hblock
  simp only [Res.ok_bind] at hblock
  have hops : ∃ ops, blocks[i] = b.placementBytes g.placement ++ ops ∧ C10.GivesBack g.mask ops := by
    rcases C10.encode_rasterize g.mask hm env.fragOrder henv (b.placementBytes g.placement) with
      ⟨ops, ho, hgb⟩ | ⟨e, _, ho⟩
    · rw [ho] at hblock
      exact ⟨ops, (Res.ok.inj hblock).symm, hgb⟩
    · rw [ho] at hblock; cases hblock
  obtain ⟨ops, hops, hgb⟩ := hops
  rw [hops] at hat
  have hlen : (blocks.map List.length)[i]'(by simpa using hi') =
      (b.placementBytes g.placement).length + ops.length := by
    rw [List.getElem_map, hops, List.length_append]
  have hsucc := psum_succ (l := blocks.map List.length) (i := i) (by simpa using hi')
  rw [hlen] at hsucc
  have hpos := hat.len
  rw [List.length_append] at hpos
  have hn := hb.numGlyphs
  have hmd : f.offGlyphMasks + 2 * b.glyphOrder.length + b.glyphOrder.length =
    f.offGlyphMasks + 3 * b.glyphOrder.length := by omega
  have hstart : f.glyphDataStart i = .ok (psum (blocks.map List.length) i) := by
    rw [Font.glyphDataStart_eq (by omega), hs]
  have hpl1 : 1 ≤ (b.placementBytes g.placement).length := by
    unfold Builder.placementBytes; split <;> simp
  have hoffs : f.glyphDataOffsets i = .ok (psum (blocks.map List.length) i,
      psum (blocks.map List.length) (i + 1)) := by
    rw [Font.glyphDataOffsets_eq (by omega) (by omega), hs, hen]
  have hv := hb.hasVertLayout
  have hp := hat.left
  have ho := hat.right
  refine ⟨?_, ?_, ops, ?_, hgb⟩
  · unfold Font.advance
    rw [hn, Res.ok_bind, if_neg (by omega), hstart, Res.ok_bind]
    simp only [Font.shl1]
    rw [hmd]
    unfold Builder.placementBytes at hp
    split at hp <;> exact hp.rd8
  · unfold Font.placement
    rw [hn, Res.ok_bind, if_neg (by omega), hstart, Res.ok_bind]
    simp only [Font.shl1]
    rw [hmd]
    unfold Builder.placementBytes at hp
    cases hvl : b.hasVertLayout
    · rw [hvl] at hp hv
      rw [if_neg (by simp)] at hp
      rw [hp.rd8, Res.ok_bind, hv]
      rfl
    · rw [hvl] at hp hv
      rw [if_pos rfl] at hp
      obtain ⟨p0, p1⟩ := At.cons.1 hp
      obtain ⟨p1, p2⟩ := At.cons.1 p1
      obtain ⟨p2, p3⟩ := At.cons.1 p2
      rw [p0.rd8, Res.ok_bind, hv, Res.ok_bind, if_pos rfl, p1.rd8, Res.ok_bind, p2.rd8, Res.ok_bind,
        p3.rd8, Res.ok_bind]
      rfl
  · exact hb.maskOps_eq he hl hsize hi hops

/-- The operations read for the glyphs are those that the encoder wrote exactly when the data of the glyphs fits the
24 bits of its end offsets. -/
theorem masks_exact (env : Env) (henv : ∀ l, (env.fragOrder l).Perm l)
    (b b' : Builder) (f : Font) (h : b.build env = .ok (b', f))
    (hm : ∀ u g, b.glyphData.get u = some g → C10.ValidMask g.mask) :
    (∀ i (hi : i < b.glyphOrder.length) g, b.glyphData.get b.glyphOrder[i] = some g →
      ∃ ops, f.maskOps i = .ok ops ∧
        Mask.appendRasterOps env.fragOrder (b.placementBytes g.placement) g.mask =
          .ok (b.placementBytes g.placement ++ ops)) ↔
    f.offWords - (f.offGlyphMasks + 3 * b.glyphOrder.length) ≤ 16777215 := by
  obtain ⟨s, w, bi, hb⟩ := build_parts h
  obtain ⟨blocks, hbl, he⟩ := hb.glyphMasks_eq
  obtain ⟨hl, hblk⟩ := mapRes_ok hbl
  have hw := hb.offWords
  rw [he, List.length_append, ends24_length, flatten_length, List.length_map] at hw
  constructor
  · intro hall
    rcases Nat.lt_or_ge 16777215 (blocks.map List.length).sum with hbig | hsmall
    · exfalso
      obtain ⟨i, hi, h1, h2⟩ := exists_wrap hbig
      rw [List.length_map] at hi
      have ha := hb.atGlyphMasks
      rw [he] at ha
      obtain ⟨g, hg⟩ := hb.glyph_of (i := i) (by omega)
      obtain ⟨ops, ho, hw'⟩ := hall i (by omega) g hg
      have hblock := hblk i (by omega) hi
      rw [Builder.glyphBlock, Builder.glyph, hg] at hblock
      simp only [Res.ok_bind] at hblock
      rw [hw'] at hblock
      have hbi := congrArg List.length (Res.ok.inj hblock)
      have hle := ha.len
      rw [List.length_append, ends24_length, List.length_map] at hle
      have hlen := hb.maskOps_length (i := i) (by omega) ho
      have hend : end24 f.data f.offGlyphMasks i = psum (blocks.map List.length) (i + 1) % 16777216 := by
        rw [end24, ends24_at ha.left (by simpa using hi), Nat.zero_add]
      have hstart : start24 f.data f.offGlyphMasks i = psum (blocks.map List.length) i := by
        cases i with
        | zero => rw [psum_zero]; rfl
        | succ i =>
          rw [start24_succ _ _ _ (by omega), end24, Nat.add_sub_cancel, ends24_at ha.left (by rw [List.length_map]; omega),
            Nat.zero_add, Nat.mod_eq_of_lt (by omega)]
      have hsucc := psum_succ (l := blocks.map List.length) (i := i) (by simpa using hi)
      rw [List.getElem_map, ← hbi, List.length_append] at hsucc
      have hp : (b.placementBytes g.placement).length = if b.hasVertLayout then 4 else 1 := by
        unfold Builder.placementBytes
        cases b.hasVertLayout <;> rfl
      rw [hend, hstart, ← hp] at hlen
      omega
    · omega
  · intro hsize i hi g hg
    have hi' : i < blocks.length := by omega
    have hblock := hblk i hi hi'
    rw [Builder.glyphBlock, Builder.glyph, hg] at hblock
    simp only [Res.ok_bind] at hblock
    obtain ⟨hs, hen, hat⟩ := hb.masks_at he hl hsize hi'
    obtain ⟨ops, hops⟩ : ∃ ops, blocks[i] = b.placementBytes g.placement ++ ops := by
      rcases C10.encode_rasterize g.mask (hm _ _ hg) env.fragOrder henv (b.placementBytes g.placement) with
        ⟨ops, ho, _⟩ | ⟨e, _, ho⟩
      · rw [ho] at hblock; exact ⟨ops, (Res.ok.inj hblock).symm⟩
      · rw [ho] at hblock; cases hblock
    refine ⟨ops, ?_, by rw [hblock, hops]⟩
    exact hb.maskOps_eq he hl hsize hi hops

/-- A builder with 56000 glyphs that take 304 bytes each: `Build` returns a font, but some of the masks are lost. -/
theorem masks_violated : ∃ b b' f, Reachable b ∧ b.build Sample.env = .ok (b', f) ∧
    (∀ u g, b.glyphData.get u = some g → C10.ValidMask g.mask) ∧
    ∃ i, ∃ hi : i < b.glyphOrder.length, ∃ g, b.glyphData.get b.glyphOrder[i] = some g ∧
      ¬ ∃ ops, f.maskOps i = .ok ops ∧
        Mask.appendRasterOps Sample.env.fragOrder (b.placementBytes g.placement) g.mask =
          .ok (b.placementBytes g.placement ++ ops) := by
  obtain ⟨d, o, hr, h1, h2, h3, h4⟩ := Sample.many_glyphs 56000 (by omega)
  obtain ⟨⟨b', f⟩, hb, hsz⟩ := Sample.many_built (d := d) (o := o) (by omega)
    (fun e => by rw [e] at h2; simp at h2) (by omega) h3
  have hv : ∀ u g, (Sample.withGlyphs d o).glyphData.get u = some g → C10.ValidMask g.mask := by
    intro u g hg
    have := (h4 _ (GoMap.mem_of_get hg)).2
    simp only at this
    rw [this]
    exact ⟨⟨by decide, by decide, by decide, by decide +kernel, by decide⟩, by decide, by decide, by decide, by decide⟩
  refine ⟨_, b', f, hr, hb, hv, ?_⟩
  have hx := (masks_exact Sample.env (fun l => List.Perm.refl l) _ b' f hb hv).not.2 (by
    show ¬ f.offWords - (f.offGlyphMasks + 3 * o.length) ≤ 16777215
    simp only at hsz
    omega)
  apply Classical.byContradiction
  intro hn
  apply hx
  intro i hi g hg
  apply Classical.byContradiction
  intro hno
  exact hn ⟨i, hi, g, hg, hno⟩

/-- `AddGlyph` appends the glyph (when it returns an identifier) and leaves the other glyphs alone;
its mask is the given one. -/
theorem addGlyph_stores (b b' : Builder) (rolls : List Nat) (mask : Mask.Img) (uid : Nat)
    (h : b.addGlyph rolls mask = .ok (b', uid)) :
    b'.glyphOrder = b.glyphOrder ++ [uid] ∧ (∃ g, b'.glyphData.get uid = some g ∧ g.mask = mask) ∧
    b.glyphData.get uid = none ∧ ∀ u, u ≠ uid → b'.glyphData.get u = b.glyphData.get u := by
  simp only [Builder.addGlyph, Res.bind_eq_ok, ite_err] at h
  obtain ⟨_, _, _, h⟩ := h
  split at h
  · cases h
  · rename_i u hu
    simp only [Res.pure_eq, Res.ok.injEq, Prod.mk.injEq] at h
    obtain ⟨rfl, rfl⟩ := h
    have hn := List.find?_some hu
    simp only [Bool.and_eq_true, Option.isNone_iff_eq_none] at hn
    exact ⟨rfl, ⟨_, GoMap.get_set_self .., rfl⟩, hn.1, fun v hv => GoMap.get_set_ne _ _ hv⟩

/-- `SetGlyphPlacement` changes the placement of that glyph only. -/
theorem setGlyphPlacement_stores (b b' : Builder) (uid : Nat) (p : BuilderModel.Placement)
    (h : b.setGlyphPlacement uid p = .ok b') :
    b'.glyphOrder = b.glyphOrder ∧
    (∃ g, b.glyphData.get uid = some g ∧ b'.glyphData.get uid = some { g with placement := p }) ∧
    ∀ u, u ≠ uid → b'.glyphData.get u = b.glyphData.get u := by
  unfold Builder.setGlyphPlacement at h
  split at h
  · cases h
  · rename_i g hg
    have h := Res.ok.inj h
    subst h
    exact ⟨rfl, ⟨g, hg, GoMap.get_set_self ..⟩, fun v hv => GoMap.get_set_ne _ _ hv⟩

/-- The hypotheses are met by a font with vertical layout. -/
example : ∃ b' f, Sample.vertical.build Sample.env = .ok (b', f) ∧
    f.offWords - (f.offGlyphMasks + 3 * Sample.vertical.glyphOrder.length) ≤ 16777215 ∧ f.placement 0 = .ok ⟨1, 9, 5, 0⟩ := by
  refine ⟨(Sample.result Sample.vertical).1, (Sample.result Sample.vertical).2, ?_, ?_, ?_⟩ <;>
    decide +kernel

end C44
