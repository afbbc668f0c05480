import Verif.Lemmas.EncOnce
import Mathlib.Data.List.Perm.Subperm

/-!
# C10 — Glyph masks survive encoding and rasterizing

`ord` stands for `sort.Slice`: all that is used is that it permutes the fragments.
-/

open Go Mask Spec.Raster

namespace C10

/-- A mask that `image.NewAlpha` can create (or a full-width `SubImage`): rows without padding, a
byte for every pixel, coordinates and pixel count that fit an `int`. -/
structure ValidMask (m : Img) : Prop where
  enc : Encodable m
  xlo : -2 ^ 63 ≤ m.rect.x0
  xhi : m.rect.x1 < 2 ^ 63
  ylo : -2 ^ 63 ≤ m.rect.y0
  yhi : m.rect.y1 < 2 ^ 63

/-- The rectangle is the smallest that contains the visible pixels. -/
def Tight (m : Img) (r : Rect) : Prop :=
  (∀ x y, m.alphaAt x y ≠ 0 → r.x0 ≤ x ∧ x < r.x1 ∧ r.y0 ≤ y ∧ y < r.y1) ∧
  (∃ y, m.alphaAt r.x0 y ≠ 0) ∧ (∃ y, m.alphaAt (r.x1 - 1) y ≠ 0) ∧
  (∃ x, m.alphaAt x r.y0 ≠ 0) ∧ (∃ x, m.alphaAt x (r.y1 - 1) ≠ 0)

/-- Rasterizing `bytes` gives back the mask `m`, cropped to its visible pixels. -/
def GivesBack (m : Img) (bytes : Bytes) : Prop :=
  ((∀ x y, m.alphaAt x y = 0) → bytes = [] ∧ rasterize bytes = .ok none) ∧
  ((∃ x y, m.alphaAt x y ≠ 0) → ∃ m', rasterize bytes = .ok (some m') ∧ Tight m m'.rect ∧
    ∀ x y, m'.alphaAt x y = m.alphaAt x y)

/-- The two documented limits. -/
def documentedLimit (e : String) : Prop :=
  e = "distances > 128 unimplemented" ∨ e = "draw distances > 256 unimplemented"

/-- Encoding either appends bytes from which `Rasterize` gives the mask back, or panics for one of
the two documented limits. -/
theorem encode_rasterize (m : Img) (hm : ValidMask m) (ord : List Frag → List Frag)
    (hord : ∀ l, (ord l).Perm l) (data : Bytes) :
    (∃ bytes, appendRasterOps ord data m = .ok (data ++ bytes) ∧ GivesBack m bytes) ∨
    (∃ e, documentedLimit e ∧ appendRasterOps ord data m = .panic e) := by
  obtain ⟨fs, hfs, hwf, hne, hval, hcov, _⟩ := computeMaskFragments_spec hm.enc
  unfold appendRasterOps
  rw [hfs]
  simp only [Res.ok_bind]
  by_cases h0 : fs.length = 0
  · left
    have hnil : fs = [] := by simpa using h0
    subst hnil
    rw [if_pos h0]
    refine ⟨[], by simp, fun _ => ⟨rfl, by decide⟩, ?_⟩
    rintro ⟨x, y, h⟩
    obtain ⟨f, hf, _⟩ := hcov x y h
    simp at hf
  · rw [if_neg h0]
    have hmem : ∀ f, f ∈ ord fs ↔ f ∈ fs := fun f => (hord fs).mem_iff
    rcases encLoop_spec (ord fs) Cursor.start data (fun f hf => hwf f ((hmem f).mp hf))
      (fun f hf => hne f ((hmem f).mp hf)) with ⟨s', cmds, e1, e2, e3, e4, e5⟩ | ⟨e, he, e1⟩
    · left
      have e1' : encLoop (ord fs) ⟨0, 0, 255, data⟩ = .ok s' := e1
      rw [e1']
      refine ⟨encode cmds, by simp [e2], ?_⟩
      -- membership of writes
      have hw : ∀ w, w ∈ writes .start cmds ↔ ∃ f ∈ fs, f.Covers w.1 w.2.1 ∧ w.2.2 = f.value := by
        intro w
        rw [e4, List.mem_flatMap]
        constructor
        · rintro ⟨f, hf, hw⟩
          have hf' := (hmem f).mp hf
          simp only [fragWrites, List.mem_map] at hw
          obtain ⟨p, hp, rfl⟩ := hw
          exact ⟨f, hf', (frag_points_mem (hwf f hf') p.1 p.2).mp hp, rfl⟩
        · rintro ⟨f, hf, hc, hv⟩
          refine ⟨f, (hmem f).mpr hf, ?_⟩
          simp only [fragWrites, List.mem_map]
          exact ⟨(w.1, w.2.1), (frag_points_mem (hwf f hf) _ _).mpr hc, by rw [← hv]⟩
      have hagree : ∀ w ∈ writes .start cmds, w.2.2 = m.alphaAt w.1 w.2.1 := by
        intro w hm
        obtain ⟨f, hf, hc, hv⟩ := (hw w).mp hm
        rw [hv, hval f hf _ _ hc]
      have hvis : ∀ x y, m.alphaAt x y ≠ 0 ↔ ∃ w ∈ writes .start cmds, w.1 = x ∧ w.2.1 = y := by
        intro x y
        constructor
        · intro h
          obtain ⟨f, hf, hc⟩ := hcov x y h
          exact ⟨(x, y, f.value), (hw _).mpr ⟨f, hf, hc, rfl⟩, rfl, rfl⟩
        · rintro ⟨w, hm, rfl, rfl⟩
          obtain ⟨f, hf, hc, hv⟩ := (hw w).mp hm
          rw [hval f hf _ _ hc]
          exact hne f hf
      obtain ⟨f0, hf0⟩ := List.exists_mem_of_length_pos (by omega : 0 < fs.length)
      have hwne : writes .start cmds ≠ [] := by
        have wf := hwf f0 hf0
        have hc : f0.Covers f0.minX (if f0.diag = .asc then f0.maxY else f0.minY) := by
          unfold Frag.Covers
          have wx := wf.x
          have wy := wf.y
          have ws := wf.sq
          cases hd : f0.diag with
          | none => simp; omega
          | asc => rw [hd] at ws; have := ws (by simp); simp; omega
          | desc => simp; omega
        intro h
        have := (hw (f0.minX, (if f0.diag = .asc then f0.maxY else f0.minY), f0.value)).mpr
          ⟨f0, hf0, hc, rfl⟩
        rw [h] at this
        simp at this
      obtain ⟨m', hr, ht, ha⟩ := rasterize_box e3 hwne (b := m.rect)
        ⟨hm.xlo, hm.xhi, hm.ylo, hm.yhi⟩ hm.enc.size (by
          intro w hwm
          obtain ⟨f, hf, hc, hv⟩ := (hw w).mp hwm
          exact has_of_ne (hne f hf) (hval f hf _ _ hc))
      constructor
      · intro hz
        obtain ⟨w, hwm⟩ := List.exists_mem_of_ne_nil _ hwne
        exact absurd (hz w.1 w.2.1) ((hvis _ _).mpr ⟨w, hwm, rfl, rfl⟩)
      · intro _
        refine ⟨m', hr, ?_, ?_⟩
        · obtain ⟨t0, ⟨p1, q1, g1⟩, ⟨p2, q2, g2⟩, ⟨p3, q3, g3⟩, ⟨p4, q4, g4⟩⟩ := ht
          have hp : ∀ p ∈ (writes .start cmds).map (fun w => (w.1, w.2.1)), m.alphaAt p.1 p.2 ≠ 0 := by
            intro p hp
            obtain ⟨w, hwm, rfl⟩ := List.mem_map.mp hp
            exact (hvis _ _).mpr ⟨w, hwm, rfl, rfl⟩
          refine ⟨?_, ⟨p1.2, ?_⟩, ⟨p2.2, ?_⟩, ⟨p3.1, ?_⟩, ⟨p4.1, ?_⟩⟩
          · intro x y h
            obtain ⟨w, hwm, rfl, rfl⟩ := (hvis x y).mp h
            exact t0 (w.1, w.2.1) (List.mem_map.mpr ⟨w, hwm, rfl⟩)
          · rw [← g1]; exact hp p1 q1
          · rw [← g2]; exact hp p2 q2
          · rw [← g3]; exact hp p3 q3
          · rw [← g4]; exact hp p4 q4
        · intro x y
          rw [ha]
          unfold colorAt
          rw [foldl_agree m.alphaAt x y _ 0 hagree]
          by_cases hv : m.alphaAt x y = 0
          · rw [if_neg (fun h => (hvis x y).mpr h hv), hv]
          · rw [if_pos ((hvis x y).mp hv)]
    · right
      have e1' : encLoop (ord fs) ⟨0, 0, 255, data⟩ = .panic e := e1
      rw [e1']
      exact ⟨e, he, rfl⟩

/-- Masks that fit, together with the origin, a 128x128 square are always encoded. -/
theorem small_masks_encode (m : Img) (hm : ValidMask m) (ord : List Frag → List Frag)
    (hord : ∀ l, (ord l).Perm l) (data : Bytes)
    (hx : max m.rect.x1 0 - min m.rect.x0 0 ≤ 128) (hy : max m.rect.y1 0 - min m.rect.y0 0 ≤ 128) :
    ∃ bytes, appendRasterOps ord data m = .ok (data ++ bytes) ∧ GivesBack m bytes := by
  rcases encode_rasterize m hm ord hord data with h | ⟨e, _, h⟩
  · exact h
  · exfalso
    obtain ⟨fs, hfs, hwf, hne, hval, hcov, _⟩ := computeMaskFragments_spec hm.enc
    have hmem : ∀ f, f ∈ ord fs ↔ f ∈ fs := fun f => (hord fs).mem_iff
    unfold appendRasterOps at h
    rw [hfs] at h
    simp only [Res.ok_bind] at h
    by_cases h0 : fs.length = 0
    · rw [if_pos h0] at h; simp at h
    · rw [if_neg h0] at h
      obtain ⟨s', e1⟩ := encLoop_reach hx hy (ord fs) Cursor.start data
        (fun f hf => hwf f ((hmem f).mp hf)) (fun f hf => hne f ((hmem f).mp hf))
        (by
          intro f hf
          have hf := (hmem f).mp hf
          have wf := hwf f hf
          have wx := wf.x
          have wy := wf.y
          have ws := wf.sq
          have hb : ∀ x y, f.Covers x y → m.rect.Has x y :=
            fun x y hc => has_of_ne (hne f hf) (hval f hf x y hc)
          unfold Frag.Covers at hb
          cases hd : f.diag with
          | none =>
            simp only [hd] at hb
            obtain ⟨a1, a2, a3, a4⟩ := hb f.minX f.minY (by omega)
            obtain ⟨b1, b2, b3, b4⟩ := hb f.maxX f.maxY (by omega)
            omega
          | asc =>
            simp only [hd] at hb
            rw [hd] at ws
            have := ws (by simp)
            obtain ⟨a1, a2, a3, a4⟩ := hb f.minX f.maxY (by omega)
            obtain ⟨b1, b2, b3, b4⟩ := hb f.maxX f.minY (by omega)
            omega
          | desc =>
            simp only [hd] at hb
            rw [hd] at ws
            have := ws (by simp)
            obtain ⟨a1, a2, a3, a4⟩ := hb f.minX f.minY (by omega)
            obtain ⟨b1, b2, b3, b4⟩ := hb f.maxX f.maxY (by omega)
            omega)
        (by simp [Cursor.start]) (by simp [Cursor.start]) (by simp [Cursor.start])
        (by simp [Cursor.start])
      have e1' : encLoop (ord fs) ⟨0, 0, 255, data⟩ = .ok s' := e1
      rw [e1'] at h
      simp at h

/-- **Each pixel once.** The commands draw the visible pixels, each of them with its value and only once. -/
theorem each_once {m : Img} (hm : ValidMask m) {ord : List Frag → List Frag} (hord : ∀ l, (ord l).Perm l) {data x : Bytes}
    (h : appendRasterOps ord data m = .ok x) :
    ∃ cmds, x = data ++ encode cmds ∧ (∀ c ∈ cmds, c.Valid) ∧
      ((writes .start cmds).map fun w => (w.1, w.2.1)).Nodup ∧ cmds.length ≤ (writes .start cmds).length ∧
      ∀ px py v, (px, py, v) ∈ writes .start cmds ↔ v ≠ 0 ∧ m.alphaAt px py = v := by
  obtain ⟨fs, hfs, hwf, hne, hval, hcov, hap⟩ := computeMaskFragments_spec hm.enc
  unfold appendRasterOps at h
  rw [hfs] at h
  simp only [Res.ok_bind] at h
  by_cases h0 : fs.length = 0
  · rw [if_pos h0] at h
    obtain rfl := Res.ok.inj h
    have hnil : fs = [] := by simpa using h0
    refine ⟨[], by simp [encode], by simp, by simp [writes], by simp, fun px py v => ?_⟩
    simp only [writes, List.not_mem_nil, false_iff, not_and]
    intro hv e
    obtain ⟨f, hf, _⟩ := hcov px py (by rw [e]; exact hv)
    rw [hnil] at hf
    cases hf
  · rw [if_neg h0] at h
    have hmem : ∀ f, f ∈ ord fs ↔ f ∈ fs := fun f => (hord fs).mem_iff
    have hwf' : ∀ f ∈ ord fs, f.WF := fun f hf => hwf f ((hmem f).mp hf)
    have hap' : (ord fs).Pairwise Frag.Apart :=
      (hord fs).symm.pairwise hap fun {f g} hfg px py hc hc' => hfg px py hc' hc
    rcases encLoop_spec (ord fs) Cursor.start data hwf' (fun f hf => hne f ((hmem f).mp hf)) with
      ⟨s', cmds, e1, e2, e3, e4, e5⟩ | ⟨e, _, e1⟩
    · have e1' : encLoop (ord fs) ⟨0, 0, 255, data⟩ = .ok s' := e1
      rw [e1'] at h
      obtain rfl := Res.ok.inj h
      refine ⟨cmds, e2, e3, by rw [e4]; exact writes_nodup hwf' hap', by rw [e4, e5]; exact writes_length hwf', ?_⟩
      intro px py v
      rw [e4, List.mem_flatMap]
      constructor
      · rintro ⟨f, hf, hw⟩
        have hf' := (hmem f).mp hf
        simp only [fragWrites, List.mem_map] at hw
        obtain ⟨p, hp, e⟩ := hw
        simp only [Prod.mk.injEq] at e
        obtain ⟨rfl, rfl, rfl⟩ := e
        exact ⟨hne f hf', hval f hf' _ _ ((frag_points_mem (hwf f hf') p.1 p.2).mp hp)⟩
      · rintro ⟨hv, e⟩
        obtain ⟨f, hf, hc⟩ := hcov px py (by rw [e]; exact hv)
        have := hval f hf px py hc
        refine ⟨f, (hmem f).mpr hf, ?_⟩
        simp only [fragWrites, List.mem_map]
        exact ⟨(px, py), (frag_points_mem (hwf f hf) _ _).mpr hc, by rw [← this, e]⟩
    · have e1' : encLoop (ord fs) ⟨0, 0, 255, data⟩ = .panic e := e1
      rw [e1'] at h
      cases h

/-- **Length.** At most 6 bytes for every visible pixel. -/
theorem length_le {m : Img} (hm : ValidMask m) {ord : List Frag → List Frag} (hord : ∀ l, (ord l).Perm l) {data x : Bytes}
    (h : appendRasterOps ord data m = .ok x) {pixels : List (Int × Int)}
    (hp : ∀ px py, m.alphaAt px py ≠ 0 → (px, py) ∈ pixels) : x.length ≤ data.length + 6 * pixels.length := by
  obtain ⟨cmds, rfl, _, hn, hl, hw⟩ := each_once hm hord h
  have h1 := (List.subperm_of_subset hn fun p hp' => by
    obtain ⟨⟨px, py, v⟩, hmem, rfl⟩ := List.mem_map.1 hp'
    obtain ⟨hv, e⟩ := (hw px py v).1 hmem
    exact hp px py (by rw [e]; exact hv)).length_le
  have h2 := encode_length cmds
  simp only [List.length_map] at h1
  simp only [List.length_append]
  omega

/-- **Which masks can be encoded.** Those whose fragments, in the order in which they are encoded, are within reach of
each other and not too large. -/
theorem encoded_iff {m : Img} (hm : ValidMask m) {ord : List Frag → List Frag} (hord : ∀ l, (ord l).Perm l) (data : Bytes) :
    (∃ x, appendRasterOps ord data m = .ok x) ↔
      ∃ fs, computeMaskFragments m = .ok fs ∧ Spec.Steps 0 0 (ord fs) := by
  obtain ⟨fs, hfs, hwf, hne, _⟩ := computeMaskFragments_spec hm.enc
  have hmem : ∀ f, f ∈ ord fs ↔ f ∈ fs := fun f => (hord fs).mem_iff
  have hwf' : ∀ f ∈ ord fs, f.WF := fun f hf => hwf f ((hmem f).mp hf)
  have hne' : ∀ f ∈ ord fs, f.value ≠ 0 := fun f hf => hne f ((hmem f).mp hf)
  simp only [appendRasterOps, hfs, Res.ok_bind]
  by_cases h0 : fs.length = 0
  · have hnil : fs = [] := by simpa using h0
    rw [if_pos h0]
    refine ⟨fun _ => ⟨fs, rfl, ?_⟩, fun _ => ⟨data, rfl⟩⟩
    have : ord fs = [] := by have := (hord fs).length_eq; rw [h0] at this; simpa using this
    rw [this]
    trivial
  · rw [if_neg h0]
    constructor
    · rintro ⟨x, h⟩
      obtain ⟨s, h1, _⟩ := Res.bind_eq_ok.1 h
      exact ⟨fs, rfl, encLoop_steps hwf' h1⟩
    · rintro ⟨fs', e, hs⟩
      obtain rfl := Res.ok.inj e
      obtain ⟨r, hr⟩ := steps_encLoop (s := ⟨0, 0, 255, data⟩) hwf' hne' hs
      exact ⟨r.out, by rw [hr]; rfl⟩

/-- **Far masks.** When all visible pixels are more than 128 to the right of the origin, or to the left of it, or
above or below it, nothing can be encoded. -/
theorem far_masks {m : Img} (hm : ValidMask m) {ord : List Frag → List Frag} (hord : ∀ l, (ord l).Perm l) (data : Bytes)
    (hv : ∃ px py, m.alphaAt px py ≠ 0)
    (hf : (∀ px py, m.alphaAt px py ≠ 0 → 128 < px) ∨ (∀ px py, m.alphaAt px py ≠ 0 → 128 < py) ∨
      (∀ px py, m.alphaAt px py ≠ 0 → px < -128) ∨ (∀ px py, m.alphaAt px py ≠ 0 → py < -128)) :
    ∃ e, documentedLimit e ∧ appendRasterOps ord data m = .panic e := by
  rcases encode_rasterize m hm ord hord data with ⟨bytes, h, _⟩ | h
  · exfalso
    obtain ⟨fs, hfs, hs⟩ := (encoded_iff hm hord data).1 ⟨_, h⟩
    obtain ⟨fs', hfs', hwf, hne, hval, hcov, _⟩ := computeMaskFragments_spec hm.enc
    obtain rfl : fs = fs' := by rw [hfs] at hfs'; exact Res.ok.inj hfs'
    obtain ⟨px, py, hp⟩ := hv
    obtain ⟨f0, hf0, _⟩ := hcov px py hp
    cases hl : ord fs with
    | nil => have := (hord fs).mem_iff.2 hf0; rw [hl] at this; cases this
    | cons f l =>
      rw [hl] at hs
      obtain ⟨s1, s2, _⟩ := hs
      have hfm : f ∈ fs := (hord fs).mem_iff.1 (by rw [hl]; simp)
      have wf := hwf f hfm
      have wx := wf.x
      have wy := wf.y
      have ws := wf.sq
      have k : ∀ qx qy, f.Covers qx qy → m.alphaAt qx qy ≠ 0 := fun qx qy hc => by rw [hval f hfm qx qy hc]; exact hne f hfm
      have c1 : ∃ qy, m.alphaAt f.minX qy ≠ 0 := ⟨_, k _ _ (covers_self wf)⟩
      have c2 : ∃ qx, m.alphaAt qx f.minY ≠ 0 := by
        refine ⟨if f.diag = .asc then f.maxX else f.minX, k _ _ ?_⟩
        unfold Frag.Covers
        cases hd : f.diag with
        | none => simp; omega
        | asc => simp; omega
        | desc => simp; omega
      obtain ⟨qy, c1⟩ := c1
      obtain ⟨qx, c2⟩ := c2
      rcases hf with hf | hf | hf | hf
      · have := hf _ _ c1; omega
      · have := hf _ _ c2; omega
      · have := hf _ _ c1; omega
      · have := hf _ _ c2; omega
  · exact h

/-- A 5x4 mask at (-2, -3) with a square, a line, a diagonal and two palette indices. -/
def sample : Img := ⟨⟨-2, -3, 3, 1⟩, 5,
  [255, 255, 0, 0, 7,
   255, 255, 0, 7, 0,
   0, 0, 7, 0, 0,
   9, 0, 255, 255, 255]⟩

example : ValidMask sample ∧ max sample.rect.x1 0 - min sample.rect.x0 0 ≤ 128 ∧
    max sample.rect.y1 0 - min sample.rect.y0 0 ≤ 128 ∧ (∃ x y, sample.alphaAt x y ≠ 0) := by
  refine ⟨⟨⟨by decide, by decide, by decide, by decide, by decide⟩, by decide, by decide, by decide,
    by decide⟩, by decide, by decide, -2, -3, by decide⟩

/-- The encoding of the sample (fragments in the order found) and what it rasterizes to. -/
example : ∃ b, appendRasterOps id [] sample = .ok b ∧ b ≠ [] ∧
    (match rasterize b with | .ok (some m) => some (m.rect, m.pix) | _ => none) =
      some (sample.rect, sample.pix) :=
  ⟨(match appendRasterOps id [] sample with | .ok b => b | _ => []), by decide +kernel⟩

/-- A line of 200 pixels is not small, but can be encoded, and so can one of 256, but not one of 257. -/
example : ValidMask ⟨⟨0, 0, 200, 1⟩, 200, List.replicate 200 7⟩ ∧
    appendRasterOps id [] ⟨⟨0, 0, 200, 1⟩, 200, List.replicate 200 7⟩ = .ok [33, 7, 199] ∧
    appendRasterOps id [] ⟨⟨0, 0, 256, 1⟩, 256, List.replicate 256 7⟩ = .ok [33, 7, 255] ∧
    appendRasterOps id [] ⟨⟨0, 0, 257, 1⟩, 257, List.replicate 257 7⟩ = .panic "draw distances > 256 unimplemented" :=
  ⟨⟨⟨by decide, by decide, by decide, by decide +kernel, by decide⟩, by decide, by decide, by decide, by decide⟩,
    by decide +kernel, by decide +kernel, by decide +kernel⟩

/-- The hypotheses of `far_masks`. -/
example : ValidMask ⟨⟨200, 0, 201, 1⟩, 1, [255]⟩ ∧ Img.alphaAt ⟨⟨200, 0, 201, 1⟩, 1, [255]⟩ 200 0 ≠ 0 ∧
    ∀ px py, Img.alphaAt ⟨⟨200, 0, 201, 1⟩, 1, [255]⟩ px py ≠ 0 → 128 < px := by
  refine ⟨⟨⟨by decide, by decide, by decide, by decide, by decide⟩, by decide, by decide, by decide, by decide⟩,
    by decide, fun px py h => ?_⟩
  have := has_of_ne (m := ⟨⟨200, 0, 201, 1⟩, 1, [255]⟩) h rfl
  have := this.1
  simp only at this
  omega

/-- Masks far from the origin hit a limit: documented, but a panic. -/
example : appendRasterOps id [] ⟨⟨200, 0, 201, 1⟩, 1, [255]⟩ =
    .panic "distances > 128 unimplemented" := by decide +kernel

end C10
