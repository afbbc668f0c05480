import Verif.Lemmas.BuildAt
import Verif.Spec.Colors

/-! # Color sections -/

namespace BuilderModel
open Go Spec FontModel

theorem psum_lt {l : List Nat} (hpos : ∀ n ∈ l, 0 < n) {i : Nat} (hi : i < l.length) :
    psum l i < psum l (i + 1) := by
  have := hpos l[i] (List.getElem_mem hi)
  rw [psum_succ hi]; omega

/-- Names between end offsets read back. -/
theorem eachName_at {D : Bytes} {o : Nat} {names : List Bytes}
    (h1 : At D o (ends16 0 (names.map List.length))) (h2 : At D (o + 2 * names.length) names.flatten)
    (hs : (names.map List.length).sum ≤ 65535) (hne : ∀ n ∈ names, n ≠ []) :
    Font.eachNameLoop D (o + 2 * names.length) names.length o 0 = .ok names := by
  have hb : ∀ j, j < names.length → start16 D o j = psum (names.map List.length) j ∧
      end16 D o j = psum (names.map List.length) (j + 1) := fun j hj =>
    bounds16 h1 hs (by simpa using hj)
  have hpos : ∀ n ∈ names.map List.length, 0 < n := by
    intro n hn
    obtain ⟨x, hx, rfl⟩ := List.mem_map.1 hn
    exact List.length_pos_iff.2 (hne x hx)
  have hl1 := h1.len
  have hl2 := h2.len
  rw [ends16_length, List.length_map] at hl1
  rw [flatten_length] at hl2
  have := Font.eachNameLoop_eq (D := D) (names := o + 2 * names.length) o names.length names.length 0
    (by omega)
    (fun j hj => by rw [(hb j hj).1, (hb j hj).2]; exact psum_lt hpos (by simpa using hj))
    (fun j hj => by omega)
    (fun j hj => by
      rw [(hb j hj).2]
      have := psum_le_sum (names.map List.length) (j + 1)
      omega)
  rw [Nat.mul_zero, Nat.add_zero] at this
  have h0 : start16 D o 0 = 0 := rfl
  rw [h0] at this
  rw [this]
  congr 1
  apply List.ext_getElem (by simp)
  intro j hj hj'
  rw [List.getElem_map, List.getElem_range', Nat.zero_add, Nat.one_mul, (hb j hj').1, (hb j hj').2]
  have hx := (h2.block hj').sub
  have hp := psum_succ (l := names.map List.length) (i := j) (by simpa using hj')
  rw [List.getElem_map] at hp
  rw [← hx]
  congr 1
  omega

/-- Bounds of a color section. -/
theorem bounds8 {D : Bytes} {off : Nat} {l : List Nat} {x : Bytes} (h : ends8 0 l = .ok x)
    (ha : At D (off + 1) x) {i : Nat} (hi : i < l.length) :
    start8 D (off + 1) i = psum l i ∧ end8 D (off + 1) i = psum l (i + 1) := by
  obtain ⟨h1, h2, h3⟩ := ends8_ok h
  have e : ∀ j, j < l.length → end8 D (off + 1) j = psum l (j + 1) := by
    intro j hj
    rw [end8, ha.get (by omega), h3 j hj (by omega), Nat.zero_add]
  refine ⟨?_, e i hi⟩
  cases i with
  | zero => rw [psum_zero]; rfl
  | succ i => rw [start8_succ _ _ _ (by omega), Nat.add_sub_cancel, e i (by omega)]

theorem last8 {D : Bytes} {off : Nat} {l : List Nat} {x : Bytes} (h : ends8 0 l = .ok x)
    (h0 : byteAt D off = l.length) (ha : At D (off + 1) x) : byteAt D (off + l.length) = l.sum := by
  by_cases hl : l = []
  · subst hl; simpa using h0
  · have hp : 0 < l.length := List.length_pos_iff.2 hl
    have hb := (bounds8 h ha (i := l.length - 1) (by omega)).2
    rw [end8] at hb
    have e : l.length - 1 + 1 = l.length := by omega
    rw [e, psum_all] at hb
    rw [← hb]; congr 1; omega

variable {env : Env} {b b' : Builder} {f : Font} {s : Parts} {w bi : GoMap Bytes Int}

/-- Everything about the dyes of a built font. -/
theorem built_dyes (h : Built env b b' f s w bi) :
    f.numDyes = .ok b'.dyes.length ∧
    f.numDyeIndices = .ok (b'.dyes.map fun d => d.alphas.length).sum ∧
    (∀ i (hi : i < b'.dyes.length), b'.dyes[i].alphas ≠ [] →
      f.numDyeAlphas i = .ok b'.dyes[i].alphas.length ∧
      f.eachDyeAlpha i = .ok (b'.dyes[i].alphas.map UInt8.toNat)) ∧
    ((∀ d ∈ b'.dyes, d.name ≠ []) → (b'.dyes.map fun d => d.name.length).sum ≤ 65535 →
      f.eachDye = .ok (b'.dyes.map Dye.name)) := by
  have hs := h.dyes
  have ha := h.atDyes
  simp only [Builder.dyesSection, Res.bind_eq_ok, Res.pure_eq, Res.ok.injEq] at hs
  obtain ⟨ends, he, hs⟩ := hs
  rw [← hs] at ha
  have hcount : b'.dyes.length ≤ 255 := by
    have hm := Builder.main_eq h.main
    have := h.sections
    rw [hm]
    simp only
    split
    · simp
    · omega
  obtain ⟨l1, l2, _⟩ := ends8_ok he
  rw [List.length_map] at l1
  have a0 := ha.left.left.left.left
  have a1 := ha.left.left.left.right
  have a2 := ha.left.left.right
  have a3 := ha.left.right
  have a4 := ha.right
  simp only [List.length_append, List.length_cons, List.length_nil, ends16_length, List.length_map,
    flatten_length, List.map_map, l1, Function.comp_def, Nat.zero_add] at a1 a2 a3 a4
  have hn : f.numDyes = .ok b'.dyes.length := by
    rw [Font.numDyes, a0.rd8, byte_val, Nat.mod_eq_of_lt (by omega)]
  have hn0 : byteAt f.data f.offDyes = b'.dyes.length := by
    rw [a0.byte, byte_val, Nat.mod_eq_of_lt (by omega)]
  have hlast := last8 he (by rw [hn0, List.length_map]) a1
  rw [List.length_map] at hlast
  have hl1 := a1.len
  have hl2 := a2.len
  simp only [flatten_length, List.map_map, Function.comp_def] at hl2
  have hni : f.numDyeIndices = .ok (b'.dyes.map fun d => d.alphas.length).sum := by
    rw [Font.numDyeIndices, hn, Res.ok_bind, rd8_eq (by have := a3.len; omega), hlast]
  refine ⟨hn, hni, ?_, ?_⟩
  · intro i hi hne
    have hi' : i < (b'.dyes.map fun d => d.alphas.length).length := by simpa using hi
    have hb := bounds8 he a1 hi'
    have hp := psum_succ hi'
    rw [List.getElem_map] at hp
    have hpos : 0 < b'.dyes[i].alphas.length := List.length_pos_iff.2 hne
    have hps := psum_le_sum (b'.dyes.map fun d => d.alphas.length) (i + 1)
    have hsb := Font.sectionBounds_eq (D := f.data) (off := f.offDyes) (key := i) (by omega)
      (by rw [hb.1, hb.2]; omega)
    constructor
    · rw [Font.numDyeAlphas, hn, Res.ok_bind, if_neg (by omega), hsb, hb.1, hb.2]
      simp only [Res.ok_bind, Res.pure_eq]
      congr 1; omega
    · rw [Font.eachDyeAlpha, hn, Res.ok_bind, if_neg (by omega), hsb, hb.1, hb.2]
      simp only [Res.ok_bind]
      rw [Font.readAlphas_eq _ _ (by omega)]
      congr 1
      have hblk := a2.block (i := i) (by simpa using hi)
      simp only [List.map_map, Function.comp_def, List.getElem_map] at hblk
      apply List.ext_getElem
      · simp; omega
      · intro j hj hj'
        simp only [List.length_map] at hj'
        rw [List.getElem_map, List.getElem_range', List.getElem_map]
        have := hblk.get (i := j) hj'
        rw [← this]
        congr 1
        omega
  · intro hne hsz
    rw [Font.eachDye, hn, Res.ok_bind, hni, Res.ok_bind]
    simp only [Font.shl1]
    have hf : (fun d : Dye => d.name.length) = List.length ∘ Dye.name := rfl
    have := eachName_at (D := f.data) (names := b'.dyes.map Dye.name)
      (o := f.offDyes + 1 + b'.dyes.length + (b'.dyes.map fun d => d.alphas.length).sum)
      (by
        rw [List.map_map]
        exact a3.cast (by omega))
      (by
        rw [List.length_map]
        exact a4.cast (by omega))
      (by rw [List.map_map]; exact hsz)
      (by
        intro n hn
        obtain ⟨d, hd, rfl⟩ := List.mem_map.1 hn
        exact hne d hd)
    rw [List.length_map] at this
    exact this

theorem rgba_length (p : Palette) : ((p.colors.map Builder.rgbaBytes).flatten).length =
    4 * p.colors.length := by
  have : (p.colors.map Builder.rgbaBytes).map List.length = List.replicate p.colors.length 4 := by
    rw [List.map_map, List.eq_replicate_iff]
    refine ⟨by simp, ?_⟩
    intro x hx
    simp only [List.mem_map, Function.comp_apply] at hx
    obtain ⟨y, _, rfl⟩ := hx
    rfl
  rw [flatten_length, this, List.sum_replicate_nat, Nat.mul_comm]

theorem psum_replicate {n k i : Nat} (h : i ≤ n) : psum (List.replicate n k) i = i * k := by
  rw [psum, List.take_replicate, Nat.min_eq_left h, List.sum_replicate_nat]

theorem psum_mul (k : Nat) (l : List Nat) (i : Nat) : psum (l.map (k * ·)) i = k * psum l i := by
  induction l generalizing i with
  | nil => simp [psum]
  | cons n l ih =>
    cases i with
    | zero => simp [psum]
    | succ i => rw [List.map_cons, psum_cons, psum_cons, ih, Nat.mul_add]

theorem sum_mul (k : Nat) (l : List Nat) : (l.map (k * ·)).sum = k * l.sum := by
  rw [← psum_all, ← psum_all, List.length_map, psum_mul]

/-- Everything about the palettes of a built font. -/
theorem built_palettes (h : Built env b b' f s w bi) :
    f.numPalettes = .ok b.palettes.length ∧
    f.numPaletteIndices = .ok (b.palettes.map fun p => p.colors.length).sum ∧
    (∀ i (hi : i < b.palettes.length), b.palettes[i].colors ≠ [] →
      f.numPaletteColors i = .ok b.palettes[i].colors.length ∧
      f.eachPaletteColor i = .ok (b.palettes[i].colors.map rgbaValues)) ∧
    ((∀ p ∈ b.palettes, p.name ≠ []) → (b.palettes.map fun p => p.name.length).sum ≤ 65535 →
      f.eachPalette = .ok (b.palettes.map Palette.name)) := by
  have hbp : b'.palettes = b.palettes := by rw [h.b'_eq]
  have hs := h.palettes
  have ha := h.atPalettes
  simp only [Builder.palettesSection, Res.bind_eq_ok, Res.pure_eq, Res.ok.injEq, hbp] at hs
  obtain ⟨ends, he, hs⟩ := hs
  rw [← hs] at ha
  have hcount : b.palettes.length ≤ 255 := by
    have := h.sections; omega
  obtain ⟨l1, l2, _⟩ := ends8_ok he
  rw [List.length_map] at l1
  have a0 := ha.left.left.left.left
  have a1 := ha.left.left.left.right
  have a2 := ha.left.left.right
  have a3 := ha.left.right
  have a4 := ha.right
  have hrl : (b.palettes.map fun p => (p.colors.map Builder.rgbaBytes).flatten).map List.length =
      (b.palettes.map fun p => p.colors.length).map (4 * ·) := by
    rw [List.map_map, List.map_map]
    apply List.map_congr_left
    intro p _
    exact rgba_length p
  simp only [List.length_append, List.length_cons, List.length_nil, ends16_length, List.length_map,
    flatten_length, hrl, sum_mul, l1, Nat.zero_add] at a1 a2 a3 a4
  have hn : f.numPalettes = .ok b.palettes.length := by
    rw [Font.numPalettes, a0.rd8, byte_val, Nat.mod_eq_of_lt (by omega)]
  have hn0 : byteAt f.data f.offPalettes = b.palettes.length := by
    rw [a0.byte, byte_val, Nat.mod_eq_of_lt (by omega)]
  have hlast := last8 he (by rw [hn0, List.length_map]) a1
  rw [List.length_map] at hlast
  have hl1 := a1.len
  have hl2 := a2.len
  simp only [flatten_length, hrl, sum_mul] at hl2
  have hni : f.numPaletteIndices = .ok (b.palettes.map fun p => p.colors.length).sum := by
    rw [Font.numPaletteIndices, hn, Res.ok_bind, rd8_eq (by have := a3.len; omega), hlast]
  refine ⟨hn, hni, ?_, ?_⟩
  · intro i hi hne
    have hi' : i < (b.palettes.map fun p => p.colors.length).length := by simpa using hi
    have hb := bounds8 he a1 hi'
    have hp := psum_succ hi'
    rw [List.getElem_map] at hp
    have hpos : 0 < b.palettes[i].colors.length := List.length_pos_iff.2 hne
    have hps := psum_le_sum (b.palettes.map fun p => p.colors.length) (i + 1)
    have hsb := Font.sectionBounds_eq (D := f.data) (off := f.offPalettes) (key := i) (by omega)
      (by rw [hb.1, hb.2]; omega)
    constructor
    · rw [Font.numPaletteColors, hn, Res.ok_bind, if_neg (by omega), hsb, hb.1, hb.2]
      simp only [Res.ok_bind, Res.pure_eq]
      congr 1; omega
    · rw [Font.eachPaletteColor, hn, Res.ok_bind, if_neg (by omega), hsb, hb.1, hb.2]
      simp only [Res.ok_bind]
      rw [Font.readColors_eq _ _ (by omega)]
      congr 1
      have hblk := a2.block (i := i) (by simpa using hi)
      rw [hrl, psum_mul, List.getElem_map] at hblk
      apply List.ext_getElem
      · simp; omega
      · intro j hj hj'
        simp only [List.length_map] at hj'
        rw [List.getElem_map, List.getElem_range', List.getElem_map]
        have hc := hblk.block (i := j) (by simpa using hj')
        have hcl : (b.palettes[i].colors.map Builder.rgbaBytes).map List.length =
            List.replicate b.palettes[i].colors.length 4 := by
          rw [List.map_map, List.eq_replicate_iff]
          refine ⟨by simp, ?_⟩
          intro x hx
          simp only [List.mem_map, Function.comp_apply] at hx
          obtain ⟨y, _, rfl⟩ := hx
          rfl
        rw [hcl, psum_replicate (by omega), List.getElem_map] at hc
        have hlen : (Builder.rgbaBytes b.palettes[i].colors[j]).length = 4 := rfl
        have c0 := hc.get (i := 0) (by omega)
        have c1 := hc.get (i := 1) (by omega)
        have c2 := hc.get (i := 2) (by omega)
        have c3 := hc.get (i := 3) (by omega)
        simp only [Builder.rgbaBytes, List.getElem_cons_zero, List.getElem_cons_succ] at c0 c1 c2 c3
        rw [rgbaValues, ← c0, ← c1, ← c2, ← c3]
        refine Prod.ext ?_ (Prod.ext ?_ (Prod.ext ?_ ?_)) <;> simp only <;> congr 1 <;> omega
  · intro hne hsz
    rw [Font.eachPalette, hn, Res.ok_bind, hni, Res.ok_bind]
    simp only [Font.shl1, Font.shl2]
    have := eachName_at (D := f.data) (names := b.palettes.map Palette.name)
      (o := f.offPalettes + 1 + b.palettes.length + 4 * (b.palettes.map fun p => p.colors.length).sum)
      (by
        rw [List.map_map]
        exact a3.cast (by omega))
      (by
        rw [List.length_map]
        exact a4.cast (by omega))
      (by rw [List.map_map]; exact hsz)
      (by
        intro n hn
        obtain ⟨d, hd, rfl⟩ := List.mem_map.1 hn
        exact hne d hd)
    rw [List.length_map] at this
    exact this

/-! ## Histories -/

namespace Builder

theorem checkColorName_ok {b : Builder} {n : Bytes} {u : Unit} (h : b.checkColorName n = .ok u) :
    n ∉ sectionNames b := by
  simp only [checkColorName, ite_err] at h
  obtain ⟨h1, h2, _⟩ := h
  simp only [List.any_eq_true, decide_eq_true_eq, not_exists, not_and] at h1 h2
  simp only [sectionNames, List.mem_append, List.mem_map, not_or, not_exists, not_and]
  exact ⟨h1, h2⟩

theorem addDye_ok {b b' : Builder} {n : Bytes} {a : List UInt8} (hb : ColorsOk b)
    (h : b.addDye n a = .ok b') : ColorsOk b' ∧ b' = { b with dyes := b.dyes ++ [⟨n, a⟩] } := by
  simp only [addDye, Res.bind_eq_ok, ite_err, Res.pure_eq, Res.ok.injEq] at h
  obtain ⟨_, h1, h2, rfl⟩ := h
  have h1 := checkColorName_ok h1
  refine ⟨⟨?_, ?_⟩, rfl⟩
  · have hp : (sectionNames { b with dyes := b.dyes ++ [⟨n, a⟩] }).Perm (n :: sectionNames b) := by
      simp only [sectionNames, List.map_append, List.map_cons, List.map_nil, List.append_assoc,
        List.cons_append, List.nil_append]
      exact List.perm_middle
    exact hp.nodup_iff.2 (List.nodup_cons.2 ⟨h1, hb.names⟩)
  · simp only [sectionSizes, colorCount, List.map_append, List.map_cons, List.map_nil,
      List.sum_append, List.sum_cons, List.sum_nil] at *
    omega

theorem addPalette_ok {b b' : Builder} {n : Bytes} {a : List RGBA} (hb : ColorsOk b)
    (h : b.addPalette n a = .ok b') :
    ColorsOk b' ∧ b' = { b with palettes := b.palettes ++ [⟨n, a⟩] } := by
  simp only [addPalette, Res.bind_eq_ok, ite_err, Res.pure_eq, Res.ok.injEq] at h
  obtain ⟨_, h1, h2, rfl⟩ := h
  have h1 := checkColorName_ok h1
  refine ⟨⟨?_, ?_⟩, rfl⟩
  · have hp : (sectionNames { b with palettes := b.palettes ++ [⟨n, a⟩] }).Perm (n :: sectionNames b) := by
      simp only [sectionNames, List.map_append, List.map_cons, List.map_nil, ← List.append_assoc]
      exact List.perm_append_comm
    exact hp.nodup_iff.2 (List.nodup_cons.2 ⟨h1, hb.names⟩)
  · simp only [sectionSizes, colorCount, List.map_append, List.map_cons, List.map_nil,
      List.sum_append, List.sum_cons, List.sum_nil] at *
    omega

theorem mapIdx_countDown {α : Type} (l : List α) (top : Nat) (h : l.length ≤ top) (ht : top ≤ 255) :
    (l.mapIdx fun i a => (a, byte (((top : Int) - i) % 256).toNat)) = countDown top l := by
  induction l generalizing top with
  | nil => rfl
  | cons a l ih =>
    rw [List.mapIdx_cons, countDown]
    congr 1
    · congr 1
      rw [byte]
      congr 1
      omega
    · rw [← ih (top - 1) (by simp at h; omega) (by omega)]
      apply List.mapIdx_eq_mapIdx_iff.2
      intro i hi
      congr 2
      simp only [List.length_cons] at h
      omega

theorem eachDyeAlphaLoop_skip (name : Bytes) : ∀ (ds : List Dye) (c : Int)
    (calls : List (UInt8 × UInt8)), (∀ d ∈ ds, d.name ≠ name) →
    (eachDyeAlphaLoop name ds c calls).1 = calls
  | [], _, _, _ => rfl
  | d :: ds, c, calls, h => by
    rw [eachDyeAlphaLoop]
    split
    · rfl
    · rw [if_neg (h d (by simp))]
      exact eachDyeAlphaLoop_skip name ds _ _ (fun x hx => h x (by simp [hx]))

theorem eachDyeAlphaLoop_eq (name : Bytes) (d : Dye) (hd : d.name = name) : ∀ (pre post : List Dye)
    (c : Nat) (_ : c ≤ 255) (calls : List (UInt8 × UInt8)),
    (∀ x ∈ pre, x.name ≠ name) → (∀ x ∈ post, x.name ≠ name) →
    (pre.map fun d => d.alphas.length).sum + d.alphas.length ≤ c →
    (eachDyeAlphaLoop name (pre ++ d :: post) c calls).1 =
      calls ++ countDown (c - (pre.map fun d => d.alphas.length).sum) d.alphas
  | [], post, c, hc, calls, _, h2, h3 => by
    simp only [List.map_nil, List.sum_nil, Nat.zero_add] at h3
    rw [List.nil_append, eachDyeAlphaLoop, if_neg (by omega), if_pos hd,
      eachDyeAlphaLoop_skip _ _ _ _ h2, mapIdx_countDown _ _ h3 hc]
    simp
  | x :: pre, post, c, hc, calls, h1, h2, h3 => by
    simp only [List.map_cons, List.sum_cons] at h3
    rw [List.cons_append, eachDyeAlphaLoop, if_neg (by omega), if_neg (h1 x (by simp))]
    have e : (c : Int) - x.alphas.length = ((c - x.alphas.length : Nat) : Int) := by omega
    rw [e, eachDyeAlphaLoop_eq name d hd pre post (c - x.alphas.length) (by omega) calls
      (fun y hy => h1 y (by simp [hy])) h2 (by omega)]
    simp only [List.map_cons, List.sum_cons, Nat.sub_sub]

theorem eachDyeAlphaLoop_err (name : Bytes) : ∀ (ds : List Dye) (c : Int)
    (calls : List (UInt8 × UInt8)), (eachDyeAlphaLoop name ds c calls).2 ≠ ""
  | [], _, _ => by simp [eachDyeAlphaLoop]
  | d :: ds, c, calls => by
    rw [eachDyeAlphaLoop]
    split
    · exact (by decide : "dye sections exceed 255 alpha values" ≠ "")
    · split <;> exact eachDyeAlphaLoop_err name ds _ _

end Builder
end BuilderModel
