import Verif.Lemmas.EncPass
import Verif.Lemmas.RasterLoop

/-! # Lemmas about the bytes produced by the mask encoder -/

open Go Spec.Raster

namespace Mask

/-- The draw that corresponds to a fragment. -/
def fragDraw (f : Frag) : Draw :=
  let w := (f.maxX + 1 - f.minX).toNat
  let h := (f.maxY + 1 - f.minY).toNat
  if w = 1 ∧ h = 1 then .pixel
  else match f.diag with
    | .asc => .diag true w
    | .desc => .diag false w
    | .none => if h = 1 then .horz w else if w = 1 then .vert h else .rect w h

def fragPal (f : Frag) (value : UInt8) : Option UInt8 := if f.value = value then none else some f.value
def fragHorz (d : Int) : Option Int := if d = 0 then none else some d
def fragVert (d : Int) : Vert := if d = 0 then .none else if d = 1 then .row else .move d

/-- The command that corresponds to a fragment. -/
def fragCmd (f : Frag) (k : Cursor) : Cmd :=
  ⟨fragPal f k.value, fragHorz (f.minX - k.x), fragVert (f.minY - k.y), fragDraw f⟩

def documented (e : String) : Prop :=
  e = "distances > 128 unimplemented" ∨ e = "draw distances > 256 unimplemented"

theorem moveByteOf_eq {d : Int} (h : ValidMove d) : moveByteOf d = moveByte d := by
  obtain ⟨h1, h2, h3⟩ := h
  unfold moveByteOf moveByte int8Byte
  by_cases hd : 0 < d
  · rw [if_pos hd, if_pos hd]; congr 2; omega
  · rw [if_neg (by omega), if_neg hd]; congr 2; omega

theorem int8Byte_len {n : Int} (h1 : 1 ≤ n) (h2 : n ≤ 256) : int8Byte (n - 1) = lenByte n.toNat := by
  unfold int8Byte lenByte; congr 1; omega

theorem or_zero' (c : UInt8) : c ||| 0 = c := by simp

theorem encPalette_spec {f : Frag} (hv : f.value ≠ 0) (v : UInt8) :
    encPalette f v ⟨0, []⟩ = .ok ⟨if (fragPal f v).isSome then 1 else 0, (fragPal f v).toList⟩ := by
  unfold encPalette fragPal
  by_cases h : f.value = v
  · simp [h]
  · simp [h, hv, Payload.orBits, Payload.push]

theorem encHorz_spec (d : Int) (c : UInt8) (b : Bytes) :
    (encHorz d ⟨c, b⟩ = .ok ⟨c ||| (if (fragHorz d).isSome then 2 else 0),
        b ++ ((fragHorz d).map moveByte).toList⟩ ∧ (∀ d', fragHorz d = some d' → ValidMove d')) ∨
      ((d < -128 ∨ 128 < d) ∧ encHorz d ⟨c, b⟩ = .panic "distances > 128 unimplemented") := by
  unfold encHorz fragHorz
  by_cases h : d = 0
  · left; simp [h]
  · by_cases h2 : d < -128 ∨ d > 128
    · right
      simp only [ne_eq, h, not_false_eq_true, if_true]
      rw [if_pos h2]
      exact ⟨h2, rfl⟩
    · left
      have hv : ValidMove d := ⟨by omega, by omega, h⟩
      simp only [ne_eq, h, not_false_eq_true, if_true, if_false]
      rw [if_neg h2, moveByteOf_eq hv]
      refine ⟨rfl, ?_⟩
      intro d' hd; cases hd; exact hv

theorem encVert_spec (d : Int) (c : UInt8) (b : Bytes) :
    (encVert d ⟨c, b⟩ = .ok ⟨c ||| UInt8.ofNat (fragVert d).bits, b ++ (fragVert d).bytes⟩ ∧
        (fragVert d).Valid) ∨
      ((d < -128 ∨ 128 < d) ∧ encVert d ⟨c, b⟩ = .panic "distances > 128 unimplemented") := by
  unfold encVert fragVert
  by_cases h : d = 0
  · left; simp [h, Vert.bits, Vert.bytes, Vert.Valid]
  · by_cases h1 : d = 1
    · left; simp [h1, Vert.bits, Vert.bytes, Vert.Valid, Payload.orBits]
    · by_cases h2 : d < -128 ∨ d > 128
      · right
        simp only [ne_eq, h, not_false_eq_true, if_true, h1, if_false]
        rw [if_pos h2]
        exact ⟨h2, rfl⟩
      · left
        have hv : ValidMove d := ⟨by omega, by omega, h⟩
        simp only [ne_eq, h, not_false_eq_true, if_true, if_false, h1]
        rw [if_neg h2, moveByteOf_eq hv]
        exact ⟨rfl, hv⟩

theorem encLen_spec (bit : UInt8) {n : Int} (h1 : 1 ≤ n) (p : Payload) :
    (n ≤ 256 ∧ encLen bit n p = .ok ⟨p.ctrl ||| bit, p.bytes ++ [lenByte n.toNat]⟩) ∨
    (256 < n ∧ encLen bit n p = .panic "draw distances > 256 unimplemented") := by
  unfold encLen
  by_cases h : n > 256
  · right; rw [if_pos h]; exact ⟨h, rfl⟩
  · left; rw [if_neg h, int8Byte_len h1 (by omega)]; exact ⟨by omega, rfl⟩

theorem encDraw_spec {f : Frag} (hw : f.WF) (c : UInt8) (b : Bytes) :
    (encDraw f ⟨c, b⟩ = .ok ⟨c ||| UInt8.ofNat (fragDraw f).bits, b ++ (fragDraw f).bytes⟩ ∧
        (fragDraw f).Valid) ∨
      ((256 < f.maxX + 1 - f.minX ∨ 256 < f.maxY + 1 - f.minY) ∧
        encDraw f ⟨c, b⟩ = .panic "draw distances > 256 unimplemented") := by
  obtain ⟨hx, hy, hsq⟩ := hw
  unfold encDraw fragDraw
  simp only
  have hxp : 1 ≤ f.maxX + 1 - f.minX := by omega
  have hyp : 1 ≤ f.maxY + 1 - f.minY := by omega
  generalize hX : f.maxX + 1 - f.minX = X at *
  generalize hY : f.maxY + 1 - f.minY = Y at *
  by_cases h1 : X = 1 ∧ Y = 1
  · left
    rw [if_pos h1, if_pos (by omega)]
    simp [Payload.orBits, Draw.bits, Draw.bytes, Draw.Valid]
  · have h1' : ¬ (X.toNat = 1 ∧ Y.toNat = 1) := by omega
    rw [if_neg h1, if_neg h1']
    cases hd : f.diag with
    | asc =>
      simp only [ne_eq, reduceCtorEq, not_false_eq_true, if_true]
      rw [if_pos (show X > 0 by omega)]
      rcases encLen_spec 0b0010_0000 hxp (Payload.orBits ⟨c, b⟩ 0b0001_0000) with ⟨hl, e⟩ | ⟨hl, e⟩
      · left
        rw [e]
        refine ⟨?_, ⟨by omega, by omega⟩⟩
        simp only [Res.ok_bind, Res.pure_eq, Payload.orBits, Draw.bits, Draw.bytes]
        have : c ||| 16 ||| 32 ||| 64 = c ||| UInt8.ofNat (16 + 32 + 64) := by
          rw [UInt8.or_assoc, UInt8.or_assoc]; rfl
        rw [this]
      · right; rw [e]; exact ⟨Or.inl hl, rfl⟩
    | desc =>
      simp only [ne_eq, reduceCtorEq, not_false_eq_true, if_true]
      rw [if_pos (show X > 0 by omega)]
      rcases encLen_spec 0b0010_0000 hxp (Payload.orBits ⟨c, b⟩ 0b0001_0000) with ⟨hl, e⟩ | ⟨hl, e⟩
      · left
        rw [e]
        refine ⟨?_, ⟨by omega, by omega⟩⟩
        simp only [Res.ok_bind, Res.pure_eq, Payload.orBits, Draw.bits, Draw.bytes, if_false]
        have : c ||| 16 ||| 32 = c ||| UInt8.ofNat (16 + 32) := by
          rw [UInt8.or_assoc]; rfl
        rw [this]
      · right; rw [e]; exact ⟨Or.inl hl, rfl⟩
    | none =>
      simp only [ne_eq, not_true, if_false]
      by_cases hxx : X = 1
      · -- vertical line
        rw [if_neg (show ¬ (X > 0 ∧ (X > 1 ∨ Y ≤ 1)) by omega), if_pos (show Y > 0 by omega),
          if_neg (show ¬ Y.toNat = 1 by omega), if_pos (show X.toNat = 1 by omega)]
        rcases encLen_spec 0b0100_0000 hyp ⟨c, b⟩ with ⟨hl, e⟩ | ⟨hl, e⟩
        · left; rw [e]; exact ⟨rfl, ⟨by omega, by omega⟩⟩
        · right; rw [e]; exact ⟨Or.inr hl, rfl⟩
      · rw [if_pos (show X > 0 ∧ (X > 1 ∨ Y ≤ 1) by omega)]
        rcases encLen_spec 0b0010_0000 hxp ⟨c, b⟩ with ⟨hl, e⟩ | ⟨hl, e⟩
        · rw [e]
          simp only [Res.ok_bind]
          by_cases hyy : Y = 1
          · left
            simp only [hyy, if_true]
            rw [if_neg (show ¬ (0 : Int) > 0 by omega), if_pos (show (1 : Int).toNat = 1 by decide)]
            exact ⟨rfl, ⟨by omega, by omega⟩⟩
          · simp only [hyy, if_false]
            rw [if_pos (show Y > 0 by omega), if_neg (show ¬ Y.toNat = 1 by omega),
              if_neg (show ¬ X.toNat = 1 by omega)]
            rcases encLen_spec 0b0100_0000 hyp ⟨c ||| 0b0010_0000, b ++ [lenByte X.toNat]⟩ with
              ⟨hl2, e2⟩ | ⟨hl2, e2⟩
            · left
              rw [e2]
              refine ⟨?_, ⟨⟨by omega, by omega⟩, ⟨by omega, by omega⟩⟩⟩
              simp only [Draw.bits, Draw.bytes, List.append_assoc, List.cons_append, List.nil_append]
              have : c ||| 32 ||| 64 = c ||| UInt8.ofNat (32 + 64) := by
                rw [UInt8.or_assoc]; rfl
              rw [this]
            · right; rw [e2]; exact ⟨Or.inr hl2, rfl⟩
        · right; rw [e]; exact ⟨Or.inl hl, rfl⟩

theorem ctrl_or (c : Cmd) :
    (((if c.palette.isSome then 1 else 0 : UInt8) ||| (if c.horz.isSome then 2 else 0)) |||
      UInt8.ofNat c.vert.bits) ||| UInt8.ofNat c.draw.bits = c.ctrl := by
  unfold Cmd.ctrl
  have h1 : c.vert.bits = 0 ∨ c.vert.bits = 8 ∨ c.vert.bits = 4 := by
    cases c.vert <;> simp [Vert.bits]
  have h2 : c.draw.bits = 0 ∨ c.draw.bits = 128 ∨ c.draw.bits = 32 ∨ c.draw.bits = 64 ∨
      c.draw.bits = 96 ∨ c.draw.bits = 48 ∨ c.draw.bits = 112 := by
    cases c.draw with
    | diag a n => cases a <;> simp [Draw.bits]
    | _ => simp [Draw.bits]
  generalize c.palette.isSome = p
  generalize c.horz.isSome = h
  rcases h1 with h1 | h1 | h1 <;> rcases h2 with h2 | h2 | h2 | h2 | h2 | h2 | h2 <;> rw [h1, h2] <;>
    revert p h <;> decide

/-- The limits of the encoder are not hit by a fragment. -/
def Reaches (f : Frag) (k : Cursor) : Prop :=
  -128 ≤ f.minX - k.x ∧ f.minX - k.x ≤ 128 ∧ -128 ≤ f.minY - k.y ∧ f.minY - k.y ≤ 128 ∧
  f.maxX + 1 - f.minX ≤ 256 ∧ f.maxY + 1 - f.minY ≤ 256

theorem frag_advance {f : Frag} (hw : f.WF) : ((fragDraw f).advance : Int) = f.maxX + 1 - f.minX := by
  obtain ⟨hx, hy, hsq⟩ := hw
  unfold fragDraw
  simp only
  by_cases h : (f.maxX + 1 - f.minX).toNat = 1 ∧ (f.maxY + 1 - f.minY).toNat = 1
  · rw [if_pos h]; simp only [Draw.advance]; omega
  · rw [if_neg h]
    cases f.diag with
    | asc => simp only [Draw.advance]; omega
    | desc => simp only [Draw.advance]; omega
    | none =>
      simp only
      by_cases h1 : (f.maxY + 1 - f.minY).toNat = 1
      · rw [if_pos h1]; simp only [Draw.advance]; omega
      · rw [if_neg h1]
        by_cases h2 : (f.maxX + 1 - f.minX).toNat = 1
        · rw [if_pos h2]; simp only [Draw.advance]; omega
        · rw [if_neg h2]; simp only [Draw.advance]; omega

theorem encStep_spec {f : Frag} (hw : f.WF) (hv : f.value ≠ 0) (k : Cursor) (out : Bytes) :
    ((fragCmd f k).Valid ∧ encStep f ⟨k.x, k.y, k.value, out⟩ =
      .ok ⟨((fragCmd f k).post k).x, ((fragCmd f k).post k).y, ((fragCmd f k).post k).value,
        out ++ (fragCmd f k).bytes⟩) ∨
    (¬ Reaches f k ∧ ∃ e, documented e ∧ encStep f ⟨k.x, k.y, k.value, out⟩ = .panic e) := by
  unfold encStep
  simp only [encPalette_spec hv, Res.ok_bind]
  rcases encHorz_spec (f.minX - k.x) (if (fragPal f k.value).isSome then 1 else 0)
    (fragPal f k.value).toList with ⟨e1, v1⟩ | ⟨n1, e1⟩
  · rw [e1]
    simp only [Res.ok_bind]
    rcases encVert_spec (f.minY - k.y) ((if (fragPal f k.value).isSome then 1 else 0) |||
        (if (fragHorz (f.minX - k.x)).isSome then 2 else 0))
      ((fragPal f k.value).toList ++ ((fragHorz (f.minX - k.x)).map moveByte).toList) with
      ⟨e2, v2⟩ | ⟨n2, e2⟩
    · rw [e2]
      simp only [Res.ok_bind]
      rcases encDraw_spec hw (((if (fragPal f k.value).isSome then 1 else 0) |||
          (if (fragHorz (f.minX - k.x)).isSome then 2 else 0)) ||| UInt8.ofNat (fragVert (f.minY - k.y)).bits)
        ((fragPal f k.value).toList ++ ((fragHorz (f.minX - k.x)).map moveByte).toList ++
          (fragVert (f.minY - k.y)).bytes) with ⟨e3, v3⟩ | ⟨n3, e3⟩
      · left
        refine ⟨⟨v1, v2, v3⟩, ?_⟩
        rw [e3]
        simp only [Res.ok_bind, Res.pure_eq]
        have hc := ctrl_or (fragCmd f k)
        have hadv := frag_advance hw
        have hval : f.value = (fragPal f k.value).getD k.value := by
          unfold fragPal
          by_cases h : f.value = k.value
          · simp [h]
          · simp [h]
        have hhz : f.minX - k.x = (fragHorz (f.minX - k.x)).getD 0 := by
          unfold fragHorz; split <;> simp_all
        have hvt : f.minY - k.y = (fragVert (f.minY - k.y)).delta := by
          unfold fragVert
          split
          · simp [Vert.delta]; omega
          · split
            · simp [Vert.delta]; omega
            · rfl
        have hcx : ((fragCmd f k).post k).x = k.x + (f.minX - k.x) + (f.maxX + 1 - f.minX) := by
          simp only [fragCmd, Cmd.post, Cmd.pre, hadv]; rw [← hhz]
        have hcy : ((fragCmd f k).post k).y = k.y + (f.minY - k.y) := by
          simp only [fragCmd, Cmd.post, Cmd.pre]; rw [← hvt]
        have hcv : ((fragCmd f k).post k).value = f.value := by
          simp only [fragCmd, Cmd.post, Cmd.pre]; rw [← hval]
        rw [hcx, hcy, hcv, Cmd.bytes, ← hc]
        simp only [fragCmd, List.append_assoc]
        rfl
      · right
        rw [e3]
        exact ⟨fun h => by have := h.2.2.2.2; omega, _, Or.inr rfl, rfl⟩
    · right
      rw [e2]
      exact ⟨fun h => by have := h.2.2; omega, _, Or.inl rfl, rfl⟩
  · right
    rw [e1]
    exact ⟨fun h => by have := h.1; have := h.2.1; omega, _, Or.inl rfl, rfl⟩

theorem frag_pre (f : Frag) (k : Cursor) :
    ((fragCmd f k).pre k).x = f.minX ∧ ((fragCmd f k).pre k).y = f.minY ∧
      ((fragCmd f k).pre k).value = f.value := by
  simp only [fragCmd, Cmd.pre]
  refine ⟨?_, ?_, ?_⟩
  · unfold fragHorz; split
    · simp; omega
    · simp
  · unfold fragVert; split
    · simp [Vert.delta]; omega
    · split
      · simp [Vert.delta]; omega
      · simp [Vert.delta]
  · unfold fragPal; split <;> simp_all

/-- Pixel writes of a fragment. -/
def fragWrites (f : Frag) : List (Int × Int × UInt8) :=
  ((fragDraw f).points f.minX f.minY).map fun p => (p.1, p.2, f.value)

theorem encLoop_spec : ∀ (fs : List Frag) (k : Cursor) (out : Bytes),
    (∀ f ∈ fs, f.WF) → (∀ f ∈ fs, f.value ≠ 0) →
    (∃ s' cmds, encLoop fs ⟨k.x, k.y, k.value, out⟩ = .ok s' ∧ s'.out = out ++ encode cmds ∧
      (∀ c ∈ cmds, c.Valid) ∧ writes k cmds = fs.flatMap fragWrites ∧ cmds.length = fs.length) ∨
    (∃ e, documented e ∧ encLoop fs ⟨k.x, k.y, k.value, out⟩ = .panic e)
  | [], k, out, _, _ => Or.inl ⟨_, [], rfl, by simp [encode], by simp, rfl, rfl⟩
  | f :: fs, k, out, hw, hv => by
    rw [encLoop]
    rcases encStep_spec (hw f (by simp)) (hv f (by simp)) k out with ⟨hval, e⟩ | ⟨_, m, hm, e⟩
    · rw [e]
      simp only [Res.ok_bind]
      rcases encLoop_spec fs ((fragCmd f k).post k) (out ++ (fragCmd f k).bytes)
        (fun g hg => hw g (by simp [hg])) (fun g hg => hv g (by simp [hg])) with
        ⟨s', cmds, e1, e2, e3, e4, e5⟩ | ⟨m, hm, e1⟩
      · left
        refine ⟨s', fragCmd f k :: cmds, e1, ?_, ?_, ?_, by simp [e5]⟩
        · rw [e2]; simp [encode]
        · intro c hc
          rcases List.mem_cons.mp hc with rfl | h
          · exact hval
          · exact e3 c h
        · rw [writes, e4, List.flatMap_cons]
          congr 1
          obtain ⟨p1, p2, p3⟩ := frag_pre f k
          simp only [Cmd.writes, p1, p2, p3]
          rfl
      · right; exact ⟨m, hm, e1⟩
    · right
      rw [e]
      exact ⟨m, hm, rfl⟩

theorem frag_points_mem {f : Frag} (hw : f.WF) (x y : Int) :
    (x, y) ∈ (fragDraw f).points f.minX f.minY ↔ f.Covers x y := by
  obtain ⟨hx, hy, hsq⟩ := hw
  unfold fragDraw Frag.Covers
  simp only
  split
  · rename_i h
    simp only [Draw.points, List.mem_singleton, Prod.mk.injEq]
    cases hd : f.diag with
    | none => simp only; omega
    | asc => simp only; omega
    | desc => simp only; omega
  · cases hd : f.diag with
    | none =>
      simp only
      split
      · simp only [Draw.points]; rw [rectPoints_mem]; simp only; omega
      · split
        · simp only [Draw.points]; rw [rectPoints_mem]; simp only; omega
        · simp only [Draw.points]; rw [rectPoints_mem]; simp only; omega
    | asc =>
      have := hsq (by simp [hd])
      simp only [Draw.points, List.mem_map, List.mem_range, Prod.mk.injEq]
      constructor
      · rintro ⟨i, hi, rfl, rfl⟩; omega
      · rintro ⟨h1, h2, h3⟩
        exact ⟨(x - f.minX).toNat, by omega, by omega, by omega⟩
    | desc =>
      have := hsq (by simp [hd])
      simp only [Draw.points, List.mem_map, List.mem_range, Prod.mk.injEq]
      constructor
      · rintro ⟨i, hi, rfl, rfl⟩; omega
      · rintro ⟨h1, h2, h3⟩
        exact ⟨(x - f.minX).toNat, by omega, by omega, by omega⟩

/-! ### Any order of writes that agree -/

theorem foldl_agree (g : Int → Int → UInt8) (x y : Int) :
    ∀ (ws : List (Int × Int × UInt8)) (v : UInt8), (∀ w ∈ ws, w.2.2 = g w.1 w.2.1) →
      ws.foldl (fun v w => if w.1 = x ∧ w.2.1 = y then w.2.2 else v) v =
        if (∃ w ∈ ws, w.1 = x ∧ w.2.1 = y) then g x y else v
  | [], v, _ => by simp
  | w :: ws, v, h => by
    rw [List.foldl_cons, foldl_agree g x y ws _ (fun u hu => h u (by simp [hu]))]
    have hw := h w (by simp)
    by_cases hex : ∃ u ∈ ws, u.1 = x ∧ u.2.1 = y
    · rw [if_pos hex, if_pos]
      obtain ⟨u, hu, hc⟩ := hex
      exact ⟨u, by simp [hu], hc⟩
    · rw [if_neg hex]
      by_cases hc : w.1 = x ∧ w.2.1 = y
      · rw [if_pos hc, if_pos ⟨w, by simp, hc⟩, hw, hc.1, hc.2]
      · rw [if_neg hc, if_neg]
        rintro ⟨u, hu, hcu⟩
        rcases List.mem_cons.mp hu with rfl | h
        · exact hc hcu
        · exact hex ⟨u, h, hcu⟩

/-- Bounds of the first pass of `Rasterize` when every drawn pixel has `int` coordinates. -/
theorem growAll_tight : ∀ (cmds : List Cmd) (k : Cursor) (r : Rect) (pts : List (Int × Int)),
    (∀ c ∈ cmds, c.Valid) →
    (∀ w ∈ writes k cmds, -2 ^ 63 ≤ w.1 ∧ w.1 < 2 ^ 63 - 1 ∧ -2 ^ 63 ≤ w.2.1 ∧ w.2.1 < 2 ^ 63 - 1) →
    ((pts = [] ∧ r = ⟨maxInt, maxInt, minInt, minInt⟩) ∨ (pts ≠ [] ∧ TightBox pts r.x0 r.y0 r.x1 r.y1)) →
    let ps := pts ++ (writes k cmds).map (fun w => (w.1, w.2.1))
    let r' := growAll r k cmds
    (ps = [] ∧ r' = ⟨maxInt, maxInt, minInt, minInt⟩) ∨ (ps ≠ [] ∧ TightBox ps r'.x0 r'.y0 r'.x1 r'.y1)
  | [], k, r, pts, _, _, h => by simpa [writes, growAll] using h
  | c :: cs, k, r, pts, hv, hb, h => by
    have hcv := hv c (by simp)
    have ih := growAll_tight cs (c.post k) (growCmd r c (c.pre k).x (c.pre k).y)
      (pts ++ c.draw.points (c.pre k).x (c.pre k).y)
      (fun c' hc' => hv c' (by simp [hc']))
      (fun w hw => hb w (by simp [writes, hw]))
      (by
        by_cases hd : c.draw = .none
        · have e1 : c.draw.points (c.pre k).x (c.pre k).y = [] := by rw [hd]; rfl
          have e2 : growCmd r c (c.pre k).x (c.pre k).y = r := by unfold growCmd; rw [if_pos hd]
          rw [e1, e2, List.append_nil]
          exact h
        · have e2 : growCmd r c (c.pre k).x (c.pre k).y =
              growRect r (c.pre k).x (c.pre k).y c.draw.advance (Draw.height c.draw) := by
            unfold growCmd; rw [if_neg hd]
          have ht := draw_tight hcv.2.2 hd (c.pre k).x (c.pre k).y
          have hne : c.draw.points (c.pre k).x (c.pre k).y ≠ [] := by
            obtain ⟨_, ⟨p, hp, _⟩, _⟩ := ht
            intro e; rw [e] at hp; simp at hp
          rw [e2]
          right
          refine ⟨by simp [hne], ?_⟩
          rcases h with ⟨h0, h1⟩ | ⟨h0, h1⟩
          · subst h0 h1
            have hpt : ∀ p ∈ c.draw.points (c.pre k).x (c.pre k).y,
                -2 ^ 63 ≤ p.1 ∧ p.1 < 2 ^ 63 - 1 ∧ -2 ^ 63 ≤ p.2 ∧ p.2 < 2 ^ 63 - 1 := by
              intro p hp
              exact hb (p.1, p.2, (c.pre k).value) (by
                simp only [writes, List.mem_append]
                left
                simp only [Cmd.writes, List.mem_map]
                exact ⟨p, hp, rfl⟩)
            have hg : growRect ⟨maxInt, maxInt, minInt, minInt⟩ (c.pre k).x (c.pre k).y
                c.draw.advance (Draw.height c.draw) =
                ⟨(c.pre k).x, (c.pre k).y, (c.pre k).x + c.draw.advance,
                  (c.pre k).y + Draw.height c.draw⟩ := by
              obtain ⟨_, ⟨p1, m1, g1⟩, ⟨p2, m2, g2⟩, ⟨p3, m3, g3⟩, ⟨p4, m4, g4⟩⟩ := ht
              have b1 := hpt p1 m1
              have b2 := hpt p2 m2
              have b3 := hpt p3 m3
              have b4 := hpt p4 m4
              unfold growRect maxInt minInt
              simp only
              rw [if_pos (by omega), if_pos (by omega), if_pos (by omega), if_pos (by omega)]
            rw [hg]
            exact ht
          · exact grow_tight h1 ht)
    simp only at ih ⊢
    have e3 : pts ++ c.draw.points (c.pre k).x (c.pre k).y ++
        (writes (c.post k) cs).map (fun w => (w.1, w.2.1)) =
        pts ++ (writes k (c :: cs)).map (fun w => (w.1, w.2.1)) := by
      rw [writes, List.map_append, writes_points, List.append_assoc]
    rw [e3] at ih
    exact ih

/-- `Rasterize` on valid commands whose pixels lie in a box of allocatable size. -/
theorem rasterize_box {cmds : List Cmd} (hv : ∀ c ∈ cmds, c.Valid) (hne : writes .start cmds ≠ [])
    {b : Rect} (hb0 : -2 ^ 63 ≤ b.x0 ∧ b.x1 < 2 ^ 63 ∧ -2 ^ 63 ≤ b.y0 ∧ b.y1 < 2 ^ 63)
    (hs : (b.x1 - b.x0) * (b.y1 - b.y0) < 2 ^ 63)
    (hin : ∀ w ∈ writes .start cmds, b.Has w.1 w.2.1) :
    ∃ m, rasterize (encode cmds) = .ok (some m) ∧
      TightBox ((writes .start cmds).map fun w => (w.1, w.2.1)) m.rect.x0 m.rect.y0 m.rect.x1 m.rect.y1 ∧
      ∀ x y, m.alphaAt x y = colorAt (writes .start cmds) x y := by
  have hc : cmds ≠ [] := by rintro rfl; exact hne rfl
  have hne2 : encode cmds ≠ [] := by
    obtain ⟨c', cs', rfl⟩ := List.exists_cons_of_ne_nil hc
    simp [encode, Cmd.bytes]
  have hl0 : (encode cmds).length ≠ 0 := by simpa using hne2
  have hcl := cmds_length_le cmds
  have hrect : computeRasterOpsRect (encode cmds) =
      .ok (growAll ⟨maxInt, maxInt, minInt, minInt⟩ .start cmds) := by
    unfold computeRasterOpsRect
    simp only [if_neg hl0]
    exact rectLoop_cmds (encode cmds) cmds _ 0 .start _ hc hv (by omega) (by simp)
  have hg := growAll_tight cmds .start ⟨maxInt, maxInt, minInt, minInt⟩ [] hv
    (fun w hw => by obtain ⟨g1, g2, g3, g4⟩ := hin w hw; omega) (Or.inl ⟨rfl, rfl⟩)
  simp only [List.nil_append] at hg
  rcases hg with ⟨h1, _⟩ | ⟨h1, h2⟩
  · exact absurd (by simpa using h1) hne
  · generalize hr : growAll ⟨maxInt, maxInt, minInt, minInt⟩ .start cmds = r at *
    have hmem : ∀ p ∈ (writes .start cmds).map (fun w => (w.1, w.2.1)), b.Has p.1 p.2 := by
      intro p hp
      obtain ⟨w, hw, rfl⟩ := List.mem_map.mp hp
      exact hin w hw
    have hx : r.x0 < r.x1 ∧ r.y0 < r.y1 ∧ b.x0 ≤ r.x0 ∧ r.x1 ≤ b.x1 ∧ b.y0 ≤ r.y0 ∧ r.y1 ≤ b.y1 := by
      obtain ⟨a, ⟨p1, m1, g1⟩, ⟨p2, m2, g2⟩, ⟨p3, m3, g3⟩, ⟨p4, m4, g4⟩⟩ := h2
      have := a p1 m1
      obtain ⟨a1, a2, a3, a4⟩ := hmem p1 m1
      obtain ⟨b1, b2, b3, b4⟩ := hmem p2 m2
      obtain ⟨c1, c2, c3, c4⟩ := hmem p3 m3
      obtain ⟨d1, d2, d3, d4⟩ := hmem p4 m4
      omega
    have hemp : r.empty = false := by simp [Rect.empty]; omega
    have hprod : (r.x1 - r.x0) * (r.y1 - r.y0) < 2 ^ 63 := by
      calc (r.x1 - r.x0) * (r.y1 - r.y0) ≤ (b.x1 - b.x0) * (b.y1 - b.y0) :=
            Int.mul_le_mul (by omega) (by omega) (by omega) (by omega)
        _ < 2 ^ 63 := hs
    obtain ⟨m0, e0, p0, r0, a0⟩ := newAlpha_ok (r := r) (by omega) (by omega) hprod
    have hdraw := drawLoop_cmds (encode cmds) cmds ((encode cmds).length + 1) 0 .start m0 hc hv
      (by omega) (by simp)
    obtain ⟨m1, e1, p1, r1, a1⟩ := paint_ok (writes .start cmds) m0 p0 (by
      intro w hw
      rw [r0]
      exact h2.1 (w.1, w.2.1) (List.mem_map.mpr ⟨w, hw, rfl⟩))
    refine ⟨m1, ?_, ?_, ?_⟩
    · unfold rasterize
      rw [hrect]
      simp only [Res.ok_bind, hemp, e0, Bool.false_eq_true, if_false]
      have : drawLoop (encode cmds) ((encode cmds).length + 1) ⟨0, 255, 0, 0, m0⟩ = .ok m1 := by
        rw [← e1, ← hdraw]; rfl
      rw [this]; rfl
    · rw [r1, r0]; exact h2
    · intro x y
      rw [a1, a0]; rfl

/-- Positions from which, and to which, the encoder moves stay in a small box. -/
theorem encLoop_reach {lx hx ly hy : Int} (hX : hx - lx ≤ 128) (hY : hy - ly ≤ 128) :
    ∀ (fs : List Frag) (k : Cursor) (out : Bytes),
    (∀ f ∈ fs, f.WF) → (∀ f ∈ fs, f.value ≠ 0) →
    (∀ f ∈ fs, lx ≤ f.minX ∧ f.maxX < hx ∧ ly ≤ f.minY ∧ f.maxY < hy) →
    lx ≤ k.x → k.x ≤ hx → ly ≤ k.y → k.y ≤ hy →
    ∃ s', encLoop fs ⟨k.x, k.y, k.value, out⟩ = .ok s'
  | [], k, out, _, _, _, _, _, _, _ => ⟨_, rfl⟩
  | f :: fs, k, out, hw, hv, hb, h1, h2, h3, h4 => by
    obtain ⟨b1, b2, b3, b4⟩ := hb f (by simp)
    have wf := hw f (by simp)
    have wx := wf.x
    have wy := wf.y
    have hr : Reaches f k := by unfold Reaches; omega
    rcases encStep_spec wf (hv f (by simp)) k out with ⟨hval, e⟩ | ⟨hn, _⟩
    · rw [encLoop, e]
      simp only [Res.ok_bind]
      obtain ⟨p1, p2, p3⟩ := frag_pre f k
      have hadv : (((fragCmd f k).draw).advance : Int) = f.maxX + 1 - f.minX := frag_advance wf
      have q1 : ((fragCmd f k).post k).x = f.maxX + 1 := by
        simp only [Cmd.post]; rw [p1, hadv]; omega
      have q2 : ((fragCmd f k).post k).y = f.minY := by
        simp only [Cmd.post]; rw [p2]
      exact encLoop_reach hX hY fs ((fragCmd f k).post k) _
        (fun g hg => hw g (by simp [hg])) (fun g hg => hv g (by simp [hg]))
        (fun g hg => hb g (by simp [hg])) (by omega) (by omega) (by omega) (by omega)
    · exact absurd hr hn

end Mask
