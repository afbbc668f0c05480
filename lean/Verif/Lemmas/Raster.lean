import Verif.Model.Mask
import Verif.Spec.Raster

/-!
# The raster loops decode exactly the command format (helper lemmas for C09, C10)
-/

namespace Mask
open Go Spec.Raster

/-- Displacement byte of the vertical move, when present. -/
def vertMove : Vert → Option Int
  | .move d => some d
  | _ => none

/-- Control bits 4-7 of a draw. -/
def drawFlags : Draw → Bool × Bool × Bool × Bool
  | .none => (false, false, false, false)
  | .pixel => (false, false, false, true)
  | .horz _ => (false, true, false, false)
  | .vert _ => (false, false, true, false)
  | .rect _ _ => (false, true, true, false)
  | .diag asc _ => (true, true, asc, false)

theorem flag_palette (c : Cmd) : flag c.ctrl 0b00000001 = c.palette.isSome := by
  obtain ⟨p, h, v, d⟩ := c
  cases p <;> cases h <;> cases v <;> rcases d with _ | _ | _ | _ | _ | ⟨_ | _, _⟩ <;>
    simp [Cmd.ctrl, Vert.bits, Draw.bits, vertMove, drawFlags, flag] <;> decide
theorem flag_horz (c : Cmd) : flag c.ctrl 0b00000010 = c.horz.isSome := by
  obtain ⟨p, h, v, d⟩ := c
  cases p <;> cases h <;> cases v <;> rcases d with _ | _ | _ | _ | _ | ⟨_ | _, _⟩ <;>
    simp [Cmd.ctrl, Vert.bits, Draw.bits, vertMove, drawFlags, flag] <;> decide

theorem flag_vert (c : Cmd) : flag c.ctrl 0b00000100 = (vertMove c.vert).isSome := by
  obtain ⟨p, h, v, d⟩ := c
  cases p <;> cases h <;> cases v <;> rcases d with _ | _ | _ | _ | _ | ⟨_ | _, _⟩ <;>
    simp [Cmd.ctrl, Vert.bits, Draw.bits, vertMove, drawFlags, flag] <;> decide
theorem flag_row (c : Cmd) : flag c.ctrl 0b00001000 = decide (c.vert = .row) := by
  obtain ⟨p, h, v, d⟩ := c
  cases p <;> cases h <;> cases v <;> rcases d with _ | _ | _ | _ | _ | ⟨_ | _, _⟩ <;>
    simp [Cmd.ctrl, Vert.bits, Draw.bits, vertMove, drawFlags, flag] <;> decide
theorem flag_diag (c : Cmd) : flag c.ctrl 0b00010000 = (drawFlags c.draw).1 := by
  obtain ⟨p, h, v, d⟩ := c
  cases p <;> cases h <;> cases v <;> rcases d with _ | _ | _ | _ | _ | ⟨_ | _, _⟩ <;>
    simp [Cmd.ctrl, Vert.bits, Draw.bits, vertMove, drawFlags, flag] <;> decide
theorem flag_hl (c : Cmd) : flag c.ctrl 0b00100000 = (drawFlags c.draw).2.1 := by
  obtain ⟨p, h, v, d⟩ := c
  cases p <;> cases h <;> cases v <;> rcases d with _ | _ | _ | _ | _ | ⟨_ | _, _⟩ <;>
    simp [Cmd.ctrl, Vert.bits, Draw.bits, vertMove, drawFlags, flag] <;> decide
theorem flag_vl (c : Cmd) : flag c.ctrl 0b01000000 = (drawFlags c.draw).2.2.1 := by
  obtain ⟨p, h, v, d⟩ := c
  cases p <;> cases h <;> cases v <;> rcases d with _ | _ | _ | _ | _ | ⟨_ | _, _⟩ <;>
    simp [Cmd.ctrl, Vert.bits, Draw.bits, vertMove, drawFlags, flag] <;> decide
theorem flag_pix (c : Cmd) : flag c.ctrl 0b10000000 = (drawFlags c.draw).2.2.2 := by
  obtain ⟨p, h, v, d⟩ := c
  cases p <;> cases h <;> cases v <;> rcases d with _ | _ | _ | _ | _ | ⟨_ | _, _⟩ <;>
    simp [Cmd.ctrl, Vert.bits, Draw.bits, vertMove, drawFlags, flag] <;> decide

theorem nz_moveByte {d : Int} (h : ValidMove d) : nzint8AsInt (moveByte d) = d := by
  obtain ⟨h1, h2, h3⟩ := h
  unfold nzint8AsInt moveByte
  by_cases hp : 0 < d
  · have e : (UInt8.ofNat (d - 1).toNat).toNat = (d - 1).toNat := by
      rw [UInt8.toNat_ofNat']; omega
    rw [if_pos hp]
    have hlt : ¬ UInt8.ofNat (d - 1).toNat ≥ 128 := by
      rw [ge_iff_le, UInt8.le_iff_toNat_le, e]
      simp; omega
    rw [if_neg hlt, e]; omega
  · have e : (UInt8.ofNat (d + 256).toNat).toNat = (d + 256).toNat := by
      rw [UInt8.toNat_ofNat']; omega
    rw [if_neg hp]
    have hlt : UInt8.ofNat (d + 256).toNat ≥ 128 := by
      rw [ge_iff_le, UInt8.le_iff_toNat_le, e]
      simp; omega
    rw [if_pos hlt, e]; omega

theorem moveByte_nz (b : UInt8) : ValidMove (nzint8AsInt b) ∧ moveByte (nzint8AsInt b) = b := by
  have hb : b.toNat < 256 := b.toNat_lt
  unfold nzint8AsInt
  by_cases hp : b ≥ 128
  · rw [if_pos hp]
    rw [ge_iff_le, UInt8.le_iff_toNat_le] at hp
    simp at hp
    refine ⟨⟨by omega, by omega, by omega⟩, ?_⟩
    unfold moveByte
    rw [if_neg (by omega)]
    apply UInt8.toNat_inj.mp
    rw [UInt8.toNat_ofNat']; omega
  · rw [if_neg hp]
    rw [ge_iff_le, UInt8.le_iff_toNat_le] at hp
    simp at hp
    refine ⟨⟨by omega, by omega, by omega⟩, ?_⟩
    unfold moveByte
    rw [if_pos (by omega)]
    apply UInt8.toNat_inj.mp
    rw [UInt8.toNat_ofNat']; omega

theorem toNat_lenByte {n : Nat} (h : ValidLen n) : (lenByte n).toNat + 1 = n := by
  obtain ⟨h1, h2⟩ := h
  unfold lenByte
  rw [UInt8.toNat_ofNat']; omega

theorem lenByte_toNat (b : UInt8) : ValidLen (b.toNat + 1) ∧ lenByte (b.toNat + 1) = b := by
  have hb : b.toNat < 256 := b.toNat_lt
  refine ⟨⟨by omega, by omega⟩, ?_⟩
  unfold lenByte
  apply UInt8.toNat_inj.mp
  rw [UInt8.toNat_ofNat']; omega

/-! ### Reading optional bytes -/

theorem optByte_some {ops : Bytes} {i : Nat} {o : Option UInt8} {r : Bytes}
    (h : ops.drop (i + 1) = o.toList ++ r) :
    optByte ops i o.isSome = .ok (i + o.toList.length, o) ∧
      ops.drop (i + o.toList.length + 1) = r := by
  cases o with
  | none => exact ⟨rfl, by simpa using h⟩
  | some b =>
    simp only [Option.toList_some, List.singleton_append] at h
    have hlt : i + 1 < ops.length := by
      rcases Nat.lt_or_ge (i + 1) ops.length with h' | h'
      · exact h'
      · rw [List.drop_eq_nil_of_le h'] at h; simp at h
    have hb : ops[i + 1]? = some b := by
      have : (ops.drop (i + 1))[0]? = some b := by rw [h]; rfl
      rwa [List.getElem?_drop] at this
    constructor
    · unfold optByte
      simp [idx_eq_ok.mpr hb, Nat.not_le.mpr hlt]
    · simp only [Option.toList_some, List.length_singleton]
      rw [← List.drop_drop, h]; rfl

theorem optByte_ok {ops : Bytes} {i j : Nat} {p : Bool} {o : Option UInt8}
    (h : optByte ops i p = .ok (j, o)) :
    o.isSome = p ∧ j = i + o.toList.length ∧ ops.drop (i + 1) = o.toList ++ ops.drop (j + 1) ∧
      (i < ops.length → j < ops.length) := by
  unfold optByte at h
  cases p with
  | false =>
    simp at h
    obtain ⟨rfl, rfl⟩ := h
    simp
  | true =>
    simp only [if_true] at h
    split at h
    · simp at h
    · rename_i hlt
      rw [idx_lt (by omega)] at h
      simp only [Res.ok_bind, Res.pure_eq, Res.ok.injEq, Prod.mk.injEq] at h
      obtain ⟨rfl, rfl⟩ := h
      refine ⟨rfl, rfl, ?_, fun _ => by omega⟩
      rw [List.drop_eq_getElem_cons (by omega)]; rfl

theorem optByte_not_panic (ops : Bytes) (i : Nat) (p : Bool) : (optByte ops i p).isPanic = false := by
  unfold optByte
  cases p with
  | false => rfl
  | true =>
    simp only [if_true]
    split
    · rfl
    · rw [idx_lt (by omega)]; rfl

/-! ### One command -/

/-- Height of a draw. -/
def Draw.height : Draw → Nat
  | .none => 0
  | .pixel => 1
  | .horz _ => 1
  | .vert n => n
  | .rect _ h => h
  | .diag _ n => n

/-- Bounds after a command. -/
def growCmd (r : Rect) (c : Cmd) (x y : Int) : Rect :=
  if c.draw = .none then r else growRect r x y c.draw.advance (Draw.height c.draw)

theorem bytes_length (c : Cmd) : c.bytes.length =
    1 + c.palette.toList.length + (c.horz.map moveByte).toList.length +
      ((vertMove c.vert).map moveByte).toList.length + c.draw.bytes.length := by
  unfold Cmd.bytes
  simp only [List.length_cons, List.length_append]
  cases c.vert <;> simp [Vert.bytes, vertMove] <;> omega

theorem vert_bytes (v : Vert) : v.bytes = ((vertMove v).map moveByte).toList := by
  cases v <;> rfl

theorem idx_drop {ops : Bytes} {i : Nat} {c : UInt8} {r : Bytes} (h : ops.drop i = c :: r) :
    idx ops i = .ok c ∧ ops.drop (i + 1) = r := by
  have hb : ops[i]? = some c := by
    have : (ops.drop i)[0]? = some c := by rw [h]; rfl
    rwa [List.getElem?_drop] at this
  refine ⟨idx_eq_ok.mpr hb, ?_⟩
  rw [← List.drop_drop, h]; rfl

theorem opt_horz {c : Cmd} (hv : c.Valid) (x : Int) :
    addMove x (c.horz.map moveByte) =
      x + c.horz.getD 0 := by
  cases h : c.horz with
  | none => simp [addMove]
  | some d => simp [addMove, nz_moveByte (hv.1 d h)]

theorem opt_vert {c : Cmd} (hv : c.Valid) (y : Int) :
    (if decide (c.vert = .row) = true then addMove y ((vertMove c.vert).map moveByte) + 1
      else addMove y ((vertMove c.vert).map moveByte)) = y + c.vert.delta := by
  have h2 := hv.2.1
  cases h : c.vert with
  | none => simp [addMove, vertMove, Vert.delta]
  | row => simp [addMove, vertMove, Vert.delta]
  | move d =>
    rw [h] at h2
    simp [addMove, vertMove, Vert.delta, nz_moveByte h2]

theorem row_vert (v : Vert) : (decide (v = .row) && (vertMove v).isSome) = false := by
  cases v <;> rfl

/-- Results of reading the data bytes of a draw. -/
def OptDraw (ops : Bytes) (i : Nat) : Draw → Prop
  | .none => optByte ops i false = .ok (i, none)
  | .pixel => optByte ops i false = .ok (i, none)
  | .horz n => optByte ops i true = .ok (i + 1, some (lenByte n)) ∧
      optByte ops (i + 1) false = .ok (i + 1, none)
  | .vert n => optByte ops i false = .ok (i, none) ∧
      optByte ops i true = .ok (i + 1, some (lenByte n))
  | .rect w h => optByte ops i true = .ok (i + 1, some (lenByte w)) ∧
      optByte ops (i + 1) true = .ok (i + 2, some (lenByte h))
  | .diag _ n => optByte ops i true = .ok (i + 1, some (lenByte n))

theorem opt_draw {ops : Bytes} {i : Nat} {d : Draw} {r : Bytes} (h : ops.drop (i + 1) = d.bytes ++ r) :
    OptDraw ops i d := by
  cases d with
  | none => rfl
  | pixel => rfl
  | horz n => exact ⟨(optByte_some (o := some (lenByte n)) h).1, rfl⟩
  | vert n => exact ⟨rfl, (optByte_some (o := some (lenByte n)) h).1⟩
  | rect w h' =>
    have h1 := optByte_some (o := some (lenByte w)) (r := [lenByte h'] ++ r) h
    exact ⟨h1.1, (optByte_some (o := some (lenByte h')) h1.2).1⟩
  | diag _ n => exact (optByte_some (o := some (lenByte n)) h).1

theorem rectStep_cmd {ops : Bytes} {i : Nat} {c : Cmd} {rest : Bytes} (hv : c.Valid)
    (h : ops.drop i = c.bytes ++ rest) (x y : Int) (r : Rect) :
    rectStep ops ⟨i, x, y, r⟩ =
      .ok ⟨i + (c.bytes.length - 1), x + c.horz.getD 0 + c.draw.advance, y + c.vert.delta,
        growCmd r c (x + c.horz.getD 0) (y + c.vert.delta)⟩ := by
  unfold Cmd.bytes at h
  rw [List.cons_append] at h
  obtain ⟨h0, h1⟩ := idx_drop h
  simp only [List.append_assoc] at h1
  obtain ⟨o1, h2⟩ := optByte_some h1
  obtain ⟨o2, h3⟩ := optByte_some h2
  rw [vert_bytes] at h3
  obtain ⟨o3, h4⟩ := optByte_some h3
  have e2 : (c.horz.map moveByte).isSome = c.horz.isSome := by simp
  have e3 : ((vertMove c.vert).map moveByte).isSome = (vertMove c.vert).isSome := by simp
  rw [e2] at o2
  rw [e3] at o3
  have ev := opt_vert hv y
  have hlen := bytes_length c
  unfold rectStep
  simp only [h0, Res.ok_bind, flag_palette, flag_horz, flag_vert, flag_row, o1, o2, o3, row_vert,
    opt_horz hv, Bool.false_eq_true, if_false, ev, flag_diag, flag_hl, flag_vl, flag_pix]
  have od := opt_draw h4
  have hd := hv.2.2
  unfold growCmd
  rw [hlen]
  cases hc : c.draw with
  | none =>
    rw [hc] at od hd
    simp only [OptDraw] at od
    simp [drawFlags, od, Draw.advance, Draw.bytes]; omega
  | pixel =>
    rw [hc] at od hd
    simp only [OptDraw] at od
    simp [drawFlags, od, Draw.advance, Draw.bytes, Draw.height]; omega
  | horz n =>
    rw [hc] at od hd
    simp only [OptDraw] at od
    have := toNat_lenByte hd
    have e : ((lenByte n).toNat : Int) + 1 = n := by omega
    simp [drawFlags, od, Draw.advance, Draw.bytes, Draw.height, e]; omega
  | vert n =>
    rw [hc] at od hd
    simp only [OptDraw] at od
    have := toNat_lenByte hd
    have e : ((lenByte n).toNat : Int) + 1 = n := by omega
    simp [drawFlags, od, Draw.advance, Draw.bytes, Draw.height, e]; omega
  | rect w h' =>
    rw [hc] at od hd
    simp only [OptDraw] at od
    have := toNat_lenByte hd.1
    have := toNat_lenByte hd.2
    have e : ((lenByte w).toNat : Int) + 1 = w := by omega
    have e2 : ((lenByte h').toNat : Int) + 1 = h' := by omega
    simp [drawFlags, od, Draw.advance, Draw.bytes, Draw.height, e, e2]; omega
  | diag a n =>
    rw [hc] at od hd
    simp only [OptDraw] at od
    have := toNat_lenByte hd
    have e : ((lenByte n).toNat : Int) + 1 = n := by omega
    simp [drawFlags, od, Draw.advance, Draw.bytes, Draw.height, e]; omega

end Mask
