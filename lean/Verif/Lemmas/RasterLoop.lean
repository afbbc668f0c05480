import Verif.Lemmas.Raster
import Verif.Lemmas.Img

/-!
# The raster loops over whole command sequences (helper lemmas for C09, C10)
-/

namespace Mask
open Go Spec.Raster

theorem drawStep_cmd {ops : Bytes} {i : Nat} {c : Cmd} {rest : Bytes} (hv : c.Valid)
    (h : ops.drop i = c.bytes ++ rest) (k : Cursor) (m : Img) :
    drawStep ops ⟨i, k.value, k.x, k.y, m⟩ = (paint (c.writes k) m >>= fun m' =>
      .ok ⟨i + (c.bytes.length - 1), (c.post k).value, (c.post k).x, (c.post k).y, m'⟩) := by
  unfold Cmd.bytes at h
  rw [List.cons_append] at h
  obtain ⟨h0, h1⟩ := idx_drop h
  simp only [List.append_assoc] at h1
  obtain ⟨o1, h2⟩ := optByte_some h1
  obtain ⟨o2, h3⟩ := optByte_some h2
  rw [vert_bytes] at h3
  obtain ⟨o3, h4⟩ := optByte_some h3
  have e2 : (c.horz.map moveByte).isSome = c.horz.isSome := by simp
  have e3 : ((vertMove c.vert).map moveByte).isSome = (vertMove c.vert).isSome := by simp
  rw [e2] at o2
  rw [e3] at o3
  have ev := opt_vert hv k.y
  have hlen := bytes_length c
  unfold drawStep
  simp only [h0, Res.ok_bind, flag_palette, flag_horz, flag_vert, flag_row, o1, o2, o3, row_vert,
    opt_horz hv, Bool.false_eq_true, if_false, ev, flag_diag, flag_hl, flag_vl, flag_pix]
  have od := opt_draw h4
  have hd := hv.2.2
  have hL : ∀ t, c.draw.bytes.length = t → i + (c.bytes.length - 1) =
      i + c.palette.toList.length + (c.horz.map moveByte).toList.length +
        ((vertMove c.vert).map moveByte).toList.length + t := by
    intro t ht; omega
  generalize i + c.palette.toList.length + (c.horz.map moveByte).toList.length +
        ((vertMove c.vert).map moveByte).toList.length = j at od hL
  simp only [Cmd.writes, Cmd.post, Cmd.pre]
  cases hc : c.draw with
  | none =>
    rw [hc] at od hd hL
    simp only [OptDraw] at od
    rw [hL 0 rfl]
    simp [drawFlags, od, Draw.advance, Draw.points, paint]
  | pixel =>
    rw [hc] at od hd hL
    simp only [OptDraw] at od
    rw [hL 0 rfl]
    simp [drawFlags, od, Draw.advance, Draw.points, drawRect_paint]
  | horz n =>
    rw [hc] at od hd hL
    simp only [OptDraw] at od
    have e := toNat_lenByte hd
    have e' : ((lenByte n).toNat : Int) + 1 = n := by omega
    rw [hL 1 rfl]
    simp [drawFlags, od, Draw.advance, Draw.points, drawRect_paint, e, e', rectPoints,
      Function.comp_def]
  | vert n =>
    rw [hc] at od hd hL
    simp only [OptDraw] at od
    have e := toNat_lenByte hd
    rw [hL 1 rfl]
    simp [drawFlags, od, Draw.advance, Draw.points, drawRect_paint, e, rectPoints,
      Function.comp_def, List.map_flatMap]
  | rect w h' =>
    rw [hc] at od hd hL
    simp only [OptDraw] at od
    have e := toNat_lenByte hd.1
    have e2 := toNat_lenByte hd.2
    have e' : ((lenByte w).toNat : Int) + 1 = w := by omega
    rw [hL 2 rfl]
    simp [drawFlags, od, Draw.advance, Draw.points, drawRect_paint, e, e', e2, rectPoints,
      Function.comp_def, List.map_flatMap]
  | diag a n =>
    rw [hc] at od hd hL
    simp only [OptDraw] at od
    have e := toNat_lenByte hd
    have e' : ((lenByte n).toNat : Int) + 1 = n := by omega
    rw [hL 1 rfl]
    cases a with
    | false =>
      simp [drawFlags, od, Draw.advance, Draw.points, drawDesc_paint, e, e', Function.comp_def]
    | true =>
      have e5 : ∀ i : Nat, k.y + c.vert.delta + (n : Int) - 1 - (i : Int) =
          k.y + c.vert.delta + ((n : Int) - 1 - (i : Int)) := by intro i; omega
      simp [drawFlags, od, Draw.advance, Draw.points, drawAsc_paint, e, e', Function.comp_def, e5]

/-! ### Every accepted step is a command -/

theorem ctrl_flags (b : UInt8) : b.toNat =
    (if flag b 1 then 1 else 0) + (if flag b 2 then 2 else 0) + (if flag b 4 then 4 else 0) +
    (if flag b 8 then 8 else 0) + (if flag b 16 then 16 else 0) + (if flag b 32 then 32 else 0) +
    (if flag b 64 then 64 else 0) + (if flag b 128 then 128 else 0) := by
  have key : ∀ n : Fin 256, (UInt8.ofNat n.val).toNat =
    (if flag (UInt8.ofNat n.val) 1 then 1 else 0) + (if flag (UInt8.ofNat n.val) 2 then 2 else 0) +
    (if flag (UInt8.ofNat n.val) 4 then 4 else 0) + (if flag (UInt8.ofNat n.val) 8 then 8 else 0) +
    (if flag (UInt8.ofNat n.val) 16 then 16 else 0) + (if flag (UInt8.ofNat n.val) 32 then 32 else 0) +
    (if flag (UInt8.ofNat n.val) 64 then 64 else 0) + (if flag (UInt8.ofNat n.val) 128 then 128 else 0) := by
    decide +kernel
  have := key ⟨b.toNat, b.toNat_lt⟩
  simpa using this

/-- The command described by the flags and data bytes of one step. -/
def cmdOf (p h v : Option UInt8) (row : Bool) (d : Draw) : Cmd :=
  ⟨p, h.map nzint8AsInt,
    match v with
    | some b => .move (nzint8AsInt b)
    | none => if row then .row else .none, d⟩

theorem cmdOf_bytes {ctrl : UInt8} {p h v : Option UInt8} {d : Draw} {row : Bool}
    (hp : p.isSome = flag ctrl 1) (hh : h.isSome = flag ctrl 2) (hv : v.isSome = flag ctrl 4)
    (hr : row = flag ctrl 8) (hrv : (row && v.isSome) = false) (hd : d.Valid)
    (hbits : d.bits = (if flag ctrl 16 then 16 else 0) + (if flag ctrl 32 then 32 else 0) +
      (if flag ctrl 64 then 64 else 0) + (if flag ctrl 128 then 128 else 0)) :
    (cmdOf p h v row d).Valid ∧
      (cmdOf p h v row d).bytes = ctrl :: (p.toList ++ (h.toList ++ (v.toList ++ d.bytes))) := by
  have hmm : ∀ o : Option UInt8, (o.map nzint8AsInt).map moveByte = o := by
    intro o; cases o with
    | none => rfl
    | some b => simp [(moveByte_nz b).2]
  refine ⟨⟨?_, ?_, hd⟩, ?_⟩
  · intro dd e
    cases h with
    | none => simp [cmdOf] at e
    | some b =>
      simp [cmdOf] at e
      rw [← e]; exact (moveByte_nz b).1
  · cases v with
    | none => cases row <;> simp [cmdOf, Vert.Valid]
    | some b => exact (moveByte_nz b).1
  · unfold Cmd.bytes
    have hvb : (cmdOf p h v row d).vert.bytes = v.toList := by
      cases v with
      | none => cases row <;> rfl
      | some b => simp [cmdOf, Vert.bytes, (moveByte_nz b).2]
    rw [hvb]
    have hctrl : (cmdOf p h v row d).ctrl = ctrl := by
      apply UInt8.toNat_inj.mp
      unfold Cmd.ctrl
      have hf := ctrl_flags ctrl
      have hlt := ctrl.toNat_lt
      have : (if (cmdOf p h v row d).palette.isSome = true then 1 else 0) +
          (if (cmdOf p h v row d).horz.isSome = true then 2 else 0) +
          (cmdOf p h v row d).vert.bits + (cmdOf p h v row d).draw.bits = ctrl.toNat := by
        rw [hf]
        have h1 : (cmdOf p h v row d).palette.isSome = flag ctrl 1 := hp
        have h2 : (cmdOf p h v row d).horz.isSome = flag ctrl 2 := by
          rw [← hh]; simp [cmdOf]
        have h3 : (cmdOf p h v row d).vert.bits =
            (if flag ctrl 4 then 4 else 0) + (if flag ctrl 8 then 8 else 0) := by
          rw [← hv, ← hr]
          cases v with
          | none => cases row <;> rfl
          | some b =>
            cases row with
            | false => rfl
            | true => simp at hrv
        have h4 : (cmdOf p h v row d).draw.bits = d.bits := rfl
        rw [h1, h2, h3, h4, hbits]
        omega
      rw [this, UInt8.toNat_ofNat']
      omega
    rw [hctrl]
    have : (cmdOf p h v row d).horz.map moveByte = h := hmm h
    rw [this]
    rfl

theorem rectStep_sound {ops : Bytes} {s s' : RectState} (hi : s.index < ops.length)
    (h : rectStep ops s = .ok s') :
    ∃ c : Cmd, c.Valid ∧ ops.drop s.index = c.bytes ++ ops.drop (s'.index + 1) ∧
      s'.index < ops.length := by
  unfold rectStep at h
  rw [idx_lt hi] at h
  simp only [Res.ok_bind, Res.bind_eq_ok, Prod.exists] at h
  have hdrop := List.drop_eq_getElem_cons hi
  generalize ops[s.index] = ctrl at h hdrop
  obtain ⟨i1, p, h1, i2, hz, h2, i3, vm, h3, h⟩ := h
  obtain ⟨p1, q1, r1, l1⟩ := optByte_ok h1
  obtain ⟨p2, q2, r2, l2⟩ := optByte_ok h2
  obtain ⟨p3, q3, r3, l3⟩ := optByte_ok h3
  have l3' := l3 (l2 (l1 hi))
  split at h
  · simp at h
  · rename_i hrow
    have hrow' : (flag ctrl 8 && vm.isSome) = false := by
      rw [p3]; simpa using hrow
    have finish : ∀ (d : Draw) (j : Nat), d.Valid →
        d.bits = (if flag ctrl 16 then 16 else 0) + (if flag ctrl 32 then 32 else 0) +
          (if flag ctrl 64 then 64 else 0) + (if flag ctrl 128 then 128 else 0) →
        ops.drop (i3 + 1) = d.bytes ++ ops.drop (j + 1) →
        ∃ c : Cmd, c.Valid ∧ ops.drop s.index = c.bytes ++ ops.drop (j + 1) := by
      intro d j hd hb hj
      obtain ⟨hv, hbytes⟩ := cmdOf_bytes (ctrl := ctrl) p1 p2 p3 rfl hrow' hd hb
      refine ⟨_, hv, ?_⟩
      rw [hbytes, hdrop, r1, r2, r3, hj]
      simp
    split at h
    · rename_i hdiag
      split at h
      · simp at h
      · rename_i hpix
        split at h
        · simp at h
        · rename_i hdl
          simp only [Res.bind_eq_ok, Prod.exists] at h
          obtain ⟨i4, l, h4, h⟩ := h
          obtain ⟨p4, q4, r4, l4⟩ := optByte_ok h4
          cases l with
          | none => simp at p4
          | some b =>
            simp only [Res.pure_eq, Res.ok.injEq] at h
            have hs : s'.index = i4 := by rw [← h]
            have hpix' : flag ctrl 128 = false := by simpa using hpix
            have hdl' : flag ctrl 32 = true := by simpa using hdl
            obtain ⟨c, hc1, hc2⟩ := finish (.diag (flag ctrl 64) (b.toNat + 1)) i4
              (lenByte_toNat b).1 (by
                cases hasc : flag ctrl 64 <;> simp [Draw.bits, hdiag, hpix', hdl'])
              (by rw [r4]; simp [Draw.bytes, (lenByte_toNat b).2])
            exact ⟨c, hc1, by rw [hs]; exact hc2, by rw [hs]; exact l4 l3'⟩
    · rename_i hdiag
      have hdiag' : flag ctrl 16 = false := by simpa using hdiag
      simp only [Res.bind_eq_ok, Prod.exists] at h
      obtain ⟨i4, hl, h4, i5, vl, h5, h⟩ := h
      obtain ⟨p4, q4, r4, l4⟩ := optByte_ok h4
      obtain ⟨p5, q5, r5, l5⟩ := optByte_ok h5
      have l5' := l5 (l4 l3')
      have hj : ops.drop (i3 + 1) = hl.toList ++ (vl.toList ++ ops.drop (i5 + 1)) := by
        rw [r4, r5]
      have close : ∀ (d : Draw), d.Valid →
          d.bits = (if flag ctrl 16 then 16 else 0) + (if flag ctrl 32 then 32 else 0) +
            (if flag ctrl 64 then 64 else 0) + (if flag ctrl 128 then 128 else 0) →
          d.bytes = hl.toList ++ vl.toList → s'.index = i5 →
          ∃ c : Cmd, c.Valid ∧ ops.drop s.index = c.bytes ++ ops.drop (s'.index + 1) ∧
            s'.index < ops.length := by
        intro d hd hb hby hs
        obtain ⟨c, hc1, hc2⟩ := finish d i5 hd hb (by rw [hj, hby]; simp)
        exact ⟨c, hc1, by rw [hs]; exact hc2, by rw [hs]; exact l5'⟩
      cases hpix : flag ctrl 128 with
      | true =>
        cases hl with
        | some b => cases vl <;> simp [hpix] at h
        | none =>
          cases vl with
          | some b => simp [hpix] at h
          | none =>
            simp [hpix] at h
            have f1 : flag ctrl 32 = false := p4.symm
            have f2 : flag ctrl 64 = false := p5.symm
            exact close .pixel trivial (by simp [Draw.bits, hdiag', hpix, f1, f2])
              rfl (by rw [← h])
      | false =>
        cases hl with
        | some b =>
          have f1 : flag ctrl 32 = true := p4.symm
          cases vl with
          | some c =>
            have f2 : flag ctrl 64 = true := p5.symm
            simp [hpix] at h
            exact close (.rect (b.toNat + 1) (c.toNat + 1)) ⟨(lenByte_toNat b).1, (lenByte_toNat c).1⟩
              (by simp [Draw.bits, hdiag', hpix, f1, f2])
              (by simp [Draw.bytes, (lenByte_toNat b).2, (lenByte_toNat c).2]) (by rw [← h])
          | none =>
            have f2 : flag ctrl 64 = false := p5.symm
            simp [hpix] at h
            exact close (.horz (b.toNat + 1)) (lenByte_toNat b).1
              (by simp [Draw.bits, hdiag', hpix, f1, f2])
              (by simp [Draw.bytes, (lenByte_toNat b).2]) (by rw [← h])
        | none =>
          have f1 : flag ctrl 32 = false := p4.symm
          cases vl with
          | some c =>
            have f2 : flag ctrl 64 = true := p5.symm
            simp [hpix] at h
            exact close (.vert (c.toNat + 1)) (lenByte_toNat c).1
              (by simp [Draw.bits, hdiag', hpix, f1, f2])
              (by simp [Draw.bytes, (lenByte_toNat c).2]) (by rw [← h])
          | none =>
            have f2 : flag ctrl 64 = false := p5.symm
            simp [hpix] at h
            exact close .none trivial (by simp [Draw.bits, hdiag', hpix, f1, f2]) rfl (by rw [← h])

theorem rectStep_not_panic {ops : Bytes} {s : RectState} (hi : s.index < ops.length) :
    (rectStep ops s).isPanic = false := by
  unfold rectStep
  rw [idx_lt hi]
  simp only [Res.ok_bind]
  refine Res.bind_isPanic_false (optByte_not_panic _ _ _) ?_
  rintro ⟨i1, p⟩ _
  refine Res.bind_isPanic_false (optByte_not_panic _ _ _) ?_
  rintro ⟨i2, hz⟩ _
  refine Res.bind_isPanic_false (optByte_not_panic _ _ _) ?_
  rintro ⟨i3, v⟩ _
  simp only
  split
  · rfl
  · split
    · split
      · rfl
      · split
        · rfl
        · refine Res.bind_isPanic_false (optByte_not_panic _ _ _) ?_
          rintro ⟨i4, l⟩ h4
          obtain ⟨p4, _⟩ := optByte_ok h4
          cases l with
          | none => simp at p4
          | some b => rfl
    · refine Res.bind_isPanic_false (optByte_not_panic _ _ _) ?_
      rintro ⟨i4, hl⟩ _
      refine Res.bind_isPanic_false (optByte_not_panic _ _ _) ?_
      rintro ⟨i5, vl⟩ _
      cases hl <;> cases vl <;> cases flag ops[s.index] 128 <;> rfl

theorem bytes_pos (c : Cmd) : 0 < c.bytes.length := by simp [Cmd.bytes]

/-- Bounds after a sequence of commands. -/
def growAll (r : Rect) (k : Cursor) : List Cmd → Rect
  | [] => r
  | c :: cs => growAll (growCmd r c (c.pre k).x (c.pre k).y) (c.post k) cs

theorem drop_append_index {ops : Bytes} {i : Nat} {b rest : Bytes} (hb : 0 < b.length)
    (h : ops.drop i = b ++ rest) :
    ops.drop (i + (b.length - 1) + 1) = rest ∧
      (i + (b.length - 1) + 1 = ops.length ↔ rest = []) := by
  have h1 : ops.drop (i + b.length) = rest := by
    rw [← List.drop_drop, h, List.drop_left]
  have hl : ops.length - i = b.length + rest.length := by
    rw [← List.length_drop, h, List.length_append]
  have e : i + (b.length - 1) + 1 = i + b.length := by omega
  rw [e]
  refine ⟨h1, ?_⟩
  constructor
  · intro h2
    rw [← h1, h2]; simp
  · intro h2
    subst h2
    simp at hl
    omega

theorem rectLoop_cmds (ops : Bytes) : ∀ (cmds : List Cmd) (fuel i : Nat) (k : Cursor) (r : Rect),
    cmds ≠ [] → (∀ c ∈ cmds, c.Valid) → cmds.length ≤ fuel → ops.drop i = encode cmds →
    rectLoop ops fuel ⟨i, k.x, k.y, r⟩ = .ok (growAll r k cmds)
  | [], _, _, _, _, h, _, _, _ => absurd rfl h
  | c :: cs, 0, _, _, _, _, _, h, _ => by simp at h
  | c :: cs, fuel + 1, i, k, r, _, hv, hf, h => by
    have h' : ops.drop i = c.bytes ++ encode cs := h
    have hd := drop_append_index (bytes_pos c) h'
    rw [rectLoop, rectStep_cmd (hv c (by simp)) h']
    simp only [Res.ok_bind]
    by_cases hcs : cs = []
    · subst hcs
      rw [if_pos (hd.2.mpr rfl)]
      rfl
    · have hne : encode cs ≠ [] := by
        obtain ⟨c', cs', rfl⟩ := List.exists_cons_of_ne_nil hcs
        simp [encode, Cmd.bytes]
      rw [if_neg (fun e => hne (hd.2.mp e))]
      exact rectLoop_cmds ops cs fuel _ (c.post k) _ hcs (fun c' hc' => hv c' (by simp [hc']))
        (by simpa using hf) hd.1

theorem drawLoop_cmds (ops : Bytes) : ∀ (cmds : List Cmd) (fuel i : Nat) (k : Cursor) (m : Img),
    cmds ≠ [] → (∀ c ∈ cmds, c.Valid) → cmds.length ≤ fuel → ops.drop i = encode cmds →
    drawLoop ops fuel ⟨i, k.value, k.x, k.y, m⟩ = paint (writes k cmds) m
  | [], _, _, _, _, h, _, _, _ => absurd rfl h
  | c :: cs, 0, _, _, _, _, _, h, _ => by simp at h
  | c :: cs, fuel + 1, i, k, m, _, hv, hf, h => by
    have h' : ops.drop i = c.bytes ++ encode cs := h
    have hd := drop_append_index (bytes_pos c) h'
    rw [drawLoop, drawStep_cmd (hv c (by simp)) h', writes, paint_append]
    simp only [bind_assoc, Res.ok_bind]
    congr 1
    funext m'
    by_cases hcs : cs = []
    · subst hcs
      rw [if_pos (hd.2.mpr rfl)]
      rfl
    · have hne : encode cs ≠ [] := by
        obtain ⟨c', cs', rfl⟩ := List.exists_cons_of_ne_nil hcs
        simp [encode, Cmd.bytes]
      rw [if_neg (fun e => hne (hd.2.mp e))]
      exact drawLoop_cmds ops cs fuel _ (c.post k) _ hcs (fun c' hc' => hv c' (by simp [hc']))
        (by simpa using hf) hd.1

theorem rectLoop_sound (ops : Bytes) : ∀ (fuel : Nat) (s : RectState), s.index < ops.length →
    ops.length - s.index < fuel →
    (rectLoop ops fuel s).isPanic = false ∧
      ∀ r, rectLoop ops fuel s = .ok r → ∃ cmds, (∀ c ∈ cmds, c.Valid) ∧
        ops.drop s.index = encode cmds
  | 0, _, _, h => by omega
  | fuel + 1, s, hi, hf => by
    rw [rectLoop]
    have hnp := rectStep_not_panic hi
    cases hst : rectStep ops s with
    | panic e => rw [hst] at hnp; simp at hnp
    | err e => simp
    | ok s' =>
      obtain ⟨c, hv, hd, hlt⟩ := rectStep_sound hi hst
      have hgt : s.index ≤ s'.index := by
        have hl : (ops.drop s.index).length = (c.bytes ++ ops.drop (s'.index + 1)).length := by
          rw [hd]
        have := bytes_pos c
        simp only [List.length_drop, List.length_append] at hl
        omega
      simp only [Res.ok_bind]
      by_cases he : s'.index + 1 = ops.length
      · rw [if_pos he]
        refine ⟨rfl, fun r _ => ⟨[c], by simpa using hv, ?_⟩⟩
        rw [hd, he]; simp [encode]
      · rw [if_neg he]
        have ih := rectLoop_sound ops fuel { s' with index := s'.index + 1 } (by simp only; omega)
          (by simp only; omega)
        refine ⟨ih.1, fun r hr => ?_⟩
        obtain ⟨cs, hcs, hcd⟩ := ih.2 r hr
        refine ⟨c :: cs, ?_, ?_⟩
        · intro c' hc'
          rcases List.mem_cons.mp hc' with rfl | h
          · exact hv
          · exact hcs c' h
        · rw [hd]
          simp only at hcd
          rw [hcd]; rfl

/-! ### Bounds -/

theorem cmds_length_le (cmds : List Cmd) : cmds.length ≤ (encode cmds).length := by
  induction cmds with
  | nil => simp
  | cons c cs ih =>
    have := bytes_pos c
    have e : encode (c :: cs) = c.bytes ++ encode cs := rfl
    rw [e]; simp only [List.length_append, List.length_cons]; omega

theorem rectPoints_mem {x y : Int} {w h : Nat} {p : Int × Int} :
    p ∈ rectPoints x y w h ↔ x ≤ p.1 ∧ p.1 < x + w ∧ y ≤ p.2 ∧ p.2 < y + h := by
  unfold rectPoints
  simp only [List.mem_flatMap, List.mem_map, List.mem_range]
  constructor
  · rintro ⟨j, hj, i, hi, rfl⟩
    simp only; omega
  · rintro ⟨h1, h2, h3, h4⟩
    refine ⟨(p.2 - y).toNat, by omega, (p.1 - x).toNat, by omega, ?_⟩
    ext <;> simp only <;> omega

theorem rectPoints_tight {x y : Int} {w h : Nat} (hw : 0 < w) (hh : 0 < h) :
    TightBox (rectPoints x y w h) x y (x + w) (y + h) := by
  refine ⟨?_, ⟨(x, y), ?_, rfl⟩, ⟨(x + w - 1, y), ?_, rfl⟩, ⟨(x, y), ?_, rfl⟩,
    ⟨(x, y + h - 1), ?_, rfl⟩⟩
  · intro p hp
    obtain ⟨h1, h2, h3, h4⟩ := rectPoints_mem.mp hp
    exact ⟨h1, h2, h3, h4⟩
  all_goals (rw [rectPoints_mem]; simp only; omega)

theorem draw_tight {d : Draw} (hv : d.Valid) (hn : d ≠ .none) (x y : Int) :
    TightBox (d.points x y) x y (x + d.advance) (y + Draw.height d) := by
  cases d with
  | none => exact absurd rfl hn
  | pixel =>
    simp [TightBox, Draw.points, Draw.advance, Draw.height]
  | horz n => exact rectPoints_tight (by have := hv.1; omega) (by omega)
  | vert n => exact rectPoints_tight (by omega) (by have := hv.1; omega)
  | rect w h => exact rectPoints_tight (by have := hv.1.1; omega) (by have := hv.2.1; omega)
  | diag a n =>
    have h1 : 1 ≤ n := hv.1
    cases a with
    | false =>
      refine ⟨?_, ⟨(x, y), ?_, rfl⟩, ⟨(x + n - 1, y + n - 1), ?_, rfl⟩, ⟨(x, y), ?_, rfl⟩,
        ⟨(x + n - 1, y + n - 1), ?_, rfl⟩⟩
      · intro p hp
        simp only [Draw.points, List.mem_map, List.mem_range] at hp
        obtain ⟨i, hi, rfl⟩ := hp
        simp only [Draw.advance, Draw.height]; omega
      · exact List.mem_map.mpr ⟨0, by simp; omega, by simp⟩
      · exact List.mem_map.mpr ⟨n - 1, by simp; omega, by ext <;> simp only <;> omega⟩
      · exact List.mem_map.mpr ⟨0, by simp; omega, by simp⟩
      · exact List.mem_map.mpr ⟨n - 1, by simp; omega, by ext <;> simp only <;> omega⟩
    | true =>
      refine ⟨?_, ⟨(x, y + n - 1), ?_, rfl⟩, ⟨(x + n - 1, y), ?_, rfl⟩, ⟨(x + n - 1, y), ?_, rfl⟩,
        ⟨(x, y + n - 1), ?_, rfl⟩⟩
      · intro p hp
        simp only [Draw.points, List.mem_map, List.mem_range] at hp
        obtain ⟨i, hi, rfl⟩ := hp
        simp only [Draw.advance, Draw.height]; omega
      · exact List.mem_map.mpr ⟨0, by simp; omega, by ext <;> simp only <;> omega⟩
      · exact List.mem_map.mpr ⟨n - 1, by simp; omega, by ext <;> simp only <;> omega⟩
      · exact List.mem_map.mpr ⟨n - 1, by simp; omega, by ext <;> simp only <;> omega⟩
      · exact List.mem_map.mpr ⟨0, by simp; omega, by ext <;> simp only <;> omega⟩

theorem grow_tight {pts qs : List (Int × Int)} {r : Rect} {x y xi yi : Int}
    (hr : TightBox pts r.x0 r.y0 r.x1 r.y1) (hq : TightBox qs x y (x + xi) (y + yi)) :
    TightBox (pts ++ qs) (growRect r x y xi yi).x0 (growRect r x y xi yi).y0
      (growRect r x y xi yi).x1 (growRect r x y xi yi).y1 := by
  obtain ⟨a0, ⟨p1, m1, e1⟩, ⟨p2, m2, e2⟩, ⟨p3, m3, e3⟩, ⟨p4, m4, e4⟩⟩ := hr
  obtain ⟨b0, ⟨q1, n1, f1⟩, ⟨q2, n2, f2⟩, ⟨q3, n3, f3⟩, ⟨q4, n4, f4⟩⟩ := hq
  unfold growRect
  refine ⟨?_, ?_, ?_, ?_, ?_⟩
  · intro p hp
    simp only
    rcases List.mem_append.mp hp with h | h
    · have := a0 p h
      split <;> split <;> split <;> split <;> omega
    · have := b0 p h
      split <;> split <;> split <;> split <;> omega
  · simp only; split
    · exact ⟨q1, List.mem_append_right _ n1, f1⟩
    · exact ⟨p1, List.mem_append_left _ m1, e1⟩
  · simp only; split
    · exact ⟨q2, List.mem_append_right _ n2, f2⟩
    · exact ⟨p2, List.mem_append_left _ m2, e2⟩
  · simp only; split
    · exact ⟨q3, List.mem_append_right _ n3, f3⟩
    · exact ⟨p3, List.mem_append_left _ m3, e3⟩
  · simp only; split
    · exact ⟨q4, List.mem_append_right _ n4, f4⟩
    · exact ⟨p4, List.mem_append_left _ m4, e4⟩

theorem writes_points (c : Cmd) (k : Cursor) :
    (c.writes k).map (fun w => (w.1, w.2.1)) = c.draw.points (c.pre k).x (c.pre k).y := by
  simp [Cmd.writes, Function.comp_def]

/-- The horizontal reach of a command is paid for by its bytes. -/
theorem cmd_cost {c : Cmd} (hv : c.Valid) :
    -64 * (c.bytes.length : Int) ≤ c.horz.getD 0 ∧
    c.horz.getD 0 + c.draw.advance ≤ 128 * (c.bytes.length : Int) ∧
    -64 * (c.bytes.length : Int) ≤ c.vert.delta ∧ c.vert.delta ≤ 64 * (c.bytes.length : Int) ∧
    (Draw.height c.draw : Int) ≤ 256 := by
  have hl := bytes_length c
  obtain ⟨h1, h2, h3⟩ := hv
  have hh : -64 * ((c.horz.map moveByte).toList.length : Int) * 2 ≤ c.horz.getD 0 ∧
      c.horz.getD 0 ≤ 128 * ((c.horz.map moveByte).toList.length : Int) ∧
      ((c.horz.map moveByte).toList.length : Int) ≤ 1 := by
    cases hc : c.horz with
    | none => simp
    | some d =>
      have := h1 d hc
      simp only [Option.getD_some, Option.map_some, Option.toList_some, List.length_singleton]
      unfold ValidMove at this; omega
  have hvv : -64 * (((vertMove c.vert).map moveByte).toList.length : Int) * 2 ≤ c.vert.delta ∧
      c.vert.delta ≤ 127 * (((vertMove c.vert).map moveByte).toList.length : Int) + 1 ∧
      (((vertMove c.vert).map moveByte).toList.length : Int) ≤ 1 := by
    cases hc : c.vert with
    | none => simp [vertMove, Vert.delta]
    | row => simp [vertMove, Vert.delta]
    | move d =>
      rw [hc] at h2
      simp only [vertMove, Vert.delta, Option.map_some, Option.toList_some, List.length_singleton]
      unfold Vert.Valid ValidMove at h2; simp only at h2; omega
  have hd : (c.draw.advance : Int) ≤ 255 * (c.draw.bytes.length : Int) + 1 ∧
      (Draw.height c.draw : Int) ≤ 256 ∧ (c.draw.advance : Int) ≤ 256 := by
    cases hc : c.draw with
    | none => simp [Draw.advance, Draw.bytes, Draw.height]
    | pixel => simp [Draw.advance, Draw.bytes, Draw.height]
    | horz n =>
      rw [hc] at h3
      have := h3.2
      simp only [Draw.advance, Draw.bytes, Draw.height, List.length_singleton]; omega
    | vert n =>
      rw [hc] at h3
      have := h3.2
      simp only [Draw.advance, Draw.bytes, Draw.height, List.length_singleton]; omega
    | rect w h =>
      rw [hc] at h3
      have := h3.1.2
      have := h3.2.2
      simp only [Draw.advance, Draw.bytes, Draw.height, List.length_cons, List.length_nil]; omega
    | diag a n =>
      rw [hc] at h3
      have := h3.2
      simp only [Draw.advance, Draw.bytes, Draw.height, List.length_singleton]; omega
  omega

/-- Everything known about the bounds computed by the first pass. -/
theorem growAll_spec : ∀ (cmds : List Cmd) (k : Cursor) (r : Rect) (pts : List (Int × Int)) (n : Nat),
    (∀ c ∈ cmds, c.Valid) → n + (encode cmds).length < 2 ^ 32 →
    -64 * (n : Int) ≤ k.x → k.x ≤ 128 * (n : Int) → -64 * (n : Int) ≤ k.y → k.y ≤ 64 * (n : Int) →
    ((pts = [] ∧ r = ⟨maxInt, maxInt, minInt, minInt⟩) ∨
      (pts ≠ [] ∧ TightBox pts r.x0 r.y0 r.x1 r.y1 ∧ -64 * (n : Int) ≤ r.x0 ∧ r.x1 ≤ 128 * (n : Int) ∧
        -64 * (n : Int) ≤ r.y0 ∧ r.y1 ≤ 64 * (n : Int) + 256)) →
    let ps := pts ++ (writes k cmds).map (fun w => (w.1, w.2.1))
    let r' := growAll r k cmds
    let n' : Int := n + (encode cmds).length
    (ps = [] ∧ r' = ⟨maxInt, maxInt, minInt, minInt⟩) ∨
      (ps ≠ [] ∧ TightBox ps r'.x0 r'.y0 r'.x1 r'.y1 ∧ -64 * n' ≤ r'.x0 ∧ r'.x1 ≤ 128 * n' ∧
        -64 * n' ≤ r'.y0 ∧ r'.y1 ≤ 64 * n' + 256)
  | [], k, r, pts, n, _, _, _, _, _, _, h => by
    simpa [writes, growAll, encode] using h
  | c :: cs, k, r, pts, n, hv, hn, hx1, hx2, hy1, hy2, h => by
    have hcv := hv c (by simp)
    obtain ⟨c1, c2, c3, c4, c5⟩ := cmd_cost hcv
    have he : encode (c :: cs) = c.bytes ++ encode cs := rfl
    rw [he, List.length_append] at hn
    have hpx : (c.pre k).x = k.x + c.horz.getD 0 := rfl
    have hpy : (c.pre k).y = k.y + c.vert.delta := rfl
    have hadv : (0 : Int) ≤ c.draw.advance := by omega
    have hblt : (c.bytes.length : Int) ≤ 2 ^ 32 := by omega
    have ih := growAll_spec cs (c.post k) (growCmd r c (c.pre k).x (c.pre k).y)
      (pts ++ c.draw.points (c.pre k).x (c.pre k).y) (n + c.bytes.length)
      (fun c' hc' => hv c' (by simp [hc'])) (by omega)
      (by simp only [Cmd.post, hpx]; push_cast; omega)
      (by simp only [Cmd.post, hpx]; push_cast; omega)
      (by simp only [Cmd.post, hpy]; push_cast; omega)
      (by simp only [Cmd.post, hpy]; push_cast; omega)
      (by
        by_cases hd : c.draw = .none
        · have e1 : c.draw.points (c.pre k).x (c.pre k).y = [] := by rw [hd]; rfl
          have e2 : growCmd r c (c.pre k).x (c.pre k).y = r := by unfold growCmd; rw [if_pos hd]
          rw [e1, e2, List.append_nil]
          push_cast
          rcases h with h | ⟨h0, h1, h2, h3, h4, h5⟩
          · exact Or.inl h
          · refine Or.inr ⟨h0, h1, by omega, by omega, by omega, by omega⟩
        · have e2 : growCmd r c (c.pre k).x (c.pre k).y =
              growRect r (c.pre k).x (c.pre k).y c.draw.advance (Draw.height c.draw) := by
            unfold growCmd; rw [if_neg hd]
          have ht := draw_tight hcv.2.2 hd (c.pre k).x (c.pre k).y
          have hne : c.draw.points (c.pre k).x (c.pre k).y ≠ [] := by
            obtain ⟨_, ⟨p, hp, _⟩, _⟩ := ht
            intro e; rw [e] at hp; simp at hp
          have hadv1 : (1 : Int) ≤ c.draw.advance ∧ (1 : Int) ≤ Draw.height c.draw := by
            obtain ⟨h0, ⟨p, hp, _⟩, _⟩ := ht
            have := h0 p hp
            omega
          rw [e2]
          push_cast
          right
          refine ⟨by simp [hne], ?_⟩
          rcases h with ⟨h0, h1⟩ | ⟨h0, h1, h2, h3, h4, h5⟩
          · subst h0 h1
            have hg : growRect ⟨maxInt, maxInt, minInt, minInt⟩ (c.pre k).x (c.pre k).y
                c.draw.advance (Draw.height c.draw) =
                ⟨(c.pre k).x, (c.pre k).y, (c.pre k).x + c.draw.advance,
                  (c.pre k).y + Draw.height c.draw⟩ := by
              unfold growRect maxInt minInt
              simp only [hpx, hpy]
              rw [if_pos (by omega), if_pos (by omega), if_pos (by omega), if_pos (by omega)]
            rw [hg]
            refine ⟨ht, ?_, ?_, ?_, ?_⟩ <;> simp only [hpx, hpy] <;> omega
          · refine ⟨grow_tight h1 ht, ?_, ?_, ?_, ?_⟩ <;>
              simp only [growRect, hpx, hpy] <;> split <;> omega)
    simp only at ih ⊢
    have e3 : pts ++ c.draw.points (c.pre k).x (c.pre k).y ++
        (writes (c.post k) cs).map (fun w => (w.1, w.2.1)) =
        pts ++ (writes k (c :: cs)).map (fun w => (w.1, w.2.1)) := by
      rw [writes, List.map_append, writes_points, List.append_assoc]
    have e4 : ((n + c.bytes.length : Nat) : Int) + (encode cs).length =
        n + (encode (c :: cs)).length := by
      rw [he, List.length_append]; push_cast; omega
    rw [e3, e4] at ih
    exact ih

end Mask
