import Mathlib.Data.List.Nodup
import Verif.Lemmas.EncBytes
import Verif.Spec.EncoderLimits

/-! # Every visible pixel is drawn once, the limits of the encoder, and the length of what it writes -/

namespace Mask
open Go Spec.Raster Spec

theorem rectPoints_nodup (x y : Int) (w h : Nat) : (rectPoints x y w h).Nodup := by
  refine List.nodup_flatMap.2 ⟨fun j _ => ?_, ?_⟩
  · refine List.Nodup.map ?_ List.nodup_range
    intro i i' e
    have := (Prod.mk.inj e).1
    omega
  · refine List.Pairwise.imp ?_ (List.nodup_range (n := h))
    intro j j' hne p hp hp'
    obtain ⟨i, _, rfl⟩ := List.mem_map.1 hp
    obtain ⟨i', _, e⟩ := List.mem_map.1 hp'
    have := (Prod.mk.inj e).2
    omega

theorem points_nodup (x y : Int) (d : Draw) : (d.points x y).Nodup := by
  cases d with
  | none => exact List.nodup_nil
  | pixel => exact List.nodup_singleton _
  | horz n => exact rectPoints_nodup ..
  | vert n => exact rectPoints_nodup ..
  | rect w h => exact rectPoints_nodup ..
  | diag asc n =>
    cases asc <;>
    · refine List.Nodup.map ?_ List.nodup_range
      intro i i' e
      have := (Prod.mk.inj e).1
      omega

theorem fragPoints (f : Frag) :
    (fragWrites f).map (fun w => (w.1, w.2.1)) = (fragDraw f).points f.minX f.minY := by
  simp [fragWrites, List.map_map, Function.comp_def]

theorem writes_nodup {fs : List Frag} (hw : ∀ f ∈ fs, f.WF) (h : fs.Pairwise Frag.Apart) :
    ((fs.flatMap fragWrites).map (fun w => (w.1, w.2.1))).Nodup := by
  rw [List.map_flatMap]
  simp only [fragPoints]
  refine List.nodup_flatMap.2 ⟨fun f _ => points_nodup .., ?_⟩
  refine List.Pairwise.imp_of_mem ?_ h
  intro f g hf hg ha p hp hp'
  exact ha p.1 p.2 ((frag_points_mem (hw f hf) _ _).1 hp) ((frag_points_mem (hw g hg) _ _).1 hp')

theorem covers_self {f : Frag} (hw : f.WF) : f.Covers f.minX (if f.diag = .asc then f.maxY else f.minY) := by
  unfold Frag.Covers
  have wx := hw.x
  have wy := hw.y
  have ws := hw.sq
  cases hd : f.diag with
  | none => simp; omega
  | asc => rw [hd] at ws; have := ws (by simp); simp; omega
  | desc => simp; omega

theorem writes_pos {f : Frag} (hw : f.WF) : 0 < (fragWrites f).length := by
  have h := (frag_points_mem hw _ _).2 (covers_self hw)
  have := List.length_pos_of_mem h
  simpa [fragWrites] using this

theorem writes_length : ∀ {fs : List Frag}, (∀ f ∈ fs, f.WF) → fs.length ≤ (fs.flatMap fragWrites).length
  | [], _ => Nat.le_refl _
  | f :: fs, h => by
    have h1 := writes_pos (h f (by simp))
    have h2 := writes_length (fs := fs) fun g hg => h g (by simp [hg])
    simp only [List.flatMap_cons, List.length_append, List.length_cons]
    omega

theorem cmd_length (c : Cmd) : c.bytes.length ≤ 6 := by
  obtain ⟨p, hz, v, d⟩ := c
  have h1 : p.toList.length ≤ 1 := by cases p <;> simp
  have h2 : (hz.map moveByte).toList.length ≤ 1 := by cases hz <;> simp
  have h3 : v.bytes.length ≤ 1 := by cases v <;> simp [Vert.bytes]
  have h4 : d.bytes.length ≤ 2 := by cases d <;> simp [Draw.bytes]
  simp only [Cmd.bytes, List.length_cons, List.length_append]
  omega

theorem encode_length (cmds : List Cmd) : (encode cmds).length ≤ 6 * cmds.length := by
  induction cmds with
  | nil => simp [encode]
  | cons c cs ih =>
    have h1 := cmd_length c
    simp only [encode, List.flatMap_cons, List.length_append, List.length_cons] at ih ⊢
    omega

/-! ### The limits -/

theorem encHorz_ok {d : Int} {p q : Payload} (h : encHorz d p = .ok q) : -128 ≤ d ∧ d ≤ 128 := by
  unfold encHorz at h
  split at h
  · split at h
    · cases h
    · omega
  · omega

theorem encVert_ok {d : Int} {p q : Payload} (h : encVert d p = .ok q) : -128 ≤ d ∧ d ≤ 128 := by
  unfold encVert at h
  split at h
  · split at h
    · omega
    · split at h
      · cases h
      · omega
  · omega

theorem encLen_ok {b : UInt8} {n : Int} {p q : Payload} (h : encLen b n p = .ok q) : n ≤ 256 := by
  unfold encLen at h
  split at h
  · cases h
  · omega

theorem encDraw_ok {f : Frag} (hw : f.WF) {p q : Payload} (h : encDraw f p = .ok q) :
    f.maxX - f.minX < 256 ∧ f.maxY - f.minY < 256 := by
  have wx := hw.x
  have wy := hw.y
  unfold encDraw at h
  simp only at h
  split at h
  · omega
  · split at h
    · rename_i hd
      have := hw.sq hd
      rw [if_pos (by omega)] at h
      obtain ⟨a, h1, _⟩ := Res.bind_eq_ok.1 h
      have := encLen_ok h1
      omega
    · split at h
      · obtain ⟨a, h1, h2⟩ := Res.bind_eq_ok.1 h
        have k1 := encLen_ok h1
        refine ⟨by omega, ?_⟩
        by_cases e : f.maxY + 1 - f.minY = 1
        · omega
        · rw [if_neg e, if_pos (by omega)] at h2
          have := encLen_ok h2
          omega
      · rename_i hn
        rw [if_pos (by omega)] at h
        have := encLen_ok h
        omega

theorem encStep_ok {f : Frag} (hw : f.WF) {s r : EncState} (h : encStep f s = .ok r) :
    ((-128 ≤ f.minX - s.x ∧ f.minX - s.x ≤ 128) ∧ (-128 ≤ f.minY - s.y ∧ f.minY - s.y ≤ 128) ∧
      f.maxX - f.minX < 256 ∧ f.maxY - f.minY < 256) ∧ r.x = f.maxX + 1 ∧ r.y = f.minY := by
  unfold encStep at h
  obtain ⟨p0, _, h⟩ := Res.bind_eq_ok.1 h
  obtain ⟨p1, h1, h⟩ := Res.bind_eq_ok.1 h
  obtain ⟨p2, h2, h⟩ := Res.bind_eq_ok.1 h
  obtain ⟨p3, h3, h⟩ := Res.bind_eq_ok.1 h
  obtain rfl := Res.ok.inj h
  obtain ⟨d1, d2⟩ := encDraw_ok hw h3
  exact ⟨⟨encHorz_ok h1, encVert_ok h2, d1, d2⟩, by simp only; omega, by simp only; omega⟩

theorem encLoop_steps : ∀ {fs : List Frag} {s r : EncState}, (∀ f ∈ fs, f.WF) → encLoop fs s = .ok r → Steps s.x s.y fs
  | [], _, _, _, _ => trivial
  | f :: fs, s, r, hw, h => by
    obtain ⟨s', h1, h2⟩ := Res.bind_eq_ok.1 h
    obtain ⟨⟨a, b, c, d⟩, e1, e2⟩ := encStep_ok (hw f (by simp)) h1
    have := encLoop_steps (fun g hg => hw g (by simp [hg])) h2
    rw [e1, e2] at this
    exact ⟨a, b, c, d, this⟩

theorem steps_encLoop : ∀ {fs : List Frag} {s : EncState}, (∀ f ∈ fs, f.WF) → (∀ f ∈ fs, f.value ≠ 0) →
    Steps s.x s.y fs → ∃ r, encLoop fs s = .ok r
  | [], s, _, _, _ => ⟨s, rfl⟩
  | f :: fs, s, hw, hv, ⟨a, b, c, d, hs⟩ => by
    rcases encStep_spec (hw f (by simp)) (hv f (by simp)) ⟨s.x, s.y, s.value⟩ s.out with ⟨_, e⟩ | ⟨hn, _⟩
    · obtain ⟨s', e⟩ : ∃ s', encStep f s = .ok s' := ⟨_, e⟩
      obtain ⟨_, e1, e2⟩ := encStep_ok (hw f (by simp)) e
      obtain ⟨r, hr⟩ := steps_encLoop (fs := fs) (s := s') (fun g hg => hw g (by simp [hg]))
        (fun g hg => hv g (by simp [hg])) (by rw [e1, e2]; exact hs)
      exact ⟨r, by rw [encLoop, e, Res.ok_bind]; exact hr⟩
    · exact absurd ⟨a.1, a.2, b.1, b.2, by omega, by omega⟩ hn

end Mask
