import Verif.Model.Encoder

/-! # The encoder only appends -/

namespace Mask
open Go

theorem encStep_data (d : Bytes) (f : Frag) (s : EncState) :
    encStep f { s with out := d ++ s.out } = (encStep f s >>= fun r => .ok { r with out := d ++ r.out }) := by
  simp only [encStep]
  cases encPalette f s.value ⟨0, []⟩ with
  | err m => rfl
  | panic m => rfl
  | ok p =>
    simp only [Res.ok_bind]
    cases encHorz (f.minX - s.x) p with
    | err m => rfl
    | panic m => rfl
    | ok p =>
      simp only [Res.ok_bind]
      cases encVert (f.minY - s.y) p with
      | err m => rfl
      | panic m => rfl
      | ok p =>
        simp only [Res.ok_bind]
        cases encDraw f p with
        | err m => rfl
        | panic m => rfl
        | ok p => simp only [Res.ok_bind, Res.pure_eq, List.append_assoc]

theorem encLoop_data (d : Bytes) : ∀ (fs : List Frag) (s : EncState),
    encLoop fs { s with out := d ++ s.out } = (encLoop fs s >>= fun r => .ok { r with out := d ++ r.out })
  | [], _ => rfl
  | f :: fs, s => by
    rw [encLoop, encLoop, encStep_data]
    cases encStep f s with
    | err m => rfl
    | panic m => rfl
    | ok r => exact encLoop_data d fs r

theorem appendRasterOps_data (ord : List Frag → List Frag) (d : Bytes) (m : Img) :
    appendRasterOps ord d m = (appendRasterOps ord [] m >>= fun x => .ok (d ++ x)) := by
  simp only [appendRasterOps]
  cases computeMaskFragments m with
  | err m => rfl
  | panic m => rfl
  | ok fs =>
    simp only [Res.ok_bind]
    split
    · simp [Res.pure_eq, Res.ok_bind]
    · have := encLoop_data d (ord fs) ⟨0, 0, 255, []⟩
      simp only [List.append_nil] at this
      rw [this]
      cases encLoop (ord fs) ⟨0, 0, 255, []⟩ <;> rfl

end Mask
