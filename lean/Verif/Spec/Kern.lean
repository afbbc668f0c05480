import Verif.Model.Builder

/-! # Kerning of a builder -/

namespace Spec
open BuilderModel

/-- The kerning of a pair: nothing, its own value, or the value of its class (classes count from 1). -/
def kernOf (classes : List Int) (table : List ((Nat × Nat) × KernPair)) (pair : Nat × Nat) : Int :=
  match table.lookup pair with
  | none => 0
  | some p => if p.cls = 0 then p.value else (classes[p.cls - 1]?).getD 0

/-- The kerning of two glyph indices (none for indices that are not glyphs). -/
def kernAtOf (b : Builder) (table : List ((Nat × Nat) × KernPair)) (i j : Nat) : Int :=
  match b.glyphOrder[i]?, b.glyphOrder[j]? with
  | some u, some v => kernOf b.kernClasses table (u, v)
  | _, _ => 0

def IsInt8 (v : Int) : Prop := -128 ≤ v ∧ v ≤ 127

/-- Values have 8 bits, the keys of the maps are distinct, and so are the glyphs. -/
structure KernOk (b : Builder) : Prop where
  order : b.glyphOrder.Nodup
  horz : (b.horzKern.map Prod.fst).Nodup
  vert : (b.vertKern.map Prod.fst).Nodup
  horzVal : ∀ e ∈ b.horzKern, IsInt8 e.2.value
  vertVal : ∀ e ∈ b.vertKern, IsInt8 e.2.value
  classes : ∀ v ∈ b.kernClasses, IsInt8 v

/-- What a history of calls of `SetKerningPair` leaves for a pair: the last value. -/
def lastKern (old : Int) (pair : Nat × Nat) : List ((Nat × Nat) × Int) → Int
  | [] => old
  | (p, v) :: calls => lastKern (if p = pair then v else old) pair calls

end Spec
