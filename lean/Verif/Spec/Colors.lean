import Verif.Model.Builder

/-! # Color tables -/

namespace Spec
open Go BuilderModel

/-- Names of the color sections of a builder. -/
def sectionNames (b : Builder) : List Bytes :=
  b.dyes.map Dye.name ++ b.palettes.map Palette.name

/-- Colors of each section. -/
def sectionSizes (b : Builder) : List Nat :=
  b.dyes.map (fun d => d.alphas.length) ++ b.palettes.map (fun p => p.colors.length)

/-- Names are unique, at most 255 colors. -/
structure ColorsOk (b : Builder) : Prop where
  names : (sectionNames b).Nodup
  total : (sectionSizes b).sum ≤ 255

/-- One call that adds colors. -/
inductive ColorOp where
  | dye (name : Bytes) (alphas : List UInt8)
  | palette (name : Bytes) (colors : List RGBA)

/-- A history; failed calls leave the builder as it is. -/
def runColors : Builder → List ColorOp → Builder
  | b, [] => b
  | b, .dye n a :: ops => runColors (match b.addDye n a with | .ok b' => b' | _ => b) ops
  | b, .palette n c :: ops => runColors (match b.addPalette n c with | .ok b' => b' | _ => b) ops

/-- Values with the indices counting down from `top`. -/
def countDown {α : Type} (top : Nat) : List α → List (α × UInt8)
  | [] => []
  | a :: l => (a, UInt8.ofNat top) :: countDown (top - 1) l

def rgbaValues (c : RGBA) : Nat × Nat × Nat × Nat := (c.r.toNat, c.g.toNat, c.b.toNat, c.a.toNat)

/-- No section is empty, no name is empty, the names of dyes and the names of palettes take up to
65535 bytes each. -/
structure ColorsStorable (b : Builder) : Prop where
  alphas : ∀ d ∈ b.dyes, d.alphas ≠ []
  colors : ∀ p ∈ b.palettes, p.colors ≠ []
  dyeNames : ∀ d ∈ b.dyes, d.name ≠ []
  paletteNames : ∀ p ∈ b.palettes, p.name ≠ []
  dyeNamesSize : (b.dyes.map fun d => d.name.length).sum ≤ 65535
  paletteNamesSize : (b.palettes.map fun p => p.name.length).sum ≤ 65535

end Spec
