import Verif.Model.Builder

/-! # Mapping of code points -/

namespace Spec
open Go BuilderModel

/-- The 32 bits of a rune. -/
def runeBits (c : Int) : Nat := (c % 4294967296).toNat

/-! ## Groups -/

/-- A 16-bit number, low byte first. -/
def two (v : Nat) : Bytes := [UInt8.ofNat (v % 256), UInt8.ofNat (v / 256)]

/-- The three ways to store a group: one glyph, consecutive glyphs, a list of glyphs. -/
inductive Stored where
  | single (glyph : Nat)
  | range (size : Nat) (flags : UInt8) (first : Nat)
  | list (flags : UInt8) (glyphs : List Nat)

namespace Stored

/-- The bytes: the size less one, with the high bit for ranges; the flags unless there is only one
glyph; the first glyph or all glyphs. -/
def bytes : Stored → Bytes
  | .single g => 0 :: two g
  | .range n flags g => UInt8.ofNat (128 + (n - 1)) :: flags :: two g
  | .list flags gs => UInt8.ofNat (gs.length - 1) :: flags :: (gs.map two).flatten

/-- The glyphs. -/
def glyphs : Stored → List Nat
  | .single g => [g]
  | .range n _ g => (List.range n).map (g + ·)
  | .list _ gs => gs

/-- The animation flags. -/
def flags : Stored → Nat
  | .single _ => 0
  | .range _ fl _ => fl.toNat
  | .list fl _ => fl.toNat

def Valid : Stored → Prop
  | .single g => g < 65536
  | .range n _ g => 2 ≤ n ∧ n ≤ 128 ∧ g + n ≤ 65536
  | .list _ gs => 2 ≤ gs.length ∧ gs.length ≤ 128 ∧ ∀ g ∈ gs, g < 65536

/-- The groups that the code skips correctly: all but ranges of less than 128 glyphs and lists of
128 glyphs. -/
def Skippable : Stored → Prop
  | .single _ => True
  | .range n _ _ => n = 128
  | .list _ gs => gs.length < 128

end Stored

/-! ## Switches -/

/-- The number written with the given digits, each with its base; the first is the most
significant. -/
def mixedRadix (digits : List (Nat × Nat)) : Nat :=
  digits.foldl (fun acc d => acc * d.1 + d.2) 0

/-- The number of combinations. -/
def combinations (bases : List Nat) : Nat := bases.foldl (· * ·) 1

/-! ## Builders -/

/-- Glyphs and mapped code points are listed once; code points are runes. -/
structure MapOk (b : Builder) : Prop where
  order : b.glyphOrder.Nodup
  keys : (b.runeMapping.map Prod.fst).Nodup
  runes : ∀ e ∈ b.runeMapping, e.1 < 2147483648

/-- Number of options of a setting of a builder. -/
def options (b : Builder) (k : Nat) : Nat := ((b.settings[k]?).map fun s => s.options.length).getD 0

/-- The settings of a switch exist and have options, up to 255. -/
structure SwitchOk (b : Builder) (switch : List Nat) : Prop where
  sizes : ∀ s ∈ b.settings, s.options.length ≤ 255
  some : switch ≠ []
  exist : ∀ k ∈ switch, k < b.settings.length
  nonempty : ∀ k ∈ switch, options b k ≠ 0

end Spec
