import Verif.Model.Edition
import Verif.Spec.Names

/-!
# Edition data files (after the signature, decompressed)

The contents, their encoding, when they belong to a builder, and what loading them leaves.
-/

namespace Spec
open Go BuilderModel EditionModel

/-- `n` bytes, the least significant first. -/
def leBytes : (n v : Nat) → Bytes
  | 0, _ => []
  | n + 1, v => UInt8.ofNat v :: leBytes n (v / 256)

/-- A string after its length. -/
def shortStr (s : Bytes) : Bytes := leBytes 1 s.length ++ s

/-- 1 to 32 letters, digits, hyphens and spaces. -/
def SpacedName (s : Bytes) : Prop :=
  1 ≤ s.length ∧ s.length ≤ 32 ∧ ∀ c ∈ s, Names.Alnum c ∨ c = 45 ∨ c = 32

/-- One kerning pair: two glyph indices and the class (from 1). -/
structure PairClass where
  first : Nat
  second : Nat
  cls : Nat
deriving DecidableEq, Repr

/-- Three 16-bit numbers. -/
def PairClass.bytes (p : PairClass) : Bytes := leBytes 2 p.first ++ (leBytes 2 p.second ++ leBytes 2 p.cls)

/-- What the file contains. -/
structure EditionData where
  fontID : Nat
  categories : List (Bytes × Nat)
  classes : List (Bytes × Int)
  horz : List PairClass
  vert : List PairClass
  conditions : List Bytes
deriving DecidableEq, Repr

/-- A count, the names, the numbers. -/
def EditionData.categoryBytes (x : EditionData) : Bytes :=
  leBytes 1 x.categories.length ++ (x.categories.flatMap (fun c => shortStr c.1) ++
    x.categories.flatMap fun c => leBytes 2 c.2)

/-- A count, the names, the numbers. -/
def EditionData.classBytes (x : EditionData) : Bytes :=
  leBytes 2 x.classes.length ++ (x.classes.flatMap (fun c => shortStr c.1) ++
    x.classes.flatMap fun c => leBytes 1 (c.2 % 256).toNat)

/-- A count and the pairs. -/
def tableBytes (t : List PairClass) : Bytes := leBytes 4 t.length ++ t.flatMap PairClass.bytes

/-- Everything before the pairs. -/
def EditionData.headBytes (x : EditionData) : Bytes := leBytes 8 x.fontID ++ (x.categoryBytes ++ x.classBytes)

/-- The whole file. -/
def EditionData.bytes (x : EditionData) : Bytes :=
  x.headBytes ++ (tableBytes x.horz ++ (tableBytes x.vert ++
    (leBytes 1 x.conditions.length ++ x.conditions.flatMap shortStr)))

/-- The whole file of `specification.md:342-359`: the counts of the pairs have 24 bits. -/
def EditionData.specBytes (x : EditionData) : Bytes :=
  x.headBytes ++ (leBytes 3 x.horz.length ++ (x.horz.flatMap PairClass.bytes ++ (leBytes 3 x.vert.length ++
    (x.vert.flatMap PairClass.bytes ++ (leBytes 1 x.conditions.length ++ x.conditions.flatMap shortStr)))))

/-- Three 16-bit numbers, the last not zero. -/
def PairClass.Fits (p : PairClass) : Prop := p.first < 65536 ∧ p.second < 65536 ∧ 0 < p.cls ∧ p.cls < 65536

/-- Pairs of glyphs that exist, with a class. -/
def PairClass.Valid (glyphs : Nat) (p : PairClass) : Prop := p.Fits ∧ p.first < glyphs ∧ p.second < glyphs

/-- A table of the file. -/
def ValidTable (b : Builder) (t : List PairClass) : Prop :=
  t.length < 4294967296 ∧ ∀ p ∈ t, p.Valid b.glyphOrder.length

/-- Identifier, categories and classes. -/
structure EditionData.ValidHead (x : EditionData) (b : Builder) : Prop where
  fontID : x.fontID = b.fontID.toNat
  numCategories : x.categories.length < 256
  categories : ∀ c ∈ x.categories, SpacedName c.1 ∧ c.2 < 65536
  numClasses : x.classes.length < 65536
  classes : ∀ c ∈ x.classes, SpacedName c.1 ∧ -128 ≤ c.2 ∧ c.2 ≤ 127

/-- The contents belong to a builder. -/
structure EditionData.Valid (x : EditionData) (b : Builder) : Prop where
  head : x.ValidHead b
  horz : ValidTable b x.horz
  vert : ValidTable b x.vert
  numConditions : x.conditions.length = b.conditions.length ∧ x.conditions.length < 255
  conditions : ∀ n ∈ x.conditions, SpacedName n

/-- What `specification.md:346-348` asks for in addition: the categories cover the glyphs, classes exist. -/
structure EditionData.Conforms (x : EditionData) (b : Builder) : Prop where
  sizes : (x.categories.map (·.2)).sum = b.glyphOrder.length
  horz : ∀ p ∈ x.horz, p.cls ≤ x.classes.length
  vert : ∀ p ∈ x.vert, p.cls ≤ x.classes.length

/-- The start of a table of `n` pairs up to a pair with a glyph that does not exist. -/
structure BadTable (b : Builder) (n : Nat) (t : List PairClass) (p : PairClass) : Prop where
  count : t.length < n ∧ n < 4294967296
  pairs : ∀ p ∈ t, p.Valid b.glyphOrder.length
  fits : p.Fits
  missing : b.glyphOrder.length ≤ p.first ∨ b.glyphOrder.length ≤ p.second

/-- The bytes of this start. -/
def badBytes (n : Nat) (t : List PairClass) (p : PairClass) : Bytes :=
  leBytes 4 n ++ (t.flatMap PairClass.bytes ++ p.bytes)

/-- Data with a pair of a glyph that does not exist, before anything else that is wrong. -/
def MissingGlyph (b : Builder) (D : Bytes) : Prop :=
  ∃ (x : EditionData) (n : Nat) (t : List PairClass) (p : PairClass), x.ValidHead b ∧ BadTable b n t p ∧
    ((x.headBytes ++ badBytes n t p <+: D) ∨
      (ValidTable b x.horz ∧ x.headBytes ++ (tableBytes x.horz ++ badBytes n t p) <+: D))

/-- The class that a table gives to two glyphs: that of the last pair for them; 0 is no class. -/
def classIn (order : List Nat) (t : List PairClass) (key : Nat × Nat) : Nat :=
  t.foldl (fun c p => if (order[p.first]?, order[p.second]?) = (some key.1, some key.2) then p.cls else c) 0

/-- Pairs keep their values and get the classes of the table; pairs that have a class now exist. -/
def Classified (order : List Nat) (t : List PairClass) (before after : GoMap (Nat × Nat) KernPair) : Prop :=
  ∀ key, after.get key = match before.get key with
    | some p => some { p with cls := classIn order t key }
    | none => if classIn order t key = 0 then none else some ⟨classIn order t key, 0⟩

/-- What loading the contents leaves. -/
structure Loaded (x : EditionData) (e e' : Editor) : Prop where
  categories : e'.categories = x.categories
  classNames : e'.classNames = x.classes.map (·.1)
  kernClasses : e'.builder.kernClasses = x.classes.map (·.2)
  horz : Classified e.builder.glyphOrder x.horz e.builder.horzKern e'.builder.horzKern
  vert : Classified e.builder.glyphOrder x.vert e.builder.vertKern e'.builder.vertKern
  conditions : e'.conditionNames = x.conditions
  others : { e'.builder with kernClasses := e.builder.kernClasses, horzKern := e.builder.horzKern,
                             vertKern := e.builder.vertKern } = e.builder

/-- There is no edition data. -/
structure NoEdition (e : Editor) : Prop where
  categories : e.categories = []
  classNames : e.classNames = []
  kernClasses : e.builder.kernClasses = []
  horz : ∀ p ∈ e.builder.horzKern, p.2.cls = 0
  vert : ∀ p ∈ e.builder.vertKern, p.2.cls = 0
  conditions : ∀ n ∈ e.conditionNames, n = []

/-- The pairs after an error: those from before keep their values and lose their classes; the others are
leftovers of glyphs that exist, with value 0. -/
def Residue (order : List Nat) (before after : GoMap (Nat × Nat) KernPair) : Prop :=
  ∀ key, match before.get key with
    | some p => after.get key = some { p with cls := 0 }
    | none => after.get key = none ∨ (after.get key = some ⟨0, 0⟩ ∧ key.1 ∈ order ∧ key.2 ∈ order)

/-- The builder has a name for each of its conditions, which are at most 254. -/
def Named (e : Editor) : Prop :=
  e.conditionNames.length = e.builder.conditions.length ∧ e.builder.conditions.length ≤ 254

/-- `wkgfnt`. -/
def editionSignature : Bytes := [119, 107, 103, 102, 110, 116]

/-- What an error leaves. -/
structure Failed (e e' : Editor) : Prop where
  none : NoEdition e'
  horz : Residue e.builder.glyphOrder e.builder.horzKern e'.builder.horzKern
  vert : Residue e.builder.glyphOrder e.builder.vertKern e'.builder.vertKern
  others : { e'.builder with kernClasses := e.builder.kernClasses, horzKern := e.builder.horzKern,
                             vertKern := e.builder.vertKern } = e.builder

end Spec
