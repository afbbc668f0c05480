import Verif.Model.Builder
import Verif.Model.ParseBuf

/-!
# Model of the edition data of `builder/font_builder.go`

`ParseEditionData` changes the builder while it reads, and the changes made before an error stay, but
for what `ClearEditionData` takes back. So programs return the builder also when they fail.
-/

namespace ParseBuf.Prog

/-- Go on after an error: the result is the value or the message. -/
def attempt {α : Type} : Prog α → Prog (Except String α)
  | ret a => ret (.ok a)
  | fail m => ret (.error m)
  | panic m => panic m
  | take n h k => take n (fun m => (h m).attempt) (fun b => (k b).attempt)
  | index k => index (fun i => (k i).attempt)
  | sync k => sync (fun u => (k u).attempt)
  | query v k => query v (fun b => (k b).attempt)

end ParseBuf.Prog

namespace EditionModel
open Go ParseBuf ParseBuf.Prog BuilderModel

/-- The builder together with the edition data that `Builder` leaves out: categories (name and size),
names of kerning classes (the values are `kernClasses`), names of conditions. -/
structure Editor where
  builder : Builder
  categories : List (Bytes × Nat) := []
  classNames : List Bytes := []
  conditionNames : List Bytes := []
deriving DecidableEq, Repr

/-- Set the classes of all pairs to zero. -/
def clearClasses (pairs : GoMap (Nat × Nat) KernPair) : GoMap (Nat × Nat) KernPair :=
  pairs.map fun e => (e.1, { e.2 with cls := 0 })

/-- `builder/font_builder.go:823-835`, `ClearEditionData`. -/
def clearEditionData (e : Editor) : Editor :=
  { builder := { e.builder with kernClasses := [], horzKern := clearClasses e.builder.horzKern,
                                vertKern := clearClasses e.builder.vertKern }
    categories := [], classNames := [], conditionNames := e.conditionNames.map fun _ => [] }

/-- A part of the method: reads, changes the builder, and possibly returns an error. -/
abbrev Ed (α : Type) := Editor → Prog (Except String α × Editor)

namespace Ed

/-- Sequencing: `if err != nil { return err }`. -/
def bind {α β : Type} (p : Ed α) (f : α → Ed β) : Ed β := fun e =>
  (p e).bind fun r =>
    match r with
    | (.ok a, e) => f a e
    | (.error m, e) => .ret (.error m, e)

instance : Monad Ed where
  pure a := fun e => .ret (.ok a, e)
  bind := bind

/-- A read of the parsing buffer. -/
def lift {α : Type} (p : Prog α) : Ed α := fun e => p.attempt.bind fun r => .ret (r, e)

/-- Return an error. -/
def error {α : Type} (m : String) : Ed α := fun e => .ret (.error m, e)

/-- A panic. -/
def panic {α : Type} (m : String) : Ed α := fun _ => .panic m

/-- The current builder. -/
def get : Ed Editor := fun e => .ret (.ok e, e)

/-- Change the builder. -/
def modify (f : Editor → Editor) : Ed Unit := fun e => .ret (.ok (), f e)

/-- A value or panic computed without reading. -/
def ofRes {α : Type} : Res α → Ed α
  | .ok a => pure a
  | .err m => error m
  | .panic m => panic m

/-- `n` times (the index of the round counts up from `i`). -/
def loop : (n i : Nat) → (Nat → Ed Unit) → Ed Unit
  | 0, _, _ => pure ()
  | n + 1, i, f => do
    f i
    loop n (i + 1) f

end Ed

open Ed

/-- A name: `ReadShortStr` and `ValidateBasicSpacedName`. -/
def readName : Ed Bytes := do
  let name ← lift readShortStr
  Ed.ofRes (Names.validateBasicSpacedName name)
  return name

/-- `font_builder.go:720-726`, one name of a category. -/
def categoryName (_ : Nat) : Ed Unit := do
  let name ← readName
  modify fun e => { e with categories := e.categories ++ [(name, 0)] }

/-- `font_builder.go:727-731`, one size of a category. -/
def categorySize (i : Nat) : Ed Unit := do
  let size ← lift readUint16
  let e ← get
  if e.categories.length ≤ i then Ed.panic "index out of range" else
  modify fun e => { e with categories := e.categories.modify i fun c => (c.1, size) }

/-- `font_builder.go:735-741`, one name of a kerning class. -/
def className (_ : Nat) : Ed Unit := do
  let name ← readName
  modify fun e => { e with classNames := e.classNames ++ [name],
                           builder := { e.builder with kernClasses := e.builder.kernClasses ++ [0] } }

/-- `font_builder.go:742-746`, one value of a kerning class. -/
def classValue (i : Nat) : Ed Unit := do
  let value ← lift readInt8
  let e ← get
  if e.builder.kernClasses.length ≤ i then Ed.panic "index out of range" else
  modify fun e => { e with builder :=
    { e.builder with kernClasses := e.builder.kernClasses.modify i fun _ => value } }

/-- `font_builder.go:763-768` and `786-791`: the pair gets the class; a missing pair is added. -/
def setClass (pairs : GoMap (Nat × Nat) KernPair) (key : Nat × Nat) (cls : Nat) :
    GoMap (Nat × Nat) KernPair :=
  match pairs.get key with
  | some p => pairs.set key { p with cls := cls }
  | none => pairs.set key ⟨cls, 0⟩

/-- `font_builder.go:750-769` and `773-792`, one pair of a table. -/
def kernPair (update : (GoMap (Nat × Nat) KernPair → GoMap (Nat × Nat) KernPair) → Builder → Builder)
    (_ : Nat) : Ed Unit := do
  let first ← lift readUint16
  let second ← lift readUint16
  let cls ← lift readUint16
  if cls = 0 then error "kerning pair class can't be zero" else
  let e ← get
  let u ← Ed.ofRes (idx e.builder.glyphOrder first)
  let v ← Ed.ofRes (idx e.builder.glyphOrder second)
  modify fun e => { e with builder := update (fun pairs => setClass pairs (u, v) cls) e.builder }

/-- Change the horizontal pairs. -/
def onHorz (f : GoMap (Nat × Nat) KernPair → GoMap (Nat × Nat) KernPair) (b : Builder) : Builder :=
  { b with horzKern := f b.horzKern }
/-- Change the vertical pairs. -/
def onVert (f : GoMap (Nat × Nat) KernPair → GoMap (Nat × Nat) KernPair) (b : Builder) : Builder :=
  { b with vertKern := f b.vertKern }

/-- `font_builder.go:805-811`, one name of a condition. -/
def conditionName (i : Nat) : Ed Unit := do
  let name ← readName
  let e ← get
  if e.conditionNames.length ≤ i then Ed.panic "index out of range" else
  modify fun e => { e with conditionNames := e.conditionNames.set i name }

/-- `font_builder.go:712-811`: the decompressed data. -/
def editionBody : Ed Unit := do
  let id ← lift readUint64
  let e ← get
  if id ≠ e.builder.fontID.toNat then error "edition data doesn't match current font ID" else
  let numCategories ← lift readUint8
  loop numCategories 0 categoryName
  loop numCategories 0 categorySize
  let numClasses ← lift readUint16
  loop numClasses 0 className
  loop numClasses 0 classValue
  let numHorz ← lift readUint32
  loop numHorz 0 (kernPair onHorz)
  let numVert ← lift readUint32
  loop numVert 0 (kernPair onVert)
  let numConditions ← lift readUint8
  if numConditions = 255 then error "ConditionNames must have at most 254 elements" else
  let e ← get
  if numConditions ≠ e.builder.conditions.length then
    if e.builder.conditions.length > 254 then Ed.panic "invalid internal state"
    else error "ConditionNames expected to have another number of elements"
  else loop numConditions 0 conditionName

/-- `font_builder.go:712-820` on the decompressed data, with the deferred `ClearEditionData`: the error
(`none` is nil) and the builder. -/
def parseEditionStream (junk : Nat → UInt8) (r : Reader) (e : Editor) : Res (Option String × Editor) := do
  let ((x, e), s) ← (editionBody e).exec junk (PBuf.init r)
  match x with
  | .error m => return (some m, clearEditionData e)
  | .ok _ => do
    let (eof, _) ← ensureEOF junk s
    match eof with
    | some m => return (some m, clearEditionData e)
    | none => return (none, e)

/-- `font_builder.go:689-821`, `ParseEditionData`. `sig` is the result of the first `Read`, `gz` what
`gzip.NewReader` makes of the rest. -/
def parseEditionData (junk : Nat → UInt8) (sig : Ev) (gz : Res Reader) (e : Editor) :
    Res (Option String × Editor) :=
  let e := clearEditionData e
  if sig.status ≠ .nil ∨ sig.bytes.length ≠ 6 then
    .ok (some "failed to read file signature", clearEditionData e)
  else if sig.bytes ≠ [119, 107, 103, 102, 110, 116] then .ok (some "invalid signature", clearEditionData e)
  else match gz with
    | .err m => .ok (some m, clearEditionData e)
    | .panic m => .panic m
    | .ok r => parseEditionStream junk r e

end EditionModel
