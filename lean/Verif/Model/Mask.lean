import Verif.Go

/-!
# Model of the package `mask`: `image.Alpha`, `rasterize.go`, `compute_rect.go`

Coordinates are Go `int`s, modelled as unbounded `Int`; the theorems bound them where this matters.
-/

namespace Mask
open Go

/-- `image.Rectangle`: `x0 ≤ x < x1`, `y0 ≤ y < y1`. -/
structure Rect where
  x0 : Int
  y0 : Int
  x1 : Int
  y1 : Int
deriving DecidableEq, Repr

/-- `image.Rectangle.Empty`. -/
def Rect.empty (r : Rect) : Bool := decide (r.x0 ≥ r.x1) || decide (r.y0 ≥ r.y1)

/-- `image.Rect`: swaps coordinates that are out of order. -/
def imageRect (x0 y0 x1 y1 : Int) : Rect :=
  ⟨if x0 > x1 then x1 else x0, if y0 > y1 then y1 else y0,
   if x0 > x1 then x0 else x1, if y0 > y1 then y0 else y1⟩

/-- `image.Alpha`. -/
structure Img where
  rect : Rect
  stride : Int
  pix : Bytes
deriving DecidableEq, Repr

/-- `img.Pix[index]`. -/
def Img.read (img : Img) (index : Int) : Res UInt8 :=
  if 0 ≤ index then idx img.pix index.toNat else .panic "index out of range"

/-- `img.Pix[index] = v`. -/
def Img.write (img : Img) (index : Int) (v : UInt8) : Res Img :=
  if 0 ≤ index then do
    let pix ← setAt img.pix index.toNat v
    return { img with pix := pix }
  else .panic "index out of range"

/-- `image.NewAlpha`: zeroed pixels; panics on negative dimensions or when the size overflows an
`int`. (Running out of memory is not modelled.) -/
def newAlpha (r : Rect) : Res Img :=
  let w := r.x1 - r.x0
  let h := r.y1 - r.y0
  if w < 0 ∨ h < 0 ∨ w * h ≥ 2 ^ 63 then
    .panic "image: NewAlpha Rectangle has huge or negative dimensions"
  else .ok ⟨r, w, List.replicate (w * h).toNat 0⟩

/-- `(*image.Alpha).SetAlpha`: ignores points outside the rectangle. -/
def Img.setAlpha (img : Img) (x y : Int) (v : UInt8) : Res Img :=
  if img.rect.x0 ≤ x ∧ x < img.rect.x1 ∧ img.rect.y0 ≤ y ∧ y < img.rect.y1 then
    img.write ((y - img.rect.y0) * img.stride + (x - img.rect.x0)) v
  else .ok img

/-- `(*image.Alpha).AlphaAt`: 0 outside the rectangle, else the pixel value. (A missing pixel of an
ill-formed image, which panics in Go, is read as 0: the theorems state well-formedness.) -/
def Img.alphaAt (img : Img) (x y : Int) : UInt8 :=
  if img.rect.x0 ≤ x ∧ x < img.rect.x1 ∧ img.rect.y0 ≤ y ∧ y < img.rect.y1 then
    img.pix.getD ((y - img.rect.y0) * img.stride + (x - img.rect.x0)).toNat 0
  else 0

/-! ## rasterize.go -/

/-- `ctrl & mask != 0`. -/
def flag (ctrl : UInt8) (mask : UInt8) : Bool := ctrl &&& mask != 0

/-- `mask/rasterize.go:245-251`, `nzint8AsInt`. -/
def nzint8AsInt (value : UInt8) : Int :=
  if value ≥ 128 then (value.toNat : Int) - 256 else (value.toNat : Int) + 1

/-- The pattern `if flag { index += 1; if index >= len(rasterOps) { return ..., ErrUnexpected... };
... rasterOps[index] ... }`, e.g. lines 43-47: the new index and the byte read. -/
def optByte (ops : Bytes) (index : Nat) (present : Bool) : Res (Nat × Option UInt8) :=
  if present then
    if index + 1 ≥ ops.length then .err "unexpected raster data termination"
    else do
      let b ← idx ops (index + 1)
      return (index + 1, some b)
  else .ok (index, none)

/-- Effect of an optional pre-move byte, e.g. lines 49-53. -/
def addMove (base : Int) : Option UInt8 → Int
  | some b => base + nzint8AsInt b
  | none => base

/-- `math.MaxInt`. -/
def maxInt : Int := 2 ^ 63 - 1
/-- `math.MinInt`. -/
def minInt : Int := -2 ^ 63

/-- Loop variables of `computeRasterOpsRect`. -/
structure RectState where
  index : Nat
  x : Int
  y : Int
  rect : Rect
deriving DecidableEq, Repr

/-- The bound updates of lines 192-196 and 225-229: `x`, `y` before the draw, `xInc`, `yInc`. -/
def growRect (r : Rect) (x y xInc yInc : Int) : Rect :=
  ⟨if x < r.x0 then x else r.x0, if y < r.y0 then y else r.y0,
   if x + xInc > r.x1 then x + xInc else r.x1, if y + yInc > r.y1 then y + yInc else r.y1⟩

/-- One iteration of the loop of `computeRasterOpsRect`, lines 152-231 (up to the final index
increment). -/
def rectStep (ops : Bytes) (s : RectState) : Res RectState := do
  let ctrl ← idx ops s.index
  let (index, _) ← optByte ops s.index (flag ctrl 0b00000001)
  let (index, h) ← optByte ops index (flag ctrl 0b00000010)
  let x := addMove s.x h
  let (index, v) ← optByte ops index (flag ctrl 0b00000100)
  let y := addMove s.y v
  if flag ctrl 0b00001000 && flag ctrl 0b00000100 then .err "incompatible row advance" else
  let y := if flag ctrl 0b00001000 then y + 1 else y
  if flag ctrl 0b00010000 then
    if flag ctrl 0b10000000 then .err "diagonal single pix draw"
    else if !flag ctrl 0b00100000 then .err "superfluous diagonal"
    else
      let (index, l) ← optByte ops index true
      match l with
      | none => .panic "unreachable"
      | some b =>
        let diagonalLen : Int := b.toNat + 1
        return ⟨index, x + diagonalLen, y, growRect s.rect x y diagonalLen diagonalLen⟩
  else
    let (index, hl) ← optByte ops index (flag ctrl 0b00100000)
    let (index, vl) ← optByte ops index (flag ctrl 0b01000000)
    -- xInc, yInc, draws after lines 199-215
    let (xInc, yInc, draws) : Int × Int × Bool := match hl, vl with
      | none, none => (0, 0, false)
      | some b, none => (b.toNat + 1, 1, true)
      | none, some b => (1, b.toNat + 1, true)
      | some b, some c => (b.toNat + 1, c.toNat + 1, true)
    if flag ctrl 0b10000000 && draws then .err "incompatible single pix draw" else
    let (xInc, yInc, draws) : Int × Int × Bool :=
      if flag ctrl 0b10000000 then (1, 1, true) else (xInc, yInc, draws)
    if draws then
      return ⟨index, x + xInc, y, growRect s.rect x y xInc yInc⟩
    else return ⟨index, x, y, s.rect⟩

/-- The loop of `computeRasterOpsRect`, lines 151-238. -/
def rectLoop (ops : Bytes) : Nat → RectState → Res Rect
  | 0, _ => .panic "out of fuel"
  | fuel + 1, s => do
    let s ← rectStep ops s
    if s.index + 1 = ops.length then return s.rect
    else rectLoop ops fuel { s with index := s.index + 1 }

/-- `mask/rasterize.go:145-241`, `computeRasterOpsRect`. -/
def computeRasterOpsRect (ops : Bytes) : Res Rect :=
  let rect : Rect := ⟨maxInt, maxInt, minInt, minInt⟩
  if ops.length = 0 then .ok rect
  else rectLoop ops (ops.length + 1) ⟨0, 0, 0, rect⟩

/-- Ascending diagonal, lines 82-87: `n` iterations left, `y` already lowered. -/
def drawAsc (v : UInt8) : Nat → Img → Int → Int → Res Img
  | 0, m, _, _ => .ok m
  | n + 1, m, x, y => do
    let m ← m.setAlpha x (y - 1) v
    drawAsc v n m (x + 1) (y - 1)

/-- Descending diagonal, lines 90-94. -/
def drawDesc (v : UInt8) : Nat → Img → Int → Int → Res Img
  | 0, m, _, _ => .ok m
  | n + 1, m, x, y => do
    let m ← m.setAlpha x y v
    drawDesc v n m (x + 1) (y + 1)

/-- Lines 125-127: one row of a rectangle. -/
def drawRow (v : UInt8) (x y : Int) : Nat → Nat → Img → Res Img
  | 0, _, m => .ok m
  | n + 1, i, m => do
    let m ← m.setAlpha (x + i) y v
    drawRow v x y n (i + 1) m

/-- Lines 124-128: the rows of a rectangle. -/
def drawRect (v : UInt8) (x y : Int) (xInc : Nat) : Nat → Nat → Img → Res Img
  | 0, _, m => .ok m
  | n + 1, j, m => do
    let m ← drawRow v x (y + j) xInc 0 m
    drawRect v x y xInc n (j + 1) m

/-- Loop variables of `Rasterize`. -/
structure DrawState where
  index : Nat
  paletteIndex : UInt8
  x : Int
  y : Int
  mask : Img
deriving DecidableEq, Repr

/-- One iteration of the loop of `Rasterize`, lines 42-131. -/
def drawStep (ops : Bytes) (s : DrawState) : Res DrawState := do
  let ctrl ← idx ops s.index
  let (index, p) ← optByte ops s.index (flag ctrl 0b00000001)
  let paletteIndex := p.getD s.paletteIndex
  let (index, h) ← optByte ops index (flag ctrl 0b00000010)
  let x := addMove s.x h
  let (index, v) ← optByte ops index (flag ctrl 0b00000100)
  let y := addMove s.y v
  if flag ctrl 0b00001000 && flag ctrl 0b00000100 then .err "incompatible row advance" else
  let y := if flag ctrl 0b00001000 then y + 1 else y
  if flag ctrl 0b00010000 then
    if flag ctrl 0b10000000 then .err "diagonal single pix draw"
    else if !flag ctrl 0b00100000 then .err "superfluous diagonal"
    else
      let (index, l) ← optByte ops index true
      match l with
      | none => .panic "unreachable"
      | some b =>
        let diagonalLen : Nat := b.toNat + 1
        if flag ctrl 0b01000000 then
          -- lines 82-87; y is back to its value after the loop
          let m ← drawAsc paletteIndex diagonalLen s.mask x (y + diagonalLen)
          return ⟨index, paletteIndex, x + diagonalLen, y + diagonalLen - diagonalLen, m⟩
        else
          let m ← drawDesc paletteIndex diagonalLen s.mask x y
          return ⟨index, paletteIndex, x + diagonalLen, y + diagonalLen - diagonalLen, m⟩
  else
    let (index, hl) ← optByte ops index (flag ctrl 0b00100000)
    let (index, vl) ← optByte ops index (flag ctrl 0b01000000)
    let (xInc, yInc, draws) : Nat × Nat × Bool := match hl, vl with
      | none, none => (0, 0, false)
      | some b, none => (b.toNat + 1, 1, true)
      | none, some b => (1, b.toNat + 1, true)
      | some b, some c => (b.toNat + 1, c.toNat + 1, true)
    if flag ctrl 0b10000000 && draws then .err "incompatible single pix draw" else
    let (xInc, yInc, draws) : Nat × Nat × Bool :=
      if flag ctrl 0b10000000 then (1, 1, true) else (xInc, yInc, draws)
    if draws then
      let m ← drawRect paletteIndex x y xInc yInc 0 s.mask
      return ⟨index, paletteIndex, x + xInc, y, m⟩
    else return ⟨index, paletteIndex, x, y, s.mask⟩

/-- The loop of `Rasterize`, lines 41-138. -/
def drawLoop (ops : Bytes) : Nat → DrawState → Res Img
  | 0, _ => .panic "out of fuel"
  | fuel + 1, s => do
    let s ← drawStep ops s
    if s.index + 1 = ops.length then return s.mask
    else drawLoop ops fuel { s with index := s.index + 1 }

/-- `mask/rasterize.go:29-141`, `Rasterize`. `none` is the nil mask. -/
def rasterize (ops : Bytes) : Res (Option Img) := do
  let rect ← computeRasterOpsRect ops
  if rect.empty then return none
  let mask ← newAlpha rect
  let m ← drawLoop ops (ops.length + 1) ⟨0, 255, 0, 0, mask⟩
  return some m

/-! ## compute_rect.go -/

/-- `minX, maxX, minY, maxY` of `ComputeRect`. -/
structure Bounds where
  minX : Int
  maxX : Int
  minY : Int
  maxY : Int
deriving DecidableEq, Repr

/-- Lines 15-23: the inner loop over one row, `n` pixels left. -/
def scanRow (m : Img) : Nat → Int → Int → Bool → Bounds → Res (Bool × Bounds)
  | 0, _, _, active, b => .ok (active, b)
  | n + 1, x, index, active, b => do
    let value ← m.read index
    if value ≠ 0 then
      scanRow m n (x + 1) (index + 1) true
        { b with minX := if x < b.minX then x else b.minX, maxX := if x > b.maxX then x else b.maxX }
    else scanRow m n (x + 1) (index + 1) active b

/-- Lines 12-30: the outer loop, `n` rows left. -/
def scanRows (m : Img) : Nat → Int → Bool → Bounds → Res (Bool × Bounds)
  | 0, _, empty, b => .ok (empty, b)
  | n + 1, y, empty, b => do
    let index := (y - m.rect.y0) * m.stride
    let (active, b) ← scanRow m (m.rect.x1 - m.rect.x0).toNat m.rect.x0 index false b
    if active then
      scanRows m n (y + 1) false
        { b with minY := if y < b.minY then y else b.minY, maxY := if y > b.maxY then y else b.maxY }
    else scanRows m n (y + 1) empty b

/-- `mask/compute_rect.go:5-34`, `ComputeRect`. -/
def computeRect (m : Img) : Res Rect := do
  let b : Bounds := ⟨m.rect.x1 + 1, m.rect.x0 - 1, m.rect.y1 + 1, m.rect.y0 - 1⟩
  let (empty, b) ← scanRows m (m.rect.y1 - m.rect.y0).toNat m.rect.y0 true b
  if empty then return ⟨0, 0, 0, 0⟩
  return imageRect b.minX b.minY (b.maxX + 1) (b.maxY + 1)

end Mask
