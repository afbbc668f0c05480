import Verif.Model.Mask

/-!
# Model of `mask/encoder.go`, `mask/encoder_helper_funcs.go`, `mask/raster_fragment.go`

`applySafetyChecks` is the constant `true`. The loops that advance an index while a counter is below
a bound known on entry are modelled by recursion over the number of iterations that bound allows.
-/

namespace Mask
open Go

/-- `mask/raster_fragment.go:5-10`, `diagType`. The type has other values in Go, never constructed. -/
inductive Diag where
  | none
  | asc
  | desc
deriving DecidableEq, Repr

/-- `mask/raster_fragment.go:12-19`, `rasterFragment`; all four coordinates are inclusive. -/
structure Frag where
  minX : Int
  minY : Int
  maxX : Int
  maxY : Int
  value : UInt8
  diag : Diag := .none
deriving DecidableEq, Repr

/-- `mask/encoder_helper_funcs.go:9-11`, `getPixelIndex`. -/
def getPixelIndex (m : Img) (x y : Int) : Int :=
  (y - m.rect.y0) * m.stride + (x - m.rect.x0)

/-- The condition `cond && img.Pix[index] == value`. -/
def eqAt (m : Img) (cond : Bool) (index : Int) (value : UInt8) : Res Bool :=
  if cond then do
    let p ← m.read index
    return p == value
  else .ok false

/-- `if b { count += 1 }`. -/
def b2n (b : Bool) : Nat := if b then 1 else 0

/-- `mask/encoder_helper_funcs.go:17-28`, `countNeighbours`. -/
def countNeighbours (m : Img) (x y index : Int) (value : UInt8) : Res Nat :=
  if index ≠ getPixelIndex m x y then .panic "safety check violation" else do
    let up ← eqAt m (decide (y > m.rect.y0)) (index - m.stride) value
    let down ← eqAt m (decide (y + 1 < m.rect.y1)) (index + m.stride) value
    let left ← eqAt m (decide (x > m.rect.x0)) (index - 1) value
    let right ← eqAt m (decide (x + 1 < m.rect.x1)) (index + 1) value
    return b2n up + b2n down + b2n left + b2n right

/-- The loops of `findLine` (lines 57-60, 71-74, 82-85, 91-94): at most `n` iterations, `index` moved
by `step`; the number of iterations done. -/
def extend (m : Img) (value : UInt8) (step : Int) : Nat → Int → Res Nat
  | 0, _ => .ok 0
  | n + 1, index => do
    let p ← m.read index
    if p = value then do
      let k ← extend m value step n (index + step)
      return k + 1
    else return 0

/-- `mask/encoder_helper_funcs.go:38-97`, `findLine`. -/
def findLine (m : Img) (x y index : Int) (value : UInt8) : Res Frag :=
  if index ≠ getPixelIndex m x y then .panic "safety check violation" else do
    let p ← m.read index
    if p ≠ value then .panic "safety check violation" else
    let n ← countNeighbours m x y index value
    if n ≠ 1 then .panic "safety check violation" else
    let left ← eqAt m (decide (x > m.rect.x0)) (index - 1) value
    if left then
      let up ← eqAt m (decide (y > m.rect.y0)) (index - m.stride) value
      if up then .panic "unexpected" else
      let down ← eqAt m (decide (y + 1 < m.rect.y1)) (index + m.stride) value
      if down then .panic "unexpected" else
      let right ← eqAt m (decide (x + 1 < m.rect.x1)) (index + 1) value
      if right then .panic "unexpected" else
      let k ← extend m value (-1) (x - 1 - m.rect.x0).toNat (index - 2)
      return { minX := x - 1 - k, minY := y, maxX := x, maxY := y, value := value }
    else
    let up ← eqAt m (decide (y > m.rect.y0)) (index - m.stride) value
    if up then
      let down ← eqAt m (decide (y + 1 < m.rect.y1)) (index + m.stride) value
      if down then .panic "unexpected" else
      let right ← eqAt m (decide (x + 1 < m.rect.x1)) (index + 1) value
      if right then .panic "unexpected" else
      let k ← extend m value (-m.stride) (y - 1 - m.rect.y0).toNat (index - m.stride * 2)
      return { minX := x, minY := y - 1 - k, maxX := x, maxY := y, value := value }
    else
    let down ← eqAt m (decide (y + 1 < m.rect.y1)) (index + m.stride) value
    if down then
      let right ← eqAt m (decide (x + 1 < m.rect.x1)) (index + 1) value
      if right then .panic "unexpected" else
      let k ← extend m value m.stride (m.rect.y1 - 1 - (y + 1)).toNat (index + m.stride * 2)
      return { minX := x, minY := y, maxX := x, maxY := y + 1 + k, value := value }
    else
    let right ← eqAt m (decide (x + 1 < m.rect.x1)) (index + 1) value
    if right then
      let k ← extend m value 1 (m.rect.x1 - 1 - (x + 1)).toNat (index + 2)
      return { minX := x, minY := y, maxX := x + 1 + k, maxY := y, value := value }
    else .panic "unexpected"

/-- The loops of lines 115-122 and 136-143: are `n` pixels from `index` on equal to `value`? -/
def allEq (m : Img) (value : UInt8) (step : Int) : Nat → Int → Res Bool
  | 0, _ => .ok true
  | n + 1, index => do
    let p ← m.read index
    if p = value then allEq m value step n (index + step)
    else return false

/-- Variables of the loop of `findRect`. -/
structure RectSearch where
  maxX : Int
  maxY : Int
  width : Nat
  height : Nat
  stopDown : Bool
  stopRight : Bool
deriving DecidableEq, Repr

/-- Lines 112-130 of `findRect`: try to expand down. -/
def expandDown (m : Img) (x : Int) (value : UInt8) (s : RectSearch) : Res RectSearch :=
  if s.stopDown then .ok s else do
    let all ← allEq m value 1 s.width ((s.maxY + 1 - m.rect.y0) * m.stride + (x - m.rect.x0))
    if all then
      return { s with maxY := s.maxY + 1, height := s.height + 1,
                      stopDown := decide (s.maxY + 1 + 1 ≥ m.rect.y1) }
    else return { s with stopDown := true }

/-- Lines 132-150 of `findRect`: try to expand right. -/
def expandRight (m : Img) (y : Int) (value : UInt8) (s : RectSearch) : Res RectSearch :=
  if s.stopRight then .ok s else do
    let all ← allEq m value m.stride s.height ((y - m.rect.y0) * m.stride + (s.maxX - m.rect.x0) + 1)
    if all then
      return { s with maxX := s.maxX + 1, width := s.width + 1,
                      stopRight := decide (s.maxX + 1 + 1 ≥ m.rect.x1) }
    else return { s with stopRight := true }

/-- The loop of `findRect`, lines 111-151. -/
def searchLoop (m : Img) (x y : Int) (value : UInt8) : Nat → RectSearch → Res RectSearch
  | 0, _ => .panic "out of fuel"
  | fuel + 1, s =>
    if s.stopDown && s.stopRight then .ok s else do
      let s ← expandDown m x value s
      let s ← expandRight m y value s
      searchLoop m x y value fuel s

/-- `mask/encoder_helper_funcs.go:99-154`, `findRect`. -/
def findRect (m : Img) (x y : Int) (value : UInt8) : Res Frag := do
  let p ← m.read (getPixelIndex m x y)
  if p ≠ value then .panic "safety check violation" else
  let s ← searchLoop m x y value ((m.rect.x1 - x).toNat + (m.rect.y1 - y).toNat + 1)
    ⟨x, y, 1, 1, decide (y + 1 ≥ m.rect.y1), decide (x + 1 ≥ m.rect.x1)⟩
  return { minX := x, minY := y, maxX := s.maxX, maxY := s.maxY, value := value }

/-- The loops of `findDiagonal`, lines 178-187 (`dx = 1`) and 202-211 (`dx = -1`): at most `n`
iterations from the current end `(x, y)` at `index`; the number of iterations done. -/
def diagLoop (m : Img) (value : UInt8) (dx : Int) : Nat → Int → Int → Int → Res Nat
  | 0, _, _, _ => .ok 0
  | n + 1, x, y, index => do
    let index := index + (m.stride + dx)
    let p ← m.read index
    if p ≠ value then return 0 else do
    let c ← countNeighbours m (x + dx) (y + 1) index value
    if c ≠ 0 then return 0 else do
    let k ← diagLoop m value dx n (x + dx) (y + 1) index
    return k + 1

/-- The tests of lines 171-173 and 195-197: `maxSteps > 0` and then
`img.Pix[diagIndex] == value && countNeighbours(...) == 0`. -/
def diagStart (m : Img) (value : UInt8) (maxSteps x y index : Int) : Res Bool :=
  if ¬ maxSteps > 0 then .ok false else do
  let p ← m.read index
  if p = value then do
    let c ← countNeighbours m x y index value
    return c == 0
  else return false

/-- `mask/encoder_helper_funcs.go:160-217`, `findDiagonal`; `none` when no diagonal is found. -/
def findDiagonal (m : Img) (x y index : Int) (value : UInt8) : Res (Option Frag) :=
  if index ≠ getPixelIndex m x y then .panic "safety check violation" else do
    let p ← m.read index
    if p ≠ value then .panic "safety check violation" else do
    let n ← countNeighbours m x y index value
    if n ≠ 0 then .panic "safety check violation" else do
    let maxSteps := min (m.rect.x1 - 1 - x) (m.rect.y1 - 1 - y)
    let down ← diagStart m value maxSteps (x + 1) (y + 1) (index + m.stride + 1)
    if down then do
      let k ← diagLoop m value 1 (maxSteps - 1).toNat (x + 1) (y + 1) (index + m.stride + 1)
      return some { minX := x, minY := y, maxX := x + 1 + k, maxY := y + 1 + k, value := value,
                    diag := .desc }
    else do
      let maxSteps := min (x - m.rect.x0) (m.rect.y1 - 1 - y)
      let down ← diagStart m value maxSteps (x - 1) (y + 1) (index + m.stride - 1)
      if down then do
        let k ← diagLoop m value (-1) (maxSteps - 1).toNat (x - 1) (y + 1) (index + m.stride - 1)
        return some { minX := x - 1 - k, minY := y, maxX := x, maxY := y + 1 + k, value := value,
                      diag := .asc }
      else return none

/-! ## ClearFrom -/

/-- `n` writes of 0 from `index` on. -/
def clearRun (step : Int) : Nat → Int → Img → Res Img
  | 0, _, m => .ok m
  | n + 1, index, m => do
    let m ← m.write index 0
    clearRun step n (index + step) m

/-- Rows of lines 24-30; `y` is relative to the image. (The variable `index` is unused.) -/
def clearRows (x : Int) (w : Nat) : Nat → Int → Img → Res Img
  | 0, _, m => .ok m
  | n + 1, y, m => do
    let m ← clearRun 1 w (y * m.stride + x) m
    clearRows x w n (y + 1) m

/-- `mask/raster_fragment.go:21-48`, `ClearFrom`. -/
def clearFrom (f : Frag) (m : Img) : Res Img :=
  match f.diag with
  | .none => clearRows (f.minX - m.rect.x0) (f.maxX - f.minX + 1).toNat (f.maxY - f.minY + 1).toNat
      (f.minY - m.rect.y0) m
  | .asc => clearRun (m.stride - 1) (f.maxX + 1 - f.minX).toNat
      ((f.minY - m.rect.y0) * m.stride + (f.maxX - m.rect.x0)) m
  | .desc => clearRun (m.stride + 1) (f.maxX + 1 - f.minX).toNat
      ((f.minY - m.rect.y0) * m.stride + (f.minX - m.rect.x0)) m

/-! ## computeMaskFragments -/

/-- Working copy, fragments found so far and the bounds of the pixels left for the second pass. -/
structure Enc where
  img : Img
  frags : List Frag
  minX : Int
  minY : Int
  maxX : Int
  maxY : Int
deriving DecidableEq, Repr

/-- `f.ClearFrom(maskCopy); self.fragments = append(self.fragments, f)`. -/
def Enc.take (s : Enc) (f : Frag) : Res Enc := do
  let img ← clearFrom f s.img
  return { s with img := img, frags := s.frags ++ [f] }

/-- `mask/encoder.go:151-155`: register a pixel for the second pass. -/
def Enc.register (s : Enc) (x y : Int) : Enc :=
  { s with
    maxX := if x > s.maxX then x else s.maxX
    minX := if x < s.minX then x else s.minX
    minY := if y < s.minY then y else s.minY
    maxY := if y > s.maxY then y else s.maxY }

/-- One pixel of the first pass, `mask/encoder.go:133-160`. -/
def firstPixel (s : Enc) (x y index : Int) : Res Enc := do
  let value ← s.img.read index
  if value ≠ 0 then do
    let n ← countNeighbours s.img x y index value
    match n with
    | 0 => do
      let d ← findDiagonal s.img x y index value
      match d with
      | some diag => s.take diag
      | none => s.take { minX := x, minY := y, maxX := x, maxY := y, value := value }
    | 1 => do
      let line ← findLine s.img x y index value
      s.take line
    | 2 | 3 | 4 => return s.register x y
    | _ => .panic "broken code"
  else return s

/-- Lines 132-161: `n` pixels of a row left. -/
def firstRow (y : Int) : Nat → Int → Int → Enc → Res (Int × Enc)
  | 0, _, index, s => .ok (index, s)
  | n + 1, x, index, s => do
    let s ← firstPixel s x y index
    firstRow y n (x + 1) (index + 1) s

/-- Lines 131-163: `for index < len(maskCopy.Pix)`. -/
def firstPass : Nat → Int → Int → Enc → Res Enc
  | 0, _, _, _ => .panic "out of fuel"
  | fuel + 1, y, index, s =>
    if index < s.img.pix.length then do
      let (index, s) ← firstRow y (s.img.rect.x1 - s.img.rect.x0).toNat s.img.rect.x0 index s
      firstPass fuel (y + 1) index s
    else .ok s

/-- One pixel of the second pass, lines 176-187. -/
def secondPixel (s : Enc) (x y index : Int) : Res Enc := do
  let value ← s.img.read index
  if value ≠ 0 then do
    let n ← countNeighbours s.img x y index value
    if n = 0 then s.take { minX := x, minY := y, maxX := x, maxY := y, value := value }
    else do
      let rect ← findRect s.img x y value
      s.take rect
  else return s

/-- Lines 175-190. -/
def secondRow (y : Int) : Nat → Int → Int → Enc → Res Enc
  | 0, _, _, s => .ok s
  | n + 1, x, index, s => do
    let s ← secondPixel s x y index
    secondRow y n (x + 1) (index + 1) s

/-- Lines 172-192. -/
def secondPass (minX maxX : Int) : Nat → Int → Enc → Res Enc
  | 0, _, s => .ok s
  | n + 1, y, s => do
    let s ← secondRow y (maxX - minX + 1).toNat minX (getPixelIndex s.img minX y) s
    secondPass minX maxX n (y + 1) s

/-- `copy(dst, src)`. -/
def copyBytes (dst src : Bytes) : Bytes := src.take dst.length ++ dst.drop src.length

/-- `mask/encoder.go:120-193`, `computeMaskFragments`. -/
def computeMaskFragments (mask : Img) : Res (List Frag) := do
  let maskCopy ← newAlpha mask.rect
  let maskCopy := { maskCopy with pix := copyBytes maskCopy.pix mask.pix }
  if mask.stride ≠ maskCopy.stride then .panic "mask.Stride != maskCopy.Stride" else do
  let r := maskCopy.rect
  let s ← firstPass ((r.y1 - r.y0).toNat + 1) r.y0 0 ⟨maskCopy, [], r.x1, r.y1, r.x0, r.y0⟩
  let s := if (imageRect s.minX s.minY s.maxX s.maxY).empty then
      { s with minX := r.x0, minY := r.y0, maxX := r.x1 - 1, maxY := r.y1 - 1 } else s
  let s ← secondPass s.minX s.maxX (s.maxY - s.minY + 1).toNat s.minY s
  return s.frags

/-! ## AppendRasterOps -/

/-- `uint8(int8(d))`. -/
def int8Byte (d : Int) : UInt8 := UInt8.ofNat (d % 256).toNat

/-- The nzint8 conversion of lines 53-57 and 67-71. -/
def moveByteOf (d : Int) : UInt8 := if d > 0 then int8Byte (d - 1) else int8Byte d

/-- Variables of the encoding loop. `out` is `data`. -/
structure EncState where
  x : Int
  y : Int
  value : UInt8
  out : Bytes
deriving DecidableEq, Repr

/-- The payload: control byte and data bytes. The array `[8]byte` is not modelled: at most 6 bytes
are ever used. -/
structure Payload where
  ctrl : UInt8
  bytes : Bytes
deriving DecidableEq, Repr

def Payload.orBits (p : Payload) (b : UInt8) : Payload := { p with ctrl := p.ctrl ||| b }
def Payload.push (p : Payload) (b : UInt8) : Payload := { p with bytes := p.bytes ++ [b] }

/-- Lines 39-47: change of palette index. -/
def encPalette (f : Frag) (value : UInt8) (p : Payload) : Res Payload :=
  if f.value ≠ value then
    if f.value = 0 then .panic "broken code"
    else .ok ((p.orBits 0b0000_0001).push f.value)
  else .ok p

/-- Lines 51-60: horizontal pre-move. -/
def encHorz (xDist : Int) (p : Payload) : Res Payload :=
  if xDist ≠ 0 then
    if xDist < -128 ∨ xDist > 128 then .panic "distances > 128 unimplemented"
    else .ok ((p.orBits 0b0000_0010).push (moveByteOf xDist))
  else .ok p

/-- Lines 61-74: vertical pre-move. -/
def encVert (yDist : Int) (p : Payload) : Res Payload :=
  if yDist ≠ 0 then
    if yDist = 1 then .ok (p.orBits 0b0000_1000)
    else if yDist < -128 ∨ yDist > 128 then .panic "distances > 128 unimplemented"
    else .ok ((p.orBits 0b0000_0100).push (moveByteOf yDist))
  else .ok p

/-- `if n > 256 { panic }; payload[payloadSize] = uint8(n - 1); payloadSize += 1` with the given
control bit, e.g. lines 83-86. -/
def encLen (bit : UInt8) (n : Int) (p : Payload) : Res Payload :=
  if n > 256 then .panic "draw distances > 256 unimplemented"
  else .ok ((p.orBits bit).push (int8Byte (n - 1)))

/-- Lines 77-107: draw sizes. -/
def encDraw (f : Frag) (p : Payload) : Res Payload :=
  let xDraw := f.maxX + 1 - f.minX
  let yDraw := f.maxY + 1 - f.minY
  if xDraw = 1 ∧ yDraw = 1 then .ok (p.orBits 0b1000_0000)
  else if f.diag ≠ .none then do
    let p := p.orBits 0b0001_0000
    let p ← (if xDraw > 0 then encLen 0b0010_0000 xDraw p else .ok p)
    return (if f.diag = .asc then p.orBits 0b0100_0000 else p)
  else if xDraw > 0 ∧ (xDraw > 1 ∨ yDraw ≤ 1) then do
    let yDraw := if yDraw = 1 then 0 else yDraw
    let p ← encLen 0b0010_0000 xDraw p
    if yDraw > 0 then encLen 0b0100_0000 yDraw p else return p
  else if yDraw > 0 then encLen 0b0100_0000 yDraw p
  else return p

/-- One iteration of the loop of lines 34-115. -/
def encStep (f : Frag) (s : EncState) : Res EncState := do
  let p ← encPalette f s.value ⟨0, []⟩
  let xDist := f.minX - s.x
  let yDist := f.minY - s.y
  let p ← encHorz xDist p
  let p ← encVert yDist p
  let p ← encDraw f p
  return ⟨s.x + xDist + (f.maxX + 1 - f.minX), s.y + yDist, f.value, s.out ++ p.ctrl :: p.bytes⟩

/-- Lines 34-115. -/
def encLoop : List Frag → EncState → Res EncState
  | [], s => .ok s
  | f :: fs, s => do
    let s ← encStep f s
    encLoop fs s

/-- `mask/encoder.go:10-118`, `AppendRasterOps`. `ord` is the result of `sort.Slice`, of which only
that it is a permutation will be assumed. -/
def appendRasterOps (ord : List Frag → List Frag) (data : Bytes) (mask : Img) : Res Bytes := do
  let frags ← computeMaskFragments mask
  if frags.length = 0 then return data
  else do
    let s ← encLoop (ord frags) ⟨0, 0, 255, data⟩
    return s.out

end Mask
