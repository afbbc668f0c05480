/-!
# Specification of the raster command format

Commands, their byte encoding and what they draw, written without the model.
-/

namespace Spec.Raster

/-- Vertical pre-move. -/
inductive Vert where
  | none
  /-- down one row, no data -/
  | row
  /-- `d` rows down (up if negative) -/
  | move (d : Int)
deriving DecidableEq, Repr

/-- What a command draws. -/
inductive Draw where
  | none
  | pixel
  /-- horizontal line of `n` pixels -/
  | horz (n : Nat)
  /-- vertical line of `n` pixels -/
  | vert (n : Nat)
  | rect (w h : Nat)
  /-- diagonal of `n` pixels, ascending or descending -/
  | diag (asc : Bool) (n : Nat)
deriving DecidableEq, Repr

/-- A command: optional new palette index, optional horizontal pre-move, vertical pre-move, draw. -/
structure Cmd where
  palette : Option UInt8
  horz : Option Int
  vert : Vert
  draw : Draw
deriving DecidableEq, Repr

/-- Non-zero displacements that fit one byte. -/
def ValidMove (d : Int) : Prop := -128 ≤ d ∧ d ≤ 128 ∧ d ≠ 0

/-- Lengths that fit one byte. -/
def ValidLen (n : Nat) : Prop := 1 ≤ n ∧ n ≤ 256

def Draw.Valid : Draw → Prop
  | .none => True
  | .pixel => True
  | .horz n => ValidLen n
  | .vert n => ValidLen n
  | .rect w h => ValidLen w ∧ ValidLen h
  | .diag _ n => ValidLen n

def Vert.Valid : Vert → Prop
  | .move d => ValidMove d
  | _ => True

def Cmd.Valid (c : Cmd) : Prop :=
  (∀ d, c.horz = some d → ValidMove d) ∧ c.vert.Valid ∧ c.draw.Valid

/-- Byte of a non-zero displacement: `1..128` are `0..127`, `-128..-1` are `128..255`. -/
def moveByte (d : Int) : UInt8 := UInt8.ofNat (if 0 < d then d - 1 else d + 256).toNat

/-- Byte of a non-zero length. -/
def lenByte (n : Nat) : UInt8 := UInt8.ofNat (n - 1)

/-- Control bits of a draw. -/
def Draw.bits : Draw → Nat
  | .none => 0
  | .pixel => 128
  | .horz _ => 32
  | .vert _ => 64
  | .rect _ _ => 32 + 64
  | .diag false _ => 16 + 32
  | .diag true _ => 16 + 32 + 64

def Draw.bytes : Draw → List UInt8
  | .none => []
  | .pixel => []
  | .horz n => [lenByte n]
  | .vert n => [lenByte n]
  | .rect w h => [lenByte w, lenByte h]
  | .diag _ n => [lenByte n]

def Vert.bits : Vert → Nat
  | .none => 0
  | .row => 8
  | .move _ => 4

def Vert.bytes : Vert → List UInt8
  | .move d => [moveByte d]
  | _ => []

/-- The control byte. -/
def Cmd.ctrl (c : Cmd) : UInt8 :=
  UInt8.ofNat ((if c.palette.isSome then 1 else 0) + (if c.horz.isSome then 2 else 0) + c.vert.bits
    + c.draw.bits)

/-- Encoding of a command: control byte, then the data in this order. -/
def Cmd.bytes (c : Cmd) : List UInt8 :=
  c.ctrl :: (c.palette.toList ++ ((c.horz.map moveByte).toList ++ (c.vert.bytes ++ c.draw.bytes)))

/-- Encoding of a sequence of commands. -/
def encode (cmds : List Cmd) : List UInt8 := cmds.flatMap Cmd.bytes

/-- Drawing position and palette index. -/
structure Cursor where
  x : Int
  y : Int
  value : UInt8

/-- Start: origin, palette index 255. -/
def Cursor.start : Cursor := ⟨0, 0, 255⟩

def Vert.delta : Vert → Int
  | .none => 0
  | .row => 1
  | .move d => d

/-- Cursor after the pre-moves. -/
def Cmd.pre (c : Cmd) (k : Cursor) : Cursor :=
  ⟨k.x + c.horz.getD 0, k.y + c.vert.delta, c.palette.getD k.value⟩

def rectPoints (x y : Int) (w h : Nat) : List (Int × Int) :=
  (List.range h).flatMap fun (j : Nat) => (List.range w).map fun (i : Nat) => (x + (i : Int), y + (j : Int))

/-- Points drawn with the cursor at `(x, y)`, in drawing order. -/
def Draw.points (x y : Int) : Draw → List (Int × Int)
  | .none => []
  | .pixel => [(x, y)]
  | .horz n => rectPoints x y n 1
  | .vert n => rectPoints x y 1 n
  | .rect w h => rectPoints x y w h
  | .diag false n => (List.range n).map fun (i : Nat) => (x + (i : Int), y + (i : Int))
  | .diag true n => (List.range n).map fun (i : Nat) => (x + (i : Int), y + ((n : Int) - 1 - i))

/-- Horizontal advance of the cursor. -/
def Draw.advance : Draw → Nat
  | .none => 0
  | .pixel => 1
  | .horz n => n
  | .vert _ => 1
  | .rect w _ => w
  | .diag _ n => n

def Cmd.post (c : Cmd) (k : Cursor) : Cursor :=
  let k' := c.pre k
  { k' with x := k'.x + c.draw.advance }

/-- Pixel writes `(x, y, value)` of one command. -/
def Cmd.writes (c : Cmd) (k : Cursor) : List (Int × Int × UInt8) :=
  let k' := c.pre k
  (c.draw.points k'.x k'.y).map fun p => (p.1, p.2, k'.value)

/-- Pixel writes of a sequence of commands, in order. -/
def writes (k : Cursor) : List Cmd → List (Int × Int × UInt8)
  | [] => []
  | c :: cs => c.writes k ++ writes (c.post k) cs

/-- Final value of a pixel: the last write there, or 0. -/
def colorAt (ws : List (Int × Int × UInt8)) (x y : Int) : UInt8 :=
  ws.foldl (fun v w => if w.1 = x ∧ w.2.1 = y then w.2.2 else v) 0

/-- `x0 ≤ x < x1`, `y0 ≤ y < y1` is the smallest rectangle that contains all the points. -/
def TightBox (pts : List (Int × Int)) (x0 y0 x1 y1 : Int) : Prop :=
  (∀ p ∈ pts, x0 ≤ p.1 ∧ p.1 < x1 ∧ y0 ≤ p.2 ∧ p.2 < y1) ∧
  (∃ p ∈ pts, p.1 = x0) ∧ (∃ p ∈ pts, p.1 = x1 - 1) ∧ (∃ p ∈ pts, p.2 = y0) ∧
  (∃ p ∈ pts, p.2 = y1 - 1)

end Spec.Raster
