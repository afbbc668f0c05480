import Verif.Model.Font

/-!
# Model of the conditions, rules and sets of `font.go:957-1263`

Simplifications. Offsets are `uint32` in the code and at most a few times the size of the data, so that
nothing wraps; they are `Nat` here. The functions that take a callback return the list of the values
they pass to it, for a callback that never returns an error. The recursion over subexpressions moves
forward in the data on every call: it is modelled with fuel, and `C28.fuel_enough` shows that the fuel
never runs out.
-/

namespace FontModel
open Go Helpers

namespace Font

/-! ## Conditions -/

/-- The loops of `font.go:1072-1075` and `1080-1083`, with `n` terms left. -/
def skipTerms (skip : Nat → Res Nat) (maxIndex : Nat) : (n index : Nat) → Res Nat
  | 0, i => .ok i
  | n + 1, i => do
    let i ← skip i
    if i > maxIndex then .panic "invalid font data" else
    skipTerms skip maxIndex n i

/-- `font.go:1064-1115`, `skipConditionSubexpr`. -/
def skipSub (data : Bytes) (maxIndex numSettings : Nat) : (fuel index : Nat) → Res Nat
  | 0, _ => .panic "out of fuel"
  | fuel + 1, i => do
    if i > maxIndex then .panic "invalid font data" else
    let ctrl ← rd8 data i
    let mode := ctrl &&& 0b11100000
    if mode = 0b00000000 then
      skipTerms (skipSub data maxIndex numSettings fuel) maxIndex (ctrl &&& 0b00011111) (i + 1)
    else if mode = 0b00100000 then
      skipTerms (skipSub data maxIndex numSettings fuel) maxIndex (ctrl &&& 0b00011111) (i + 1)
    else if mode = 0b01000000 then
      let a ← rd8 data (i + 1)
      if a > numSettings then .panic "invalid font data" else
      let b ← (if ctrl &&& 0b00010000 = 0 then rd8 data (i + 2) else .ok 0)
      if ctrl &&& 0b00010000 = 0 ∧ b > numSettings then .panic "invalid font data" else
      if ctrl &&& 0b00001111 ≤ 5 then return i + 3 else .panic "invalid font data"
    else if mode = 0b01100000 ∨ mode = 0b10000000 ∨ mode = 0b10100000 ∨ mode = 0b11000000 then
      let a ← rd8 data (i + 1)
      if a > numSettings then .panic "invalid font data" else
      return i + 2
    else .panic "invalid font data"

/-- The loops of lines 996-999 and 1013-1016: the term just evaluated is counted again. -/
def skipRest (skip : Nat → Res Nat) : (n index : Nat) → Res Nat
  | 0, i => .ok i
  | n + 1, i => do
    let i ← skip i
    skipRest skip n i

/-- The loops of lines 990-1003 (`stop` is true) and 1007-1020 (`stop` is false), with `n` terms
left. -/
def evalTerms (eval : Nat → Res (Nat × Bool)) (skip : Nat → Res Nat) (maxIndex : Nat) (stop : Bool) :
    (n index : Nat) → Res (Nat × Bool)
  | 0, i => .ok (i, !stop)
  | n + 1, i => do
    let (i, satisfied) ← eval i
    if i > maxIndex then .panic "invalid font data" else
    if satisfied = stop then
      let i ← skipRest skip (n + 1) i
      return (i, stop)
    else evalTerms eval skip maxIndex stop n i

/-- The operators of lines 1029-1038. -/
def compare (op a b : Nat) : Res Bool :=
  if op = 0 then .ok (a == b)
  else if op = 1 then .ok (a != b)
  else if op = 2 then .ok (decide (a < b))
  else if op = 3 then .ok (decide (a > b))
  else if op = 4 then .ok (decide (a ≤ b))
  else if op = 5 then .ok (decide (a ≥ b))
  else .panic "invalid font data"

/-- The quick comparisons of lines 1039-1061, after the control byte at `i`. -/
def quickCompare (data : Bytes) (settings : List Nat) (i op const : Nat) : Res (Nat × Bool) := do
  let k ← rd8 data (i + 1)
  if k > settings.length then .panic "invalid font data" else
  let v ← idx settings k
  let r ← compare op v const
  return (i + 2, r)

/-- `font.go:982-1062`, `evalConditionSubexpr`. The comparisons of lines 1021-1038 look at the index
of the left setting. -/
def evalSub (data : Bytes) (maxIndex : Nat) (settings : List Nat) :
    (fuel index : Nat) → Res (Nat × Bool)
  | 0, _ => .panic "out of fuel"
  | fuel + 1, i => do
    if i > maxIndex then .panic "invalid font data" else
    let ctrl ← rd8 data i
    let mode := ctrl &&& 0b11100000
    if mode = 0b00000000 then
      evalTerms (evalSub data maxIndex settings fuel)
        (skipSub data maxIndex (min settings.length 255) fuel) maxIndex true (ctrl &&& 0b00011111) (i + 1)
    else if mode = 0b00100000 then
      evalTerms (evalSub data maxIndex settings fuel)
        (skipSub data maxIndex (min settings.length 255) fuel) maxIndex false (ctrl &&& 0b00011111) (i + 1)
    else if mode = 0b01000000 then
      let setting ← rd8 data (i + 1)
      if setting > settings.length then .panic "invalid font data" else
      let operand ← rd8 data (i + 2)
      if ctrl &&& 0b00010000 = 0 ∧ operand > settings.length then .panic "invalid font data" else
      let operand ← (if ctrl &&& 0b00010000 = 0 then idx settings operand else .ok operand)
      let r ← compare (ctrl &&& 0b00001111) setting operand
      return (i + 3, r)
    else if mode = 0b01100000 then quickCompare data settings i 0 (ctrl &&& 0b00011111)
    else if mode = 0b10000000 then quickCompare data settings i 1 (ctrl &&& 0b00011111)
    else if mode = 0b10100000 then quickCompare data settings i 2 (ctrl &&& 0b00011111)
    else if mode = 0b11000000 then quickCompare data settings i 3 (ctrl &&& 0b00011111)
    else .panic "invalid font data"

/-- `font.go:957-979`, `EvaluateCondition`. The end offsets are read at `1 + key`, although they have
two bytes each. -/
def evaluateCondition (f : Font) (key : Nat) (settings : List Nat) : Res Bool := do
  let n ← f.numConditions
  if key ≥ n then .panic "invalid condition key" else
  let e ← rd16 f.data (f.offConditions + 1 + key)
  let s ← (if key > 0 then rd16 f.data (f.offConditions + key) else .ok 0)
  if e ≤ s then .panic "invalid font data" else
  let base := f.offConditions + 1 + (n <<< 1)
  let maxIndex := base + (e - 1)
  if maxIndex ≥ f.data.length then .panic "invalid font data" else
  let (i, satisfied) ← evalSub f.data maxIndex settings (f.data.length + 1) (base + s)
  if i ≠ maxIndex then .panic "broken code" else
  return satisfied

end Font

/-! ## Rules: `GlyphRewriteRule` (`font.go:1117-1137`) and `Utf8RewriteRule` (`font.go:1156-1178`) -/

namespace Rule

/-- Lines 1119 and 1157. -/
def condition (r : Bytes) : Res Nat := rd8 r 0
/-- Lines 1120 and 1158. -/
def headLen (r : Bytes) : Res Nat := rd8 r 1
/-- Lines 1121 and 1159. -/
def bodyLen (r : Bytes) : Res Nat := rd8 r 2
/-- Lines 1122 and 1160. -/
def tailLen (r : Bytes) : Res Nat := rd8 r 3
/-- Lines 1123 and 1161. -/
def inLen (r : Bytes) : Res Nat := do
  let a ← rd8 r 1
  let b ← rd8 r 2
  let c ← rd8 r 3
  return u8 (u8 (a + b) + c)
/-- Lines 1124 and 1162. -/
def outLen (r : Bytes) : Res Nat := rd8 r 4

/-- The loops of lines 1127-1129 and 1165-1167: `n` is what is left of `5 + outSize - i`. -/
def outLoop (rd : Bytes → Nat → Res Nat) (r : Bytes) : (n i : Nat) → Res (List Nat)
  | 0, _ => .ok []
  | 1, i => do
    let v ← rd r i
    return [v]
  | n + 2, i => do
    let v ← rd r i
    let rest ← outLoop rd r n (i + 2)
    return v :: rest

/-- `font.go:1125-1130`, `GlyphRewriteRule.EachOut`. -/
def glyphOut (r : Bytes) : Res (List Nat) := do
  let n ← rd8 r 4
  outLoop rd16 r n 5

/-- `font.go:1163-1168`, `Utf8RewriteRule.EachOut`. -/
def utf8Out (r : Bytes) : Res (List Nat) := do
  let n ← rd8 r 4
  outLoop rd32 r n 5

/-- `font.go:1131-1137` and `1169-1175`, `Equals`. -/
def equals (a b : Bytes) : Bool := if a.length ≠ b.length then false else go a b
where
  go : Bytes → Bytes → Bool
  | [], _ => true
  | _, [] => true
  | x :: xs, y :: ys => if x ≠ y then false else go xs ys

end Rule

/-! ## Sets: `GlyphRewriteSet` (`font.go:1197-1219`) and `Utf8RewriteSet` (`font.go:1242-1263`) -/

namespace RSet

/-- The loop of lines 1200-1204 with `n` ranges left. -/
def glyphRangeLoop (s : Bytes) : (n i : Nat) → Res (List (Nat × Nat))
  | 0, _ => .ok []
  | n + 1, i => do
    let g ← rd16 s i
    let k ← rd8 s (i + 2)
    let rest ← glyphRangeLoop s n (i + 3)
    return (g, u16 (g + k)) :: rest

/-- `font.go:1198-1206`, `GlyphRewriteSet.EachRange`. -/
def glyphRanges (s : Bytes) : Res (List (Nat × Nat)) := do
  let n ← rd8 s 0
  glyphRangeLoop s n 1

/-- The loop of lines 1212-1217 with `n` elements left. -/
def glyphListLoop (s : Bytes) : (n i : Nat) → Res (List Nat)
  | 0, _ => .ok []
  | n + 1, i => do
    let g ← rd16 s i
    let rest ← glyphListLoop s n (i + 2)
    return g :: rest

/-- `font.go:1208-1219`, `GlyphRewriteSet.EachListGlyph`. -/
def glyphList (s : Bytes) : Res (List Nat) := do
  let n ← rd8 s 0
  let m ← rd8 s (1 + n * 3)
  glyphListLoop s m (1 + n * 3 + 1)

/-- `int32(v)` of a `uint32`. -/
def int32 (v : Nat) : Int := if v < 2147483648 then v else (v : Int) - 4294967296

/-- The loop of lines 1245-1249, from `i` up to `bound`, at most `n` times. The second rune is
computed with the highest byte of the first one. -/
def runeRangeLoop (s : Bytes) (bound : Nat) : (n i : Nat) → Res (List (Int × Int))
  | 0, _ => .ok []
  | n + 1, i =>
    if i < bound then do
      let c ← rd32 s i
      let k ← rd8 s (i + 3)
      let rest ← runeRangeLoop s bound n (i + 5)
      return (int32 c, int32 (u32 (c + k))) :: rest
    else .ok []

/-- `font.go:1243-1251`, `Utf8RewriteSet.EachRange`; the loop runs fewer than `numRanges * 5` times. -/
def runeRanges (s : Bytes) : Res (List (Int × Int)) := do
  let n ← rd8 s 0
  runeRangeLoop s (n * 5) (n * 5) 1

/-- The loop of lines 1257-1261 with `n` elements left. -/
def runeListLoop (s : Bytes) : (n i : Nat) → Res (List Int)
  | 0, _ => .ok []
  | n + 1, i => do
    let c ← rd32 s i
    let rest ← runeListLoop s n (i + 4)
    return int32 c :: rest

/-- `font.go:1253-1263`, `Utf8RewriteSet.EachListRune`. -/
def runeList (s : Bytes) : Res (List Int) := do
  let n ← rd8 s 0
  let m ← rd8 s (1 + n * 5)
  runeListLoop s m (1 + n * 5 + 1)

end RSet
end FontModel
