import Verif.Model.Helpers

/-!
# The scanner of rewrite rules

`internal/rerules/glyphrule/rule_scanner.go` and `internal/rerules/utf8rule/rule_scanner.go`, which are
the same code for elements of two and four bytes. One definition serves for both, with the differences
collected in `Kind`.

A returned error ends the model of the call: the scanner is left half changed by the code, but every
caller gives up and the next use begins with `Start`, which sets all the fields.
-/

namespace ScannerModel
open Go Helpers

/-- The differences between the two packages: `constants.go:28-29`, `glyphrule/misc.go:9, 34-36`,
`utf8rule/misc.go:14, 38-40`. -/
structure Kind where
  /-- `MinGlyphReRuleFmtLen`, `MinUtf8ReRuleFmtLen`. -/
  minLen : Nat
  /-- Bytes of an element are `2 ^ shift`. -/
  shift : Nat
  decode : Bytes → Res Nat
  /-- `IsValidRuleGlyphIndex`, `IsValidRuleCodePoint`. -/
  valid : Nat → Bool
  /-- `GlyphNone`, `RuneError`. -/
  none : Nat

def Kind.width (k : Kind) : Nat := 2 ^ k.shift

/-- `internal/rerules/glyphrule`. -/
def glyphKind : Kind := ⟨11, 1, decodeUint16LE, fun g => decide (g < 56789), 65535⟩
/-- `internal/rerules/utf8rule`. A `rune` is kept as the `uint32` it was read from. -/
def utf8Kind : Kind := ⟨13, 2, decodeUint32LE, fun c => decide (c ≠ 65533), 65533⟩

/-- `GlyphSetNone`, `Utf8SetNone`: `misc.go`. -/
def setNone : Nat := 255

/-- `RuleScanner`, `rule_scanner.go:7-17`. The block is 0 (head), 1 (body) or 2 (tail). -/
structure Scanner where
  rule : Bytes
  dataIndex : Nat
  block : Nat
  remSets : Nat := 0
  remElems : Nat := 0
  remBlock : Nat
  accSets : Nat := 0
  accElems : Nat := 0
deriving DecidableEq, Repr

/-- `rerules.ErrInvalidReRule`. -/
def invalidRule : String := "invalid rewrite rule"

/-- `len(rule.Data)` bytes exist and `rule.Data[i]` is read. -/
def rdb (d : Bytes) (i : Nat) : Res Nat := do
  let b ← idx d i
  return b.toNat

/-- `rule_scanner.go:141-167`, `parseFragmentControl`; the flag tells that there was no error. -/
def parseControl (s : Scanner) : Res (Scanner × Bool) := do
  let ctrl ← rdb s.rule s.dataIndex
  let sets := (ctrl &&& 0xF0) >>> 4
  let elems := ctrl &&& 0x0F
  let s := { s with dataIndex := u16 (s.dataIndex + 1), remSets := sets, remElems := elems,
                    accSets := u8 (s.accSets + sets), accElems := u8 (s.accElems + elems) }
  let numElems := u8 (sets + elems)
  let blockLen ← rdb s.rule (1 + s.block)
  if numElems = 0 then
    if u8 (s.accSets + s.accElems) ≠ blockLen then return (s, false)
    else return ({ s with remBlock := sub8 s.remBlock numElems }, true)
  else
    if u8 (s.accSets + s.accElems) < s.accSets then return (s, false) else
    if u8 (s.accSets + s.accElems) > blockLen then return (s, false) else
    if numElems > s.remBlock then return (s, false) else
    return ({ s with remBlock := sub8 s.remBlock numElems }, true)

/-- `rule_scanner.go:21-60`, `Start`. The error of `parseFragmentControl` is dropped (line 57). -/
def start (k : Kind) (rule : Bytes) : Res Scanner := do
  if rule.length < k.minLen then .err invalidRule else
  let out ← rdb rule 4
  if out = 0 then .err invalidRule else
  let head ← rdb rule 1
  let body ← rdb rule 2
  let tail ← rdb rule 3
  let lenSum := u8 (head + body)
  if head > lenSum then .err invalidRule else
  let lenSum := u8 (lenSum + tail)
  if tail > lenSum then .err invalidRule else
  if body < out then .err invalidRule else
  let s : Scanner := { rule := rule, remBlock := head, block := 0, dataIndex := u16 (5 + u16 (out <<< k.shift)) }
  if head = 0 then
    if body = 0 ∨ body < out then .err invalidRule else
    let (s, _) ← parseControl { s with dataIndex := u16 (s.dataIndex + 1), block := 1, remBlock := body }
    return s
  else
    let (s, _) ← parseControl s
    return s

/-- `rule_scanner.go:68-70`. -/
def hasNext (s : Scanner) : Bool := decide (s.dataIndex < s.rule.length)

/-- `rule_scanner.go:123-139`, `advanceControl`, with `RuleBlock.Next` (`misc.go:22-29`). -/
def advanceControl (s : Scanner) : Res Scanner := do
  let s ← (if s.remBlock = 0 then do
      let n ← rdb s.rule (1 + s.block)
      if n ≠ u8 (s.accElems + s.accSets) then .err invalidRule else
      if 2 ≤ s.block then .err invalidRule else
      let m ← rdb s.rule (1 + (s.block + 1))
      return { s with block := s.block + 1, remBlock := m, accSets := 0, accElems := 0 }
    else .ok s)
  let (s, fine) ← parseControl s
  if fine then return s else .err invalidRule

/-- `rule_scanner.go:170-190`, `checkTermination`. -/
def checkTermination (s : Scanner) : Res Unit := do
  if s.remSets > 0 ∨ s.remElems > 0 ∨ s.remBlock > 0 then .err invalidRule else
  if s.block = 0 then .err invalidRule else
  if s.block = 1 then do
    let t ← rdb s.rule 3
    if t ≠ 0 then .err invalidRule else return ()
  else if s.block = 2 then do
    let t ← rdb s.rule 3
    if t ≠ u8 (s.accSets + s.accElems) then .err invalidRule else return ()
  else .panic "broken code"

/-- Lines 85-91 and 108-114: what follows reading an element. -/
def afterElem (s : Scanner) : Res Scanner :=
  if s.dataIndex ≥ s.rule.length then do
    checkTermination s
    return s
  else if s.remSets = 0 ∧ s.remElems = 0 then advanceControl s
  else .ok s

/-- `rule_scanner.go:75-121`, `Next`: the new scanner, the element and the set. -/
def next (k : Kind) (s : Scanner) : Res (Scanner × Nat × Nat) := do
  if s.remSets > 0 then
    let s := { s with remSets := s.remSets - 1 }
    if s.dataIndex ≥ s.rule.length then .err invalidRule else
    let g ← rdb s.rule s.dataIndex
    let s ← afterElem { s with dataIndex := u16 (s.dataIndex + 1) }
    return (s, k.none, g)
  else if s.remElems > 0 then
    let s := { s with remElems := s.remElems - 1 }
    if s.dataIndex + (k.width - 1) ≥ s.rule.length then .err invalidRule else
    let rest ← sliceFrom s.rule s.dataIndex
    let e ← k.decode rest
    if !k.valid e then .err invalidRule else
    let s ← afterElem { s with dataIndex := u16 (s.dataIndex + k.width) }
    return (s, e, setNone)
  else if !hasNext s then .panic "precondition violation"
  else .panic "broken code"

/-- The use of the scanner (`decision_tree_compiler.go:96-98`): all the elements with their blocks.
`Block()` is asked before `Next()`, which already moves on to the following element. -/
def scan (k : Kind) : (fuel : Nat) → Scanner → Res (List (Nat × Nat × Nat))
  | 0, s => if hasNext s then .panic "out of fuel" else .ok []
  | fuel + 1, s =>
    if hasNext s then do
      let (s', e, g) ← next k s
      let rest ← scan k fuel s'
      return (s.block, e, g) :: rest
    else .ok []

/-- Start and scan; each element takes at least one byte. -/
def scanRule (k : Kind) (rule : Bytes) : Res (List (Nat × Nat × Nat)) := do
  let s ← start k rule
  scan k rule.length s

end ScannerModel
