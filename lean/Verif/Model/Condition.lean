import Verif.Model.Helpers

/-!
# Model of `builder/font_builder_rewrite_condition.go`

Strings are bytes. `end` is inclusive in Go and can be -1; here it is exclusive (`e = end + 1`). The
messages of errors are shortened, but the slices of the definition that they quote are taken. The
recursion is on fuel: a call that runs out of fuel whatever the fuel does not end in Go, and overflows
the stack.
-/

namespace ConditionModel
open Go Helpers

/-! ## Printing -/

/-- `builder/font_builder_rewrite_condition.go:91-100`, the operator of a comparison. -/
def operatorText (code : Nat) : Res Bytes :=
  if code = 0 then .ok [61, 61]
  else if code = 1 then .ok [33, 61]
  else if code = 2 then .ok [60]
  else if code = 3 then .ok [62]
  else if code = 4 then .ok [60, 61]
  else if code = 5 then .ok [62, 61]
  else .panic "invalid internal state"

/-- `builder/font_builder_rewrite_condition.go:111-134`, one of the quick comparisons. -/
def quickText (data : Bytes) (ctrl : UInt8) (op : Bytes) (index : Nat) (str : Bytes) : Res (Nat × Bytes) := do
  let a ← idx data (index + 1)
  let str := appendByteDigits a (str ++ [35])
  let str := str ++ ([32] ++ op ++ [32])
  return (index + 2, appendByteDigits (ctrl &&& 31) str)

mutual

/-- `builder/font_builder_rewrite_condition.go:54-140`, `appendSubTerm`. -/
def appendSubTerm (data : Bytes) : Nat → Nat → Bytes → Res (Nat × Bytes)
  | 0, _, _ => .panic "out of fuel"
  | fuel + 1, index, str =>
    if index ≥ data.length then .panic "invalid internal state" else do
    let ctrl ← idx data index
    if ctrl >>> 5 = 0 then
      let n := (ctrl &&& 31).toNat
      if n < 2 then .panic "invalid internal state" else do
      let (index, str) ← appendTerms data fuel [32, 79, 82, 32] n (index + 1) (str ++ [40])
      return (index, str ++ [41])
    else if ctrl >>> 5 = 1 then
      let n := (ctrl &&& 31).toNat
      if n < 2 then .panic "invalid internal state" else do
      let (index, str) ← appendTerms data fuel [32, 65, 78, 68, 32] n (index + 1) (str ++ [40])
      return (index, str ++ [41])
    else if ctrl >>> 5 = 2 then do
      let a ← idx data (index + 1)
      let str := appendByteDigits a (str ++ [35]) ++ [32]
      let op ← operatorText (ctrl &&& 15).toNat
      let str := str ++ op ++ [32]
      let str := if ctrl &&& 16 = 0 then str ++ [35] else str
      let b ← idx data (index + 2)
      return (index + 3, appendByteDigits b str)
    else if ctrl >>> 5 = 3 then quickText data ctrl [61, 61] index str
    else if ctrl >>> 5 = 4 then quickText data ctrl [33, 61] index str
    else if ctrl >>> 5 = 5 then quickText data ctrl [60] index str
    else if ctrl >>> 5 = 6 then quickText data ctrl [62] index str
    else .panic "invalid internal state"

/-- `builder/font_builder_rewrite_condition.go:28-33, 38-43, 63-70, 76-83`, the loops over the terms of a group,
with what goes between them. -/
def appendTerms (data : Bytes) : Nat → Bytes → Nat → Nat → Bytes → Res (Nat × Bytes)
  | 0, _, _, _, _ => .panic "out of fuel"
  | _ + 1, _, 0, index, str => .ok (index, str)
  | fuel + 1, sep, n + 1, index, str => do
    let (index, str) ← appendSubTerm data fuel index str
    appendTerms data fuel sep n index (if n = 0 then str else str ++ sep)

end

/-- `builder/font_builder_rewrite_condition.go:19-50`, `String`. Each term takes a byte at least, and each call
for a list of terms is followed by one for a term. -/
def text (data : Bytes) : Res Bytes := do
  let fuel := 2 * data.length + 2
  let ctrl ← idx data 0
  let (index, str) ←
    (if ctrl >>> 5 = 0 then
      let n := (ctrl &&& 31).toNat
      if n < 2 then .panic "invalid internal state" else
      appendTerms data fuel [32, 79, 82, 32] n 1 []
    else if ctrl >>> 5 = 1 then
      let n := (ctrl &&& 31).toNat
      if n < 2 then .panic "invalid internal state" else
      appendTerms data fuel [32, 65, 78, 68, 32] n 1 []
    else appendSubTerm data fuel 0 [])
  if index ≠ data.length then .panic "invalid internal state" else
  let _ ← idx str 0
  return str

/-! ## Compiling -/

/-- `builder/helpers.go:21-24`, the loop over spaces at the start, for at most `n` bytes. -/
def skipLeft (d : Bytes) : Nat → Nat → Res Nat
  | 0, s => .ok s
  | n + 1, s => do
    let c ← idx d s
    if c = 32 then skipLeft d n (s + 1) else return s

/-- `builder/helpers.go:25-28`, the loop over spaces at the end. -/
def skipRight (d : Bytes) : Nat → Res Nat
  | 0 => .ok 0
  | e + 1 => do
    let c ← idx d e
    if c = 32 then skipRight d e else return e + 1

/-- `builder/helpers.go:17-29`: every round but the last one removes something. -/
def trimLoop (d : Bytes) : Nat → Nat → Nat → Res (Nat × Nat)
  | 0, _, _ => .panic "out of fuel"
  | fuel + 1, s, e =>
    if s < e then do
      let s' ← skipLeft d (e - s) s
      let e' ← skipRight d e
      if s' ≠ s ∨ e' ≠ e then trimLoop d fuel s' e' else return (s', e')
    else .ok (s, e)

/-- `builder/helpers.go:15-32`, `trimSpaces`. -/
def trimSpaces (d : Bytes) (s e : Nat) : Res (Nat × Nat) := trimLoop d 3 s e

/-- `builder/helpers.go:8-11`, the loop. -/
def startsLoop (d : Bytes) : Bytes → Nat → Res Bool
  | [], _ => .ok true
  | x :: expr, i => do
    let c ← idx d i
    if c ≠ x then return false else startsLoop d expr (i + 1)

/-- `builder/helpers.go:5-12`, `startsWith`. `len(expr) > end + 1 - start`, where the right side can be
negative. -/
def startsWith (d : Bytes) (s e : Nat) (expr : Bytes) : Res Bool :=
  if e > d.length then .panic "broken code usage" else
  if expr.length + s > e then .ok false else
  startsLoop d expr s

/-- `[0-9]` -/
def isDigit (c : UInt8) : Bool := 48 ≤ c && c ≤ 57

/-- What `termRegexp` captures, and the text after it. -/
structure Match where
  left : Bytes
  op : Bytes
  hash : Bool
  right : Bytes
  rest : Bytes
deriving DecidableEq, Repr

/-- `builder/font_builder_rewrite_condition.go:246`, the end of the expression: ` *(#?)([0-9]+)`. -/
def matchRight (t : Bytes) : Option (Bool × Bytes × Bytes) :=
  let t := t.dropWhile (· == 32)
  let hash := t.head? == some 35
  let t := if hash then t.drop 1 else t
  let digits := t.takeWhile isDigit
  if digits = [] then none else some (hash, digits, t.dropWhile isDigit)

/-- `builder/font_builder_rewrite_condition.go:246`, `termRegexp`:
`^#([0-9]+) *(==|!=|<|>|<=|>=) *(#?)([0-9]+)`. Repetitions are greedy; what follows them begins with a
byte that they do not take, so trying fewer cannot help. The first alternative that leads to a match is
taken. -/
def termRegexp (t : Bytes) : Option Match :=
  match t with
  | 35 :: t =>
    let left := t.takeWhile isDigit
    if left = [] then none else
    let t := (t.dropWhile isDigit).dropWhile (· == 32)
    [[61, 61], [33, 61], [60], [62], [60, 61], [62, 61]].findSome? fun op =>
      if op.isPrefixOf t then
        match matchRight (t.drop op.length) with
        | some (hash, right, rest) => some ⟨left, op, hash, right, rest⟩
        | none => none
      else none
  | _ => none

/-- `strconv.Atoi` of digits, with the panic of `builder/font_builder_rewrite_condition.go:254, 261`: numbers of
64 bits with a sign. -/
def atoi (digits : Bytes) : Res Nat :=
  let n := digits.foldl (fun n c => 10 * n + (c.toNat - 48)) 0
  if n ≥ 2 ^ 63 then .panic "broken code" else .ok n

/-- `builder/font_builder_rewrite_condition.go:272-279`. -/
def quickCode (op : Bytes) : Res Nat :=
  if op = [61, 61] then .ok 0b01100000
  else if op = [33, 61] then .ok 0b10000000
  else if op = [60] then .ok 0b10100000
  else if op = [62] then .ok 0b11000000
  else .panic "broken code"

/-- `builder/font_builder_rewrite_condition.go:283-292`. -/
def opCode (op : Bytes) : Res Nat :=
  if op = [61, 61] then .ok 0
  else if op = [33, 61] then .ok 1
  else if op = [60] then .ok 2
  else if op = [62] then .ok 3
  else if op = [60, 61] then .ok 4
  else if op = [62, 61] then .ok 5
  else .panic "broken code"

/-- `builder/font_builder_rewrite_condition.go:247-302`, `appendNextTerm`. Returns the start, the end and the
data. -/
def appendNextTerm (d data : Bytes) (s e : Nat) : Res (Nat × Nat × Bytes) := do
  let t ← slice d s e
  match termRegexp t with
  | none => do
    let _ ← slice d 0 s
    .err "invalid setting comparison"
  | some m => do
    let left ← atoi m.left
    if left > 254 then .err "setting out of range" else do
    let right ← atoi m.right
    if right > 254 ∧ (m.hash ∨ right > 255) then .err "out of range" else do
    let data ←
      (if m.hash = false ∧ right < 32 ∧ m.op ≠ [60, 61] ∧ m.op ≠ [62, 61] then do
        let code ← quickCode m.op
        return data ++ [byte (code ||| right), byte left]
      else do
        let code ← opCode m.op
        return if m.hash then data ++ [byte (0b01000000 ||| code), byte left]
          else data ++ [byte (0b01010000 ||| code), byte left])
    return (s + (t.length - m.rest.length), e, data)

mutual

/-- `builder/font_builder_rewrite_condition.go:173-244`, `appendNextExpr`. -/
def appendNextExpr (d : Bytes) : Nat → Bytes → Nat → Nat → Bool → Res (Nat × Nat × Bytes)
  | 0, _, _, _, _ => .panic "out of fuel"
  | fuel + 1, data, s, e, inner => do
    let (s, e) ← trimSpaces d s e
    if e ≤ s then do
      let _ ← slice d 0 s
      .err "expected expression"
    else if e > d.length then .panic "broken code" else do
    let c ← idx d s
    if c = 40 then do
      let (s, e, data) ← appendNextExpr d fuel data s e false
      let (s, e) ← trimSpaces d s e
      if e > d.length then do
        let _ ← slice d 0 (e - 1)
        .err "expected closing parenthesis"
      else if e = 0 then .panic "index out of range" else do
      let last ← idx d (e - 1)
      if last ≠ 41 then .err "expected closing parenthesis" else
      return (s, e, data)
    else if inner then appendNextTerm d data s e
    else if c = 35 then appendNextTerm d data s e
    else do
      let (s, e, data) ← appendNextExpr d fuel data s e true
      let isOr ← startsWith d s e [79, 82, 32]
      if isOr then orLoop d fuel data.length (data ++ [0]) (s + 3) e 2
      else do
      let isAnd ← startsWith d s e [65, 78, 68, 32]
      if isAnd then andLoop d fuel data.length (data ++ [0]) (s + 4) e 2
      else if e = s + 1 then return (s, e, data)
      else do
        let _ ← slice d 0 s
        .err "expected AND, OR or expression end"
termination_by structural fuel => fuel

/-- `builder/font_builder_rewrite_condition.go:212-221`, the loop over the terms of `OR`. -/
def orLoop (d : Bytes) : Nat → Nat → Bytes → Nat → Nat → Nat → Res (Nat × Nat × Bytes)
  | 0, _, _, _, _, _ => .panic "out of fuel"
  | fuel + 1, index, data, s, e, count => do
    let (s, e, data) ← appendNextExpr d fuel data (s + 3) e true
    let more ← startsWith d s e [79, 82, 32]
    if more then orLoop d fuel index data (s + 3) e (count + 1)
    else if count ≥ 32 then .err "OR chain too long" else do
    let data ← setAt data index (byte count)
    return (s, e, data)
termination_by structural fuel => fuel

/-- `builder/font_builder_rewrite_condition.go:227-236`, the loop over the terms of `AND`. -/
def andLoop (d : Bytes) : Nat → Nat → Bytes → Nat → Nat → Nat → Res (Nat × Nat × Bytes)
  | 0, _, _, _, _, _ => .panic "out of fuel"
  | fuel + 1, index, data, s, e, count => do
    let (s, e, data) ← appendNextExpr d fuel data s e true
    let more ← startsWith d s e [65, 78, 68, 32]
    if more then andLoop d fuel index data (s + 4) e (count + 1)
    else if count ≥ 32 then .err "AND chain too long" else do
    let data ← setAt data index (byte (0b00100000 ||| count))
    return (s, e, data)
termination_by structural fuel => fuel

end

/-- `builder/font_builder_rewrite_condition.go:152-171`, `compileRewriteCondition`. -/
def compile (fuel : Nat) (d : Bytes) : Res Bytes :=
  if d.length > 1024 then .err "definitions limited to 1024 ascii characters max" else do
  let (s, e) ← trimSpaces d 0 d.length
  if e ≤ s then .err "invalid empty definition" else do
  let (s, e, data) ← appendNextExpr d fuel [] s e false
  if s < e then do
    let _ ← slice d 0 s
    .err "definition expected to end"
  else if s ≠ e then .panic "broken code"
  else return data

end ConditionModel
