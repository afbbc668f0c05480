import Verif.Model.Caches
import Verif.Model.Circular
import Verif.Model.DecisionTree

/-!
# Model of `internal/rerules/glyphrule/tester.go` and `tester_tree_instance.go`

The package `utf8rule` has the same code, with the differences collected in `Variant`. The public types of
`rerules/glyph_tester.go` and `rerules/utf8_tester.go` only forward the calls. Line numbers are those of the
glyph version.

Simplifications. The confirmation function only collects what it is given: an operation returns that list.
Operations that return an error after changing the state return the error next to the state. The compiler is
the one that `Retrieve` of the shared pool returns, and it is returned together with the state in which it
is released. The sets of the font are given by `sets`, see `Model/DecisionTree.lean`. Memory that is reused
when a tree is added is an arbitrary tree. Loops have as fuel a bound on the number of elements kept.
-/

namespace TesterModel
open Go Helpers ScannerModel TreeModel FontModel CacheModel

/-- The differences between the two packages. -/
structure Variant where
  kind : Kind
  /-- `EachOut`. -/
  out : Bytes → Res (List Nat)
  /-- Elements that are ignored: `tester.go:114`. -/
  skip : Nat → Bool
  /-- Elements that are refused: `tester.go:115`, `utf8rule/tester.go:115`. -/
  bad : Nat → Bool

/-- `GlyphZilch` is ignored, what comes after `GlyphMissing` is refused. -/
def glyphV : Variant := ⟨glyphKind, Rule.glyphOut, fun g => decide (g = 56790), fun g => decide (g > 56789)⟩

/-- `utf8.ValidRune` and `RuneError`. A `rune` is kept as a `uint32`: negative values are not valid. -/
def utf8V : Variant := ⟨utf8Kind, Rule.utf8Out, fun _ => false,
  fun c => !(decide (c < 55296) || (decide (57343 < c) && decide (c ≤ 1114111))) || decide (c = 65533)⟩

/-- `tester_tree_instance.go:3-10`. -/
structure Inst where
  tree : Tree
  condition : Nat
  cached : Bool
  value : Bool
  resync : Bool
deriving DecidableEq, Repr

/-- `tester_tree_instance.go:12-17`, `Reconfigure`. -/
def Inst.reconfigure (t : Tree) (condition : Nat) : Inst := ⟨t, condition, false, false, true⟩

/-- `tester.go:10-18`. -/
structure Tester where
  rules : List Bytes := []
  trees : List Inst := []
  acc : Circular.Buf Nat := Circular.Buf.zero
  unflushed : Nat := 0
  recompile : Bool := false
  operating : Bool := false
deriving DecidableEq, Repr

/-- The error of `tester.go:47`. -/
def tooManyRules : String := "Tester can't have more than 254 rules"
/-- The errors of `tester.go:116` and `utf8rule/tester.go:116`, without the value. -/
def badElement : String := "invalid element"

/-! ## Conditions -/

/-- `tester.go:171-182`, `testCondition`. -/
def testCondition (f : Font) (condition : Nat) (s : SettingsCache) : Res (SettingsCache × Bool) :=
  if condition = 255 then .ok (s, true) else do
  let (satisfied, cached) ← s.getRewriteCondition condition
  if cached then return (s, satisfied) else
  let satisfied ← f.evaluateCondition condition s.settings
  let s ← s.cacheRewriteCondition condition satisfied
  return (s, satisfied)

/-- The loop of `tester.go:86-91`. -/
def refreshLoop (f : Font) : List Inst → SettingsCache → Res (List Inst × SettingsCache)
  | [], s => .ok ([], s)
  | t :: l, s => do
    let (s, satisfied) ← testCondition f t.condition s
    let (l, s) ← refreshLoop f l s
    return ({ t with value := satisfied, cached := true } :: l, s)

namespace Tester

/-- `tester.go:85-92`, `RefreshConditions`. -/
def refreshConditions (f : Font) (T : Tester) (s : SettingsCache) : Res (Tester × SettingsCache) := do
  let (trees, s) ← refreshLoop f T.trees s
  return ({ T with trees := trees }, s)

/-! ## Rules -/

/-- `tester.go:34-40`, `RemoveAllRules`. -/
def removeAllRules (T : Tester) : Res Tester :=
  if T.operating then .panic preViolation
  else .ok { T with rules := [], trees := [], acc := T.acc.clear, recompile := false }

/-- The loop of `tester.go:159-166`; the interval shrinks on every step. -/
def searchTree (trees : List Inst) (condition : Nat) : (fuel start stop : Nat) → Res Nat
  | 0, _, _ => .panic "out of fuel"
  | fuel + 1, start, stop =>
    if start < stop then do
      let mid := (start + stop) >>> 1
      let t ← idx trees mid
      if t.condition < condition then searchTree trees condition fuel (mid + 1) stop
      else searchTree trees condition fuel start mid
    else .ok start

/-- `tester.go:156-169`, `findTreeByCondition`. -/
def findTree (trees : List Inst) (condition : Nat) : Res (Nat × Bool) := do
  let start ← searchTree trees condition (trees.length + 1) 0 trees.length
  if start < trees.length then
    let t ← idx trees start
    return (start, decide (t.condition = condition))
  else return (start, false)

/-- The loop of `tester.go:57-60`: the last element `x` goes down past those with greater conditions. -/
def sink (x : Inst) : (l : List Inst) → List Inst
  | [] => [x]
  | y :: l =>
    -- `y :: l` are the trees before `x`, the nearest one first
    if x.condition ≥ y.condition then x :: y :: l else y :: sink x l

/-- `tester.go:41-64`, `AddRule`. `old` is the memory of a new tree. -/
def addRule (k : Kind) (T : Tester) (rule : Bytes) (old : Tree) : Res (Tester × Option String) :=
  if T.operating then .panic preViolation else
  if rule.length < k.minLen then .ok (T, some invalidRule) else
  if T.rules.length ≥ 254 then .ok (T, some tooManyRules) else do
  let condition ← Rule.condition rule
  let (i, found) ← findTree T.trees condition
  let trees ← (if found then do
      let t ← idx T.trees i
      return T.trees.set i { t with resync := true }
    else return (sink (Inst.reconfigure old condition) T.trees.reverse).reverse)
  return ({ T with rules := T.rules ++ [rule], trees := trees, recompile := true }, none)

/-- The loop of `tester.go:69-78`: the index of the first rule that is equal. -/
def findRule (rule : Bytes) : List Bytes → Nat → Option Nat
  | [], _ => none
  | r :: l, i => if Rule.equals r rule then some i else findRule rule l (i + 1)

/-- `tester.go:66-81`, `RemoveRule`. -/
def removeRule (T : Tester) (rule : Bytes) : Res (Tester × Bool) :=
  if T.operating then .panic preViolation else
  match findRule rule T.rules 0 with
  | none => .ok (T, false)
  | some i => do
    let condition ← Rule.condition rule
    let (j, found) ← findTree T.trees condition
    if !found then .panic brokenCode else
    let t ← idx T.trees j
    return ({ T with
      rules := deleteElementAt T.rules i
      trees := T.trees.set j { t with resync := true }
      recompile := true }, true)

/-! ## Compilation -/

/-- The rules with a condition, and their indices: the test of `tester.go:209`. -/
def rulesWith (condition : Nat) : List Bytes → Nat → Res (List (Bytes × Nat))
  | [], _ => .ok []
  | r :: l, i => do
    let c ← Rule.condition r
    let rest ← rulesWith condition l (i + 1)
    return if c = condition then (r, u8 i) :: rest else rest

/-- The loop of `tester.go:193-226`. An error leaves the compiler in the middle of a compilation. (The
conditions of all the rules are read before the first one is compiled. The compiler works in the memory of the old
states of the tree, so that after an error they are partly overwritten, which is not modelled: no theorem is about
the trees after an error.) -/
def compileTrees (k : Kind) (mv : Nat → Bool) (sets : Sets) (f : Font) (rules : List Bytes) :
    List Inst → Compiler → SettingsCache → Res (List Inst × Compiler × SettingsCache × Option String)
  | [], c, s => .ok ([], c, s, none)
  | t :: l, c, s => do
    let (s, t) ← (if !t.cached then do
        let (s, satisfied) ← testCondition f t.condition s
        return (s, { t with value := satisfied, cached := true })
      else return (s, t))
    if t.resync then
      let c ← begin c
      let mine ← rulesWith t.condition rules 0
      match feedAll k mv sets mine c with
      | .panic e => .panic e
      | .err e => return (t :: l, { c with compiling := true }, s, some e)
      | .ok c =>
        let (states, c) ← finish c
        let (l, c, s, e) ← compileTrees k mv sets f rules l c s
        return (if mine.length = 0 then l else { t with tree := { t.tree with states := states } } :: l, c, s, e)
    else
      let (l, c, s, e) ← compileTrees k mv sets f rules l c s
      return (t :: l, c, s, e)

/-- The loop of `tester.go:231-233`. -/
def maxInLen : List Bytes → (acc : Nat) → Res Nat
  | [], n => .ok n
  | r :: l, n => do
    let m ← Rule.inLen r
    maxInLen l (max n m)

/-- `tester.go:184-239`, `recompile`; `junk` is memory that the accumulator may grow into. -/
def recompileAll (k : Kind) (mv : Nat → Bool) (sets : Sets) (f : Font) (junk : List Nat) (T : Tester)
    (c : Compiler) (s : SettingsCache) : Res (Tester × Compiler × SettingsCache × Option String) := do
  let (trees, c, s, e) ← compileTrees k mv sets f T.rules T.trees c s
  if e.isSome then return ({ T with trees := trees }, c, s, e) else
  let n ← maxInLen T.rules 0
  let (_, acc) ← T.acc.clear.setCapacity n junk
  return ({ T with trees := trees, acc := acc, recompile := false }, c, s, none)

/-- `tester.go:26-30`, `Resync`. -/
def resync (k : Kind) (mv : Nat → Bool) (sets : Sets) (f : Font) (junk : List Nat) (T : Tester)
    (c : Compiler) (s : SettingsCache) : Res (Tester × Compiler × SettingsCache × Option String) :=
  if T.operating then .panic preViolation else
  if !T.recompile then .ok (T, c, s, none)
  else recompileAll k mv sets f junk T c s

/-! ## Detection -/

/-- The body of the loop of `tester.go:326-334`. -/
def restartInst (t : Inst) : Res Inst := do
  let tree ← (if t.tree.scanning then t.tree.breakSeq else .ok t.tree)
  let tree ← tree.beginSeq
  return { t with tree := tree }

/-- `tester.go:326-333`, `treesRestartDetection`. -/
def restartAll : List Inst → Res (List Inst)
  | [] => .ok []
  | t :: l => do
    let t ← restartInst t
    let l ← restartAll l
    return t :: l

/-- `tester.go:262-272`, `treesFeedUnrestrictedGlyph`. -/
def feedTrees (g : Nat) : List Inst → Res (List Inst × Bool)
  | [] => .ok ([], false)
  | t :: l => do
    if !t.tree.scanning then
      let (l, running) ← feedTrees g l
      return (t :: l, running)
    else
      let tree ← t.tree.feed g
      let (l, running) ← feedTrees g l
      return ({ t with tree := tree } :: l, tree.scanning || running)

/-- `tester.go:249-260`, `treesFeedHeadGlyph`. -/
def feedTreesHead (g minRequired : Nat) : List Inst → Res (List Inst × Bool)
  | [] => .ok ([], false)
  | t :: l => do
    if !t.tree.scanning then
      let (l, running) ← feedTreesHead g minRequired l
      return (t :: l, running)
    else
      let tree ← t.tree.feedHead g minRequired
      let (l, running) ← feedTreesHead g minRequired l
      return ({ t with tree := tree } :: l, tree.scanning || running)

/-- `tester.go:241-247`, `treesFeedGlyph`. -/
def feedAt (g depth unflushed : Nat) (trees : List Inst) : Res (List Inst × Bool) :=
  if depth < unflushed then feedTreesHead g unflushed trees else feedTrees g trees

/-- `tester.go:274-281`, `treesGetBestMatch`. -/
def bestMatch : List Inst → (best : Nat) → Nat
  | [], best => best
  | t :: l, best => bestMatch l (if t.tree.best < best then t.tree.best else best)

/-- `tester.go:364-372`, `popOldestGlyph`. -/
def popOldest (T : Tester) : Res (Tester × List Nat) := do
  let (g, acc) ← T.acc.popHead
  let trees ← restartAll T.trees
  if T.unflushed > 0 then return ({ T with acc := acc, trees := trees, unflushed := T.unflushed - 1 }, [])
  else return ({ T with acc := acc, trees := trees }, [g])

/-- The loop of `tester.go:288-294`, with `n` iterations left. -/
def reportHead : (n : Nat) → (unflushed : Nat) → Circular.Buf Nat → Res (Nat × Circular.Buf Nat × List Nat)
  | 0, u, acc => .ok (u, acc, [])
  | n + 1, u, acc =>
    if u > 0 then reportHead n (u - 1) acc
    else do
      let (g, acc) ← acc.popHead
      let (u, acc, out) ← reportHead n u acc
      return (u, acc, g :: out)

/-- The loop of `tester.go:301-303`, with `n` iterations left. -/
def dropBody : (n : Nat) → Circular.Buf Nat → Res (Circular.Buf Nat)
  | 0, acc => .ok acc
  | n + 1, acc => do
    let (_, acc) ← acc.popHead
    dropBody n acc

/-- The loop of `tester.go:313-317`, with `n` iterations left. -/
def reportTail : (n : Nat) → Circular.Buf Nat → Res (Circular.Buf Nat × List Nat)
  | 0, acc => .ok (acc, [])
  | n + 1, acc => do
    let (g, found, acc) ← acc.peekAhead
    if !found then .panic brokenCode else
    let (acc, out) ← reportTail n acc
    return (acc, g.toList ++ out)

/-- `tester.go:283-324`, `rewrite`. -/
def rewrite (v : Variant) (T : Tester) (i : Nat) : Res (Tester × List Nat) := do
  if i = ruleNone then .panic preViolation else
  let rule ← idx T.rules i
  let headLen ← Rule.headLen rule
  let (u, acc, head) ← reportHead headLen T.unflushed T.acc
  if u > 0 then .panic brokenCode else
  let outs ← v.out rule
  let bodyLen ← Rule.bodyLen rule
  let acc ← dropBody bodyLen acc
  let trees ← restartAll T.trees
  let tailLen ← Rule.tailLen rule
  if tailLen > 0 then
    let g ← acc.head
    let (acc, tail) ← reportTail (tailLen - 1) acc
    return ({ T with acc := acc, trees := trees, unflushed := tailLen }, head ++ outs ++ g :: tail)
  else return ({ T with acc := acc, trees := trees, unflushed := 0 }, head ++ outs)

/-- What is done when detection has stopped: `tester.go:123-128`, `139-144` and `350-358`. -/
def act (v : Variant) (T : Tester) : Res (Tester × List Nat) :=
  if bestMatch T.trees ruleNone = ruleNone then T.popOldest else T.rewrite v (bestMatch T.trees ruleNone)

/-- The loop of `tester.go:342-361`. -/
def rerunLoop (v : Variant) : (fuel : Nat) → Tester → (g depth : Nat) → Res (Tester × List Nat × Bool)
  | 0, _, _, _ => .panic "out of fuel"
  | fuel + 1, T, g, depth => do
    let (trees, running) ← feedAt g depth T.unflushed T.trees
    let T := { T with trees := trees }
    if running then
      let (g, hasNext, acc) ← T.acc.peekAhead
      let T := { T with acc := acc }
      if !hasNext then return (T, [], false)
      else match g with
        | none => .panic "out of fuel"
        | some g => rerunLoop v fuel T g (u8 (depth + 1))
    else
      -- the peeks are discarded only when there is no match
      let T := if bestMatch T.trees ruleNone = ruleNone then { T with acc := T.acc.discardPeeks } else T
      let (T, out) ← T.act v
      return (T, out, !T.acc.isEmpty)

/-- `tester.go:336-362`, `rerunDetection`. -/
def rerun (v : Variant) (T : Tester) : Res (Tester × List Nat × Bool) :=
  if T.acc.isEmpty then .ok (T, [], false) else do
  let T := { T with acc := T.acc.discardPeeks }
  let g ← T.acc.head
  rerunLoop v (T.acc.numElements + 1) T g 0

/-- The loops of `tester.go:129` and `145`. Every iteration that asks for another one takes at least an
element out of the accumulator. -/
def rerunAll (v : Variant) : (fuel : Nat) → Tester → Res (Tester × List Nat)
  | 0, _ => .panic "out of fuel"
  | fuel + 1, T => do
    let (T, out, more) ← T.rerun v
    if more then
      let (T, rest) ← rerunAll v fuel T
      return (T, out ++ rest)
    else return (T, out)

/-! ## Sequences -/

/-- `tester.go:98-109`, `BeginSequence`. -/
def beginSequence (k : Kind) (mv : Nat → Bool) (sets : Sets) (f : Font) (junk : List Nat) (T : Tester)
    (c : Compiler) (s : SettingsCache) : Res (Tester × Compiler × SettingsCache × Option String) := do
  if T.operating then .panic preViolation else
  let T := { T with operating := true }
  let (T, c, s, e) ← (if T.recompile then recompileAll k mv sets f junk T c s else .ok (T, c, s, none))
  if e.isSome then return (T, c, s, e) else
  let trees ← restartAll T.trees
  return ({ T with trees := trees }, c, s, none)

/-- `tester.go:112-133`, `Feed`. -/
def feed (v : Variant) (T : Tester) (g : Nat) : Res (Tester × List Nat × Option String) :=
  if !T.operating then .panic preViolation else
  if v.skip g then .ok (T, [], none) else
  if v.bad g then .ok (T, [], some badElement) else do
  let acc ← T.acc.push g
  let (trees, running) ← feedTrees g T.trees
  let T := { T with acc := acc, trees := trees }
  if running then return (T, [], none) else
  let (T, out) ← T.act v
  let (T, rest) ← rerunAll v (T.acc.numElements + 1) T
  return (T, out ++ rest, none)

/-- The loop of `tester.go:138-146`. Every iteration takes at least an element out of the accumulator. -/
def breakLoop (v : Variant) : (fuel : Nat) → Tester → Res (Tester × List Nat)
  | 0, _ => .panic "out of fuel"
  | fuel + 1, T =>
    if T.acc.numElements > T.unflushed then do
      let (T, out) ← T.act v
      let (T, rest) ← rerunAll v (T.acc.numElements + 1) T
      let (T, more) ← breakLoop v fuel T
      return (T, out ++ (rest ++ more))
    else .ok (T, [])

/-- `tester.go:135-147`, `Break`. -/
def breakSequence (v : Variant) (T : Tester) : Res (Tester × List Nat) :=
  if !T.operating then .panic preViolation else breakLoop v (T.acc.numElements + 1) T

/-- `tester.go:149-152`, `FinishSequence`. -/
def finishSequence (v : Variant) (T : Tester) : Res (Tester × List Nat) := do
  let (T, out) ← T.breakSequence v
  return ({ T with operating := false }, out)

end Tester
end TesterModel
