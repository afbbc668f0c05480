import Verif.Model.Rewrites
import Verif.Model.Scanner

/-!
# Decision trees of rewrite rules and their compiler

`internal/rerules/glyphrule/decision_tree*.go`. The package `utf8rule` has the same code, with code points
in place of glyphs: the only difference is the width of the arithmetic on elements, `Kind.wrap`. (Code
points are `int32` in the code and naturals here, so that their order and the overflow of `Last + 1` differ from 2^31 - 1
on: rules and sets with such values, which are no code points, are left out by the theorems.)

`AppendRange` runs on a pointer to an element of the slice `states`, and the linker it calls can grow that
slice. When growing moves the slice to other memory, the pointer is left behind on the old copy. `View` is
what the pointer sees, and which part of it the state in the slice still shares. Whether growing moves a
slice depends on its capacity; here it is an arbitrary sequence `mv`, read at the time `clock`.

The errors of the code abandon the compilation, so that an error ends the model. Reading the whole set comes
before adding its elements; the code reads one element at a time.
-/

namespace TreeModel
open Go Helpers ScannerModel

/-- `StateNone`, `decision_tree_state.go:9`. -/
def stateNone : Nat := 255
/-- `RuleNone`, `misc.go:12`. -/
def ruleNone : Nat := 255

def brokenCode : String := "broken code"
def preViolation : String := "precondition violation"
/-- `decision_tree_compiler.go:9`. -/
def hitLimits : String := "hit limits"

/-- The arithmetic on the elements: `uint16`, or 32 bits. -/
def wrap (k : Kind) (n : Nat) : Nat := n % 2 ^ (8 * k.width)

/-- `decision_tree_transition.go:10-14`. -/
structure Transition where
  first : Nat
  last : Nat
  rule : Nat
  next : Nat
deriving DecidableEq, Repr

/-- `decision_tree_state.go:11-15`. -/
structure State where
  trans : List Transition
  minHead : Nat
  maxHead : Nat
deriving DecidableEq, Repr

/-- Lines 17-21. -/
def State.reset : State := ⟨[], 255, 0⟩

/-- Lines 33-36. -/
def State.updateHead (s : State) (headLen : Nat) : State :=
  ⟨s.trans, if headLen < s.minHead then headLen else s.minHead,
    if headLen > s.maxHead then headLen else s.maxHead⟩

/-- The loop of lines 165-176, between `lo` and `hi`. The interval shrinks on every step. -/
def findLoop (l : List Transition) (g : Nat) : (fuel lo hi : Nat) → Res (Nat × Bool)
  | 0, _, _ => .panic "out of fuel"
  | fuel + 1, lo, hi =>
    if lo < hi then do
      let mid := (lo + hi) >>> 1
      let t ← idx l mid
      if g < t.first then findLoop l g fuel lo mid
      else if g > t.last then findLoop l g fuel (mid + 1) hi
      else return (u8 mid, true)
    else if lo < l.length then do
      let t ← idx l lo
      let found := decide (t.first ≤ g ∧ g ≤ t.last)
      if found && decide (lo > 254) then .panic brokenCode else
      return (u8 lo, found)
    else return (u8 lo, false)

/-- `decision_tree_state.go:162-181`, `findGlyphTransition`. With no transitions the upper end is -1 and
there is no iteration, as with 0. -/
def findTrans (l : List Transition) (g : Nat) : Res (Nat × Bool) := findLoop l g (l.length + 1) 0 (l.length - 1)

/-- Lines 40-46, `Trigger`: the next state and the rule. -/
def State.trigger (s : State) (g : Nat) : Res (Nat × Nat) := do
  let (i, found) ← findTrans s.trans g
  if found then
    let t ← idx s.trans i
    return (t.next, t.rule)
  else return (stateNone, ruleNone)

/-- Lines 48-50. -/
def State.satisfiesHead (s : State) (n : Nat) : Bool := decide (n ≥ s.minHead) && decide (n ≤ s.maxHead)

/-- The compiler, `decision_tree_compiler.go:18-42`. The scanner and the font are parameters of the
functions; `FromStates` only lives within `Feed`. -/
structure Compiler where
  states : List State := []
  ruleIndex : Nat := 0
  depth : Nat := 0
  toStates : List Nat := []
  freed : List Nat := []
  uses : List Nat := []
  rules : List (List Nat) := []
  byDepth : List (List Nat) := []
  compiling : Bool := false
  /-- Number of times that a slice was grown, see above. -/
  clock : Nat := 0
deriving DecidableEq, Repr

namespace Compiler

/-! ## Linking states -/

/-- Lines 224-233: where the current rule goes among the rules of the reference. The loop stops after the
first one. -/
def rulePosition (c : Compiler) : List Nat → Res Nat
  | [] => .ok 0
  | r :: _ => if r = c.ruleIndex then .panic brokenCode else .ok (if r < c.ruleIndex then 1 else 0)

/-- Lines 236-257: the first state with the wanted rules. Comparing lengths and then the elements one by
one is comparing lists. -/
def findReusable (c : Compiler) (want : List Nat) : List Nat → Res Nat
  | [] => .ok stateNone
  | s :: l => do
    let rules ← idx c.rules (sub8 s 1)
    if rules = want then return s else c.findReusable want l

/-- `decision_tree_compiler.go:211-260`, `fetchReusableState`. -/
def fetchReusable (c : Compiler) (ref : Nat) : Res Nat :=
  if ref = 0 then .panic preViolation else
  match c.byDepth[c.depth]? with
  | none => .ok stateNone
  | some [] => .ok stateNone
  | some l => do
    let rules ← (if ref ≠ stateNone then idx c.rules (ref - 1) else .ok [])
    let p ← c.rulePosition rules
    c.findReusable (rules.take p ++ c.ruleIndex :: rules.drop p) l

/-- `decision_tree_compiler.go:265-279`, `fetchFreedOrNewState`; the flag tells that the slice of states
has moved. The contents of the state are whatever was there; they are overwritten at once. -/
def fetchFreedOrNew (mv : Nat → Bool) (c : Compiler) : Res (Compiler × Nat × Bool) :=
  match c.freed.getLast? with
  | some s => .ok ({ c with freed := c.freed.dropLast }, s, false)
  | none =>
    if c.states.length ≥ 254 then .err hitLimits
    else .ok ({ c with states := c.states ++ [State.reset], clock := c.clock + 1 }, c.states.length, mv c.clock)

/-- The rule list of a state: lines 311-318 and 339-344 (a list that may have to grow by one). -/
def setRules (c : Compiler) (i : Nat) (l : List Nat) : Res Compiler :=
  if c.rules.length ≤ i then
    if c.rules.length ≠ i then .panic brokenCode else .ok { c with rules := c.rules ++ [l] }
  else .ok { c with rules := c.rules.set i l }

/-- `decision_tree_compiler.go:303-332`, `initializeStateRulesWithRef`. -/
def initRulesWithRef (c : Compiler) (s ref : Nat) : Res Compiler := do
  if s = 0 ∨ ref = 0 then .panic preViolation else
  let refRules ← idx c.rules (ref - 1)
  let r0 ← idx refRules 0
  if c.ruleIndex < r0 then c.setRules (s - 1) (c.ruleIndex :: refRules) else
  let r1 ← idx refRules (refRules.length - 1)
  if c.ruleIndex > r1 then c.setRules (s - 1) (refRules ++ [c.ruleIndex]) else
  let (i, found) ← badBinarySearch refRules c.ruleIndex
  if found then .panic brokenCode else
  c.setRules (s - 1) (refRules.take i ++ c.ruleIndex :: refRules.drop i)

/-- `decision_tree_compiler.go:335-345`, `initializeStateRules`. -/
def initRules (c : Compiler) (s : Nat) : Res Compiler :=
  if s = 0 then .panic preViolation else c.setRules (s - 1) [c.ruleIndex]

/-- `decision_tree_compiler.go:347-355`, `registerNewStateAtDepth`. -/
def registerState (c : Compiler) (s : Nat) : Res Compiler :=
  if c.byDepth.length ≤ c.depth then
    if c.byDepth.length ≠ c.depth then .panic brokenCode
    else .ok { c with byDepth := c.byDepth ++ [[s]] }
  else do
    let l ← idx c.byDepth c.depth
    let l ← basicOrderedNonRepeatInsert l s
    return { c with byDepth := c.byDepth.set c.depth l }

/-- `decision_tree_compiler.go:286-300`, `adjustStateUseCount`. -/
def adjustUses (c : Compiler) (s : Nat) (delta : Int) : Res Compiler :=
  if s = 0 then .panic preViolation else
  if c.uses.length ≤ s - 1 then
    if c.uses.length ≠ s - 1 then .panic brokenCode else
    if delta > 255 ∨ delta < 0 then .panic brokenCode else
    .ok { c with uses := c.uses ++ [delta.toNat] }
  else do
    let n ← idx c.uses (s - 1)
    let result := (n : Int) + delta
    if result > 255 ∨ result < 0 then .panic brokenCode else
    return { c with uses := c.uses.set (s - 1) result.toNat }

/-- Lines 182-194: a state for the rules of the reference and the current one. -/
def newState (mv : Nat → Bool) (c : Compiler) (ref : Nat) : Res (Compiler × Nat × Bool) := do
  let (c, s, moved) ← c.fetchFreedOrNew mv
  let c ← (if ref ≠ stateNone then do
      let st ← idx c.states ref
      let states ← setAt c.states s st
      { c with states := states }.initRulesWithRef s ref
    else do
      let states ← setAt c.states s State.reset
      { c with states := states }.initRules s)
  let c ← c.registerState s
  return (c, s, moved)

/-- `decision_tree_compiler.go:177-207`, `stateLinker`; the flag tells that the slice of states has moved. -/
def stateLinker (mv : Nat → Bool) (c : Compiler) (ref : Nat) (numSplits : Int) :
    Res (Compiler × Nat × Bool) := do
  let s ← c.fetchReusable ref
  let (c, s, moved) ← (if s = stateNone then c.newState mv ref else .ok (c, s, false))
  let to ← basicOrderedNonRepeatInsert c.toStates s
  let c ← { c with toStates := to }.adjustUses s 1
  if ref = stateNone ∧ numSplits ≠ 0 then .panic preViolation else
  if ref ≠ stateNone then
    if numSplits < 0 ∨ numSplits > 2 then .panic preViolation else
    let c ← c.adjustUses ref (numSplits - 1)
    return (c, s, moved)
  else return (c, s, moved)

end Compiler

/-! ## Adding ranges to a state -/

/-- What the state in the slice has in common with the state under the pointer: everything, the first
`n` elements of the same memory, or nothing any more. -/
inductive Shared where
  | same
  | front (n : Nat)
  | apart (l : List Transition)
deriving DecidableEq, Repr

/-- The transitions as seen through the pointer. -/
structure View where
  trans : List Transition
  shared : Shared := .same
deriving DecidableEq, Repr

namespace View

/-- The slice of states was grown. -/
def moved (v : View) (m : Bool) : View :=
  match m, v.shared with
  | true, .same => ⟨v.trans, .front v.trans.length⟩
  | _, _ => v

/-- The slice of transitions is grown through the pointer. -/
def grown (v : View) (m : Bool) : View :=
  match m, v.shared with
  | true, .front n => ⟨v.trans, .apart (v.trans.take n)⟩
  | _, _ => v

/-- The transitions of the state in the slice. -/
def result (v : View) : List Transition :=
  match v.shared with
  | .same => v.trans
  | .front n => v.trans.take n
  | .apart l => l

end View

/-- The loop of lines 215-221: from the end down to the first transition that begins before. -/
def orderedPos (l : List Transition) (first : Nat) : Nat → Nat
  | 0 => 0
  | n + 1 =>
    match l[n]? with
    | some t => if t.first < first then n + 1 else orderedPos l first n
    | none => orderedPos l first n

/-- `decision_tree_state.go:207-231`, `unsafeInsertUninitializedTransition`. The fields that are not
initialised are always set afterwards. -/
def insertTrans (mv : Nat → Bool) (c : Compiler) (v : View) (first last : Nat) :
    Res (Compiler × View × Nat) :=
  if v.trans.length ≥ 254 then .err hitLimits else
  let v := v.grown (mv c.clock)
  let i := orderedPos v.trans first v.trans.length
  .ok ({ c with clock := c.clock + 1 },
    { v with trans := v.trans.take i ++ ⟨first, last, ruleNone, stateNone⟩ :: v.trans.drop i }, i)

/-- `decision_tree_state.go:146-160`, `insertNewTransition` (always without splits). -/
def insertNew (mv : Nat → Bool) (c : Compiler) (v : View) (first last rule : Nat) : Res (Compiler × View) := do
  let (c, v, i) ← insertTrans mv c v first last
  if rule = ruleNone then
    let (c, s, m) ← c.stateLinker mv stateNone 0
    let v := v.moved m
    let trans ← setAt v.trans i ⟨first, last, rule, s⟩
    return (c, { v with trans := trans })
  else
    let trans ← setAt v.trans i ⟨first, last, rule, stateNone⟩
    return (c, { v with trans := trans })

/-- `decision_tree_transition.go:16-27`, `Link`, for the transition with index `i`. -/
def linkAt (mv : Nat → Bool) (c : Compiler) (v : View) (i rule : Nat) (numSplits : Int) :
    Res (Compiler × View) := do
  let t ← idx v.trans i
  if rule ≠ ruleNone then
    if t.rule = ruleNone then return (c, { v with trans := v.trans.set i { t with rule := rule } })
    else return (c, v)
  else
    let (c, s, m) ← c.stateLinker mv t.next numSplits
    let v := v.moved m
    return (c, { v with trans := v.trans.set i { t with next := s } })

/-- `decision_tree_state.go:183-194`, `splitTransitionAt`, with `ShortenRTL`
(`decision_tree_transition.go:33-42`). -/
def splitAt (k : Kind) (mv : Nat → Bool) (c : Compiler) (v : View) (i lastOfPre : Nat) :
    Res (Compiler × View) := do
  let t ← idx v.trans i
  if lastOfPre < t.first then .panic preViolation else
  if lastOfPre ≥ t.last then .panic preViolation else
  let v := { v with trans := v.trans.set i { t with last := lastOfPre } }
  let (c, v, j) ← insertTrans mv c v (wrap k (lastOfPre + 1)) t.last
  if i ≠ u8 (j + 1) then .panic brokenCode else
  let t ← idx v.trans i
  let n ← idx v.trans j
  return (c, { v with trans := v.trans.set j { n with next := t.next, rule := t.rule } })

/-- Lines 196-202, `splitTransitionBy`. -/
def splitBy (k : Kind) (mv : Nat → Bool) (c : Compiler) (v : View) (i first last : Nat) :
    Res (Compiler × View) := do
  let (c, v) ← splitAt k mv c v i (wrap k (first + 2 ^ (8 * k.width) - 1))
  splitAt k mv c v (u8 (i + 1)) last

/-- `splitMode`, lines 111-119. -/
inductive Mode where
  | pre | firstMid | firstLast | midMid | midLast | post
deriving DecidableEq, Repr

/-- `decision_tree_state.go:122-144`, `confrontRanges`: the mode and the relevant range. -/
def confront (k : Kind) (t : Transition) (first last : Nat) : Mode × Nat × Nat :=
  if first < t.first then
    if last < t.first then (.pre, first, last)
    else (.pre, first, wrap k (t.last + 2 ^ (8 * k.width) - 1))
  else if first = t.first then
    if last ≥ t.last then (.firstLast, first, t.last) else (.firstMid, first, last)
  else if first ≤ t.last then
    if last < t.last then (.midMid, first, last) else (.midLast, first, t.last)
  else (.post, first, last)

/-- The loop of lines 60-99 and what follows. There are at most 254 transitions to come and 254 to insert,
and every iteration passes one or inserts one. -/
def appendLoop (k : Kind) (mv : Nat → Bool) (rule last : Nat) :
    (fuel : Nat) → Compiler → View → (first cand : Nat) → Res (Compiler × View)
  | 0, _, _, _, _ => .panic "out of fuel"
  | fuel + 1, c, v, first, cand =>
    if first ≤ last ∧ cand < v.trans.length then do
      let t ← idx v.trans cand
      match confront k t first last with
      | (.pre, a, b) =>
        let (c, v) ← insertNew mv c v a b rule
        appendLoop k mv rule last fuel c v (wrap k (b + 1)) (u8 (cand + 1))
      | (.firstMid, _, b) =>
        let (c, v) ← splitAt k mv c v cand b
        linkAt mv c v cand rule 1
      | (.firstLast, _, b) =>
        let (c, v) ← linkAt mv c v cand rule 0
        appendLoop k mv rule last fuel c v (wrap k (b + 1)) (u8 (cand + 1))
      | (.midMid, a, b) =>
        let (c, v) ← splitBy k mv c v cand a b
        linkAt mv c v (u8 (cand + 1)) rule 2
      | (.midLast, a, b) =>
        let (c, v) ← splitBy k mv c v cand a b
        let (c, v) ← linkAt mv c v (u8 (cand + 1)) rule 1
        appendLoop k mv rule last fuel c v (wrap k (b + 1)) (u8 (cand + 1))
      | (.post, _, _) => appendLoop k mv rule last fuel c v first (u8 (cand + 1))
    else if first > last then .ok (c, v)
    else insertNew mv c v first last rule

/-- `decision_tree_state.go:56-106`, `AppendRange`, called on `self.states[state]`. -/
def appendRange (k : Kind) (mv : Nat → Bool) (c : Compiler) (state first last rule : Nat) : Res Compiler := do
  let st ← idx c.states state
  let (cand, _) ← findTrans st.trans first
  let (c, v) ← appendLoop k mv rule last 1024 c ⟨st.trans, .same⟩ first cand
  let st ← idx c.states state
  return { c with states := c.states.set state { st with trans := v.result } }

/-! ## Feeding rules -/

/-- Ranges and single elements of a set. -/
abbrev Sets := Nat → Res (List (Nat × Nat) × List Nat)

/-- The sets of a font: `glyphrule/decision_tree_compiler.go:121-122` and `126`. -/
def glyphSets (f : FontModel.Font) : Sets := fun i => do
  let s ← f.getGlyphSet i
  let ranges ← FontModel.RSet.glyphRanges s
  let list ← FontModel.RSet.glyphList s
  return (ranges, list)

def appendRanges (k : Kind) (mv : Nat → Bool) (state rule : Nat) : List (Nat × Nat) → Compiler → Res Compiler
  | [], c => .ok c
  | r :: l, c => do
    let c ← appendRange k mv c state r.1 r.2 rule
    appendRanges k mv state rule l c

/-- Lines 106-132, the body of the loop over the states. -/
def feedState (k : Kind) (mv : Nat → Bool) (sets : Sets) (c : Compiler) (state headLen rule e g : Nat) :
    Res Compiler := do
  let st ← idx c.states state
  let states ← setAt c.states state (st.updateHead headLen)
  let c := { c with states := states }
  if e ≠ k.none then
    if g ≠ setNone then .panic brokenCode else
    appendRange k mv c state e e rule
  else
    if g = setNone then .panic brokenCode else
    let (ranges, list) ← sets g
    appendRanges k mv state rule (ranges ++ list.map fun v => (v, v)) c

def feedStates (k : Kind) (mv : Nat → Bool) (sets : Sets) (headLen rule e g : Nat) :
    List Nat → Compiler → Res Compiler
  | [], c => .ok c
  | s :: l, c => do
    let c ← feedState k mv sets c s headLen rule e g
    feedStates k mv sets headLen rule e g l c

/-- Lines 157-168: the uses of the states of a depth, checked one after the other. -/
def unused (c : Compiler) : List Nat → Res (List Nat × List Nat)
  | [] => .ok ([], [])
  | s :: l => do
    if s = 0 then .panic brokenCode else
    let n ← idx c.uses (s - 1)
    let (free, keep) ← unused c l
    return if n = 0 then (s :: free, keep) else (free, s :: keep)

/-- `decision_tree_compiler.go:147-174`, `freeUnusedStates`. -/
def freeUnused (c : Compiler) : Res Compiler :=
  if c.depth = 0 then .ok c else do
  let l ← idx c.byDepth (c.depth - 1)
  let (free, keep) ← unused c l
  return { c with freed := c.freed ++ free, byDepth := c.byDepth.set (c.depth - 1) keep }

/-- Lines 97-139, one element of the rule: the body of the loop, and the states of the next round. -/
def feedElem (k : Kind) (mv : Nat → Bool) (sets : Sets) (headLen rule e g : Nat) (froms : List Nat)
    (c : Compiler) : Res (List Nat × Compiler) := do
  let c ← feedStates k mv sets headLen rule e g froms c
  let c ← freeUnused c
  if u8 (c.depth + 1) = 0 then .panic brokenCode else
  return (c.toStates, { c with depth := u8 (c.depth + 1), toStates := [] })

/-- The loop of lines 96-140. -/
def feedLoop (k : Kind) (mv : Nat → Bool) (sets : Sets) (headLen : Nat) :
    (fuel : Nat) → Scanner → (froms : List Nat) → Compiler → Res Compiler
  | 0, s, _, c => if hasNext s then .panic "out of fuel" else .ok c
  | fuel + 1, s, froms, c =>
    if hasNext s then do
      let (s, e, g) ← next k s
      let (froms, c) ← feedElem k mv sets headLen (if hasNext s then ruleNone else c.ruleIndex) e g froms c
      feedLoop k mv sets headLen fuel s froms c
    else .ok c

/-- `decision_tree_compiler.go:76-143`, `Feed`. -/
def feed (k : Kind) (mv : Nat → Bool) (sets : Sets) (c : Compiler) (rule : Bytes) (index : Nat) :
    Res Compiler := do
  if !c.compiling then .panic preViolation else
  let c := { c with
    depth := 0, ruleIndex := index, toStates := []
    states := if c.states.length = 0 then [State.reset] else c.states
    clock := if c.states.length = 0 then c.clock + 1 else c.clock }
  let s ← start k rule
  let headLen ← rdb rule 1
  feedLoop k mv sets headLen rule.length s [0] c

/-- `decision_tree_compiler.go:46-57`, `Begin`. -/
def begin (c : Compiler) : Res Compiler :=
  if c.compiling then .panic preViolation
  else .ok { c with compiling := true, states := [], rules := [], uses := [], freed := [], byDepth := [] }

/-- `decision_tree_compiler.go:61-73`, `Finish`. -/
def finish (c : Compiler) : Res (List State × Compiler) :=
  if !c.compiling then .panic preViolation
  else .ok (c.states, { c with states := [], compiling := false })

/-- Feeding rules with their indices. -/
def feedAll (k : Kind) (mv : Nat → Bool) (sets : Sets) : List (Bytes × Nat) → Compiler → Res Compiler
  | [], c => .ok c
  | r :: l, c => do
    let c ← feed k mv sets c r.1 r.2
    feedAll k mv sets l c

/-- The whole use of a compiler: `tester.go:206-215`. -/
def compile (k : Kind) (mv : Nat → Bool) (sets : Sets) (rules : List (Bytes × Nat)) (c : Compiler) :
    Res (List State × Compiler) := do
  let c ← begin c
  let c ← feedAll k mv sets rules c
  finish c

/-! ## The tree: `decision_tree.go` -/

/-- Lines 11-17. -/
structure Tree where
  states : List State
  index : Nat := 0
  best : Nat := 0
  scanning : Bool := false
deriving DecidableEq, Repr

namespace Tree

/-- Lines 29-34. -/
def beginSeq (t : Tree) : Res Tree :=
  if t.scanning then .panic preViolation
  else .ok { t with index := 0, best := ruleNone, scanning := true }

/-- Lines 36-39. -/
def breakSeq (t : Tree) : Res Tree :=
  if !t.scanning then .panic preViolation else .ok { t with scanning := false }

/-- Lines 41-48. -/
def feed (t : Tree) (g : Nat) : Res Tree := do
  if !t.scanning then .panic preViolation else
  let st ← idx t.states t.index
  let (n, r) ← st.trigger g
  return { t with
    index := n
    best := if r ≠ ruleNone then r else t.best
    scanning := if n = stateNone then false else t.scanning }

/-- Lines 50-58. -/
def feedHead (t : Tree) (g minRequired : Nat) : Res Tree := do
  if !t.scanning then .panic preViolation else
  let st ← idx t.states t.index
  if st.satisfiesHead minRequired then t.feed g
  else return { t with scanning := false }

/-- The loop of lines 64-71. -/
def matchLoop : List Nat → Tree → Res Nat
  | [], t => do
    let t ← t.breakSeq
    return t.best
  | g :: l, t => do
    let t ← t.feed g
    if !t.scanning then return t.best else matchLoop l t

/-- Lines 62-72, `Match`. -/
def run (t : Tree) (w : List Nat) : Res Nat := do
  let t ← t.beginSeq
  matchLoop w t

end Tree
end TreeModel
