import Verif.Model.Tester
import Verif.Spec.Batch
import Verif.Spec.Forks

/-!
# Using testers

Whole sequences, and histories of operations on one tester. An error ends a history.
-/

namespace TesterModel
open Go ScannerModel TreeModel FontModel CacheModel Spec

/-- What surrounds a tester: growth of slices, sets, font, memory for the accumulator and for trees. -/
structure Env where
  mv : Nat → Bool
  sets : Sets
  font : Font
  junk : List Nat
  old : Tree

/-- The elements that are not skipped nor refused. -/
def Variant.accepted (v : Variant) (w : List Nat) : List Nat := w.filter fun g => !v.skip g && !v.bad g

/-- Glyph indices up to `GlyphMissing`. -/
def glyphsOnly (w : List Nat) : List Nat := w.filter fun g => decide (g ≤ 56789)

/-- Code points that are not surrogates and not U+FFFD. -/
def runesOnly (w : List Nat) : List Nat :=
  w.filter fun c => decide (c < 0xD800 ∨ 0xE000 ≤ c ∧ c < 0x110000 ∧ c ≠ 0xFFFD)

namespace Tester

/-- Adding rules one after the other, up to the first error. -/
def addRules (k : Kind) (old : Tree) : List Bytes → Tester → Res (Tester × Option String)
  | [], T => .ok (T, none)
  | r :: l, T => do
    let (T, e) ← T.addRule k r old
    if e.isSome then return (T, e) else addRules k old l T

/-- Feeding a sequence of elements, ignoring errors. -/
def feedSeq (v : Variant) : List Nat → Tester → Res (Tester × List Nat)
  | [], T => .ok (T, [])
  | g :: l, T => do
    let (T, out, _) ← T.feed v g
    let (T, rest) ← feedSeq v l T
    return (T, out ++ rest)

end Tester

/-- A tester, the shared compiler and the settings. -/
structure World where
  T : Tester := {}
  c : Compiler := {}
  s : SettingsCache

/-- An error ends a history. -/
def stop {α : Type} (x : α) : Option String → Res α
  | none => .ok x
  | some e => .err e

/-- A whole sequence: begin, feed, finish. -/
def World.process (v : Variant) (E : Env) (w : List Nat) (W : World) : Res (World × List Nat) := do
  let (T, c, s, e) ← W.T.beginSequence v.kind E.mv E.sets E.font E.junk W.c W.s
  let T ← stop T e
  let (T, out) ← T.feedSeq v w
  let (T, last) ← T.finishSequence v
  return (⟨T, c, s⟩, out ++ last)

/-- A sequence that is not finished: begin and feed. -/
def World.partway (v : Variant) (E : Env) (w : List Nat) (W : World) : Res (Tester × List Nat) := do
  let (T, _, _, e) ← W.T.beginSequence v.kind E.mv E.sets E.font E.junk W.c W.s
  let T ← stop T e
  T.feedSeq v w

/-- Operations between and including whole sequences. -/
inductive Op where
  | add (r : RuleCode)
  | remove (r : RuleCode)
  | removeAll
  | resync
  | refresh
  | seq (w : List Nat)

/-- One operation; the output of a sequence. -/
def World.step (v : Variant) (word : Nat → Bytes) (E : Env) (W : World) : Op → Res (World × List (List Nat))
  | .add r => do
    let (T, e) ← W.T.addRule v.kind (r.bytes word) E.old
    let T ← stop T e
    return ({ W with T := T }, [])
  | .remove r => do
    let (T, _) ← W.T.removeRule (r.bytes word)
    return ({ W with T := T }, [])
  | .removeAll => do
    let T ← W.T.removeAllRules
    return ({ W with T := T }, [])
  | .resync => do
    let (T, c, s, e) ← W.T.resync v.kind E.mv E.sets E.font E.junk W.c W.s
    let T ← stop T e
    return (⟨T, c, s⟩, [])
  | .refresh => do
    let (T, s) ← W.T.refreshConditions E.font W.s
    return ({ W with T := T, s := s }, [])
  | .seq w => do
    let (W, out) ← W.process v E w
    return (W, [out])

/-- A history: the outputs of its sequences. -/
def World.run (v : Variant) (word : Nat → Bytes) (E : Env) : List Op → World → Res (World × List (List Nat))
  | [], W => .ok (W, [])
  | op :: ops, W => do
    let (W, out) ← W.step v word E op
    let (W, outs) ← World.run v word E ops W
    return (W, out ++ outs)

/-! ## What is expected -/

/-- The rules after an operation. -/
def Op.rules (word : Nat → Bytes) (R : List RuleCode) : Op → List RuleCode
  | .add r => R ++ [r]
  | .remove r => R.eraseP fun x => decide (x.bytes word = r.bytes word)
  | .removeAll => []
  | .resync => R
  | .refresh => R
  | .seq _ => R

/-- Setting options one after the other. -/
def setOptions : List (UInt8 × Nat) → SettingsCache → Res SettingsCache
  | [], s => .ok s
  | (k, v) :: l, s => do
    let (s, _) ← s.set k.toNat v
    setOptions l s

/-- A condition that is evaluated without a panic. -/
def Evaluable (f : Font) (settings : List Nat) (c : Nat) : Prop := c = 255 ∨ ∃ b, f.evaluateCondition c settings = .ok b

/-- The value of a condition: 255 stands for rules without condition. -/
def holds (f : Font) (settings : List Nat) (c : Nat) : Bool :=
  if c = 255 then true else match f.evaluateCondition c settings with
    | .ok b => b
    | _ => false

/-- Glyph rules; the outputs are glyph indices and the condition can be evaluated. -/
def GlyphRule (E : Env) (settings : List Nat) (r : RuleCode) : Prop :=
  r.Ok (· < 56789) ∧ (∀ g ∈ r.outs, g < 65536) ∧ Evaluable E.font settings r.condition.toNat

/-- The same for code points. -/
def Utf8Rule (E : Env) (settings : List Nat) (r : RuleCode) : Prop :=
  (r.Ok fun v => v < 2147483647 ∧ v ≠ 65533) ∧ (∀ g ∈ r.outs, g < 4294967296) ∧
    Evaluable E.font settings r.condition.toNat

/-- Rules that are compiled as they should: with sets only as last elements and at most 253 elements, or with sets
anywhere, made of at most 253 ranges, when no two rules may start with the same element, or when the rules may share
single elements and then part. -/
def Compilable (sets : Sets) (S : Nat → List Nat) (max : Nat) (R : List RuleCode) : Prop :=
  ((∀ r ∈ R, r.SetsLast ∧ Known sets S max r) ∧ (R.map fun r => r.weight S).sum ≤ 253) ∨
  (∃ Q, (∀ i, S i = spread (Q i)) ∧ (∀ r ∈ R, Laid sets Q max r) ∧ (R.map fun r => r.extent Q).sum ≤ 253 ∧
    R.Pairwise fun a b => ∀ v ∈ a.starts Q, v ∉ b.starts Q) ∨
  ∃ (Q : Nat → List (Nat × Nat)) (fork : RuleCode → Option Nat), (∀ i, S i = spread (Q i)) ∧
    (∀ r ∈ R, Branching sets Q max (fork r) r) ∧ (R.map fun r => r.reach Q (fork r)).sum ≤ 253 ∧
    R.Pairwise fun a b => Parted Q (fork a) a b ∧ Parted Q (fork b) b a

/-- Rules such that those with the same condition are compiled as they should. -/
def Tidy (sets : Sets) (S : Nat → List Nat) (max : Nat) (R : List RuleCode) : Prop :=
  ∀ c, Compilable sets S max (R.filter fun r => decide (r.condition.toNat = c))

/-- A rule without a tail, or with a tail of one element when no rule has a head. -/
def _root_.Spec.RuleCode.ShortTail (R : List RuleCode) (r : RuleCode) : Prop :=
  r.tail = [] ∨ (blockSize r.tail = 1 ∧ ∀ q ∈ R, q.head = [])

/-- The rules that occur in the input have short tails and one output element. -/
def Simple (S : Nat → List Nat) (R : List RuleCode) (w : List Nat) : Prop := ∀ r ∈ R, r.OccursIn S w → r.ShortTail R ∧ r.outs.length ≤ 1

/-- The rules that occur in the input have short tails. -/
def ShortTails (S : Nat → List Nat) (R : List RuleCode) (w : List Nat) : Prop := ∀ r ∈ R, r.OccursIn S w → r.ShortTail R

/-- What the code puts out for a glyph rule: the first half of its output elements. -/
def glyphVisits (r : RuleCode) : List Nat := r.outs.take ((r.outs.length + 1) / 2)

/-- What the code puts out for a rule over code points: half as many values as there are output elements. They are taken
at every second byte pair, so that every second one is the upper half of an element with the lower half of the next. -/
def runeVisits (r : RuleCode) : List Nat :=
  (List.range ((r.outs.length + 1) / 2)).map fun j =>
    if j % 2 = 0 then r.outs.getD (j / 2) 0
    else r.outs.getD (j / 2) 0 / 65536 + r.outs.getD (j / 2 + 1) 0 % 65536 * 65536

/-- What a history may do: rules satisfy `Q`, there are not too many, they satisfy `K` when they are compiled, and there is
one when a sequence begins; sequences satisfy `X` with respect to the rules. -/
def Allowed (K : List RuleCode → Prop) (v : Variant) (word : Nat → Bytes) (Q : RuleCode → Prop) (X : List RuleCode → List Nat → Prop) :
    List RuleCode → List Op → Prop
  | _, [] => True
  | R, op :: ops =>
    (match op with
      | .add r => Q r ∧ R.length < 254
      | .resync => K R
      | .seq w => R ≠ [] ∧ K R ∧ X R (v.accepted w)
      | _ => True) ∧ Allowed K v word Q X (op.rules word R) ops

/-- The outputs expected from the sequences of a history: those of `B` with the rules at that time. -/
def Outputs (v : Variant) (word : Nat → Bytes) (B : List RuleCode → List Nat → List Nat → Prop) :
    List RuleCode → List Op → List (List Nat) → Prop
  | _, [], outs => outs = []
  | R, op :: ops, outs =>
    match op with
    | .seq w => ∃ o rest, outs = o :: rest ∧ B R (v.accepted w) o ∧ Outputs v word B R ops rest
    | op => Outputs v word B (op.rules word R) ops outs

end TesterModel
