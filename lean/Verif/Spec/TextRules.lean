import Verif.Spec.Batch
import Verif.Spec.RuleScan
import Verif.Model.Builder

/-!
# Replacements, as the user of a builder thinks of them
-/

namespace Spec
open BuilderModel

/-- A replacement: how many elements at the start of the input are kept, the whole input, the output, and how many
elements at the end of the input are kept. -/
structure Replacement where
  kept : Nat
  input : List Nat
  output : List Nat
  after : Nat
deriving DecidableEq, Repr

/-- With the first half of the output only. -/
def Replacement.halved (r : Replacement) : Replacement :=
  { r with output := r.output.take ((r.output.length + 1) / 2) }

/-- The replacement for `w`: the longest input that `w` begins with, and the first one among equal inputs. -/
def Applies (L : List Replacement) (w : List Nat) (r : Replacement) : Prop :=
  ∃ before after, L = before ++ r :: after ∧ r.input <+: w ∧
    (∀ r' ∈ before, r'.input <+: w → r'.input.length < r.input.length) ∧
    ∀ r' ∈ after, r'.input <+: w → r'.input.length ≤ r.input.length

/-- From left to right: the input of the replacement is replaced; when there is none, the first element is kept. (What a
replacement keeps at the end of its input could still be what another one keeps at the start: this is for replacements
that keep nothing at the end, or nothing at the start.) -/
inductive Rewritten (L : List Replacement) : List Nat → List Nat → Prop
  | nil : Rewritten L [] []
  | keep {x : Nat} {w o : List Nat} : (∀ r ∈ L, ¬ r.input <+: x :: w) → Rewritten L w o → Rewritten L (x :: w) (x :: o)
  | rewrite {w o : List Nat} {r : Replacement} : Applies L w r → Rewritten L (w.drop r.input.length) o →
      Rewritten L w (w.take r.kept ++ r.output ++ r.input.drop (r.input.length - r.after) ++ o)

/-- The replacements of code points in a builder. -/
def textRules (b : Builder) : List Replacement := b.utf8Rules.map fun r => ⟨0, r.inElems, r.output, 0⟩

/-- The input of a rule of a builder: glyphs and sets in their order. -/
def pattern (r : Rule) : List InElem :=
  merge ((List.range (r.headLen + r.bodyLen + r.tailLen)).map fun (i : Nat) => decide (r.isGroup.get i = .ok true))
    r.inGroups r.inElems

/-- The indices of the glyphs that are meant: those of a set are in its ranges and its list. -/
def meant (b : Builder) : InElem → List Nat
  | .one u => [b.glyphOrder.idxOf u]
  | .set u => match b.glyphSets.get u with
    | none => []
    | some gs => gs.ranges.flatMap (fun x =>
        List.range' (b.glyphOrder.idxOf x.1) (b.glyphOrder.idxOf x.2 + 1 - b.glyphOrder.idxOf x.1)) ++
        gs.list.map b.glyphOrder.idxOf

/-- The replacements of a rule: one for each choice of glyphs of its sets. -/
def replacements (b : Builder) (r : Rule) : List Replacement :=
  (RuleCode.picks ((pattern r).map (meant b))).map fun p => ⟨r.headLen, p, r.output.map b.glyphOrder.idxOf, r.tailLen⟩

/-- The replacements of glyphs in a builder, with the indices of the glyphs. -/
def glyphReplacements (b : Builder) : List Replacement := b.glyphRules.flatMap (replacements b)

/-- The number of glyphs in the input of a rule, with all those of its sets. -/
def inputSize (b : Builder) (r : Rule) : Nat := ((pattern r).map fun e => (meant b e).length).sum

/-- Sets are used at the end of the input only, and they have glyphs, but no ranges of more than one. -/
def SetsAtEnd (b : Builder) (r : Rule) : Prop := ∀ u, InElem.set u ∈ pattern r → .set u ∉ (pattern r).dropLast ∧
  ∃ gs, b.glyphSets.get u = some gs ∧ (gs.ranges ≠ [] ∨ gs.list ≠ []) ∧ ∀ x ∈ gs.ranges, x.1 = x.2

/-- The ranges of the indices of the glyphs that are meant. -/
def meantRanges (b : Builder) : InElem → List (Nat × Nat)
  | .one u => [(b.glyphOrder.idxOf u, b.glyphOrder.idxOf u)]
  | .set u => match b.glyphSets.get u with
    | none => []
    | some gs => gs.ranges.map (fun x => (b.glyphOrder.idxOf x.1, b.glyphOrder.idxOf x.2)) ++
        gs.list.map fun u => (b.glyphOrder.idxOf u, b.glyphOrder.idxOf u)

/-- Sets have glyphs, and their ranges are in order and do not overlap. -/
def SetsClean (b : Builder) (r : Rule) : Prop := ∀ u, InElem.set u ∈ pattern r → meantRanges b (.set u) ≠ [] ∧
  (∀ p ∈ meantRanges b (.set u), p.1 ≤ p.2) ∧ (meantRanges b (.set u)).Pairwise fun p q => q.2 < p.1 ∨ p.2 < q.1

/-- The number of ranges in the input of a rule. -/
def inputRanges (b : Builder) (r : Rule) : Nat := ((pattern r).map fun e => (meantRanges b e).length).sum

/-- The glyphs that the input of the rule may start with. -/
def inputStarts (b : Builder) (r : Rule) : List Nat := ((pattern r).take 1).flatMap (meant b)

/-- Rules that can be compiled: with sets at the end only, or such that no two may start with the same glyph, and not too
many. -/
def SetsUsable (b : Builder) : Prop :=
  ((∀ r ∈ b.glyphRules, SetsAtEnd b r) ∧ (b.glyphRules.map (inputSize b)).sum ≤ 253) ∨
  ((∀ r ∈ b.glyphRules, SetsClean b r) ∧ (b.glyphRules.map (inputRanges b)).sum ≤ 253 ∧
    b.glyphRules.Pairwise fun p q => ∀ v ∈ inputStarts b p, v ∉ inputStarts b q)

end Spec
