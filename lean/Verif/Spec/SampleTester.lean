import Verif.Spec.TesterUse
import Verif.Spec.SampleTrees
import Verif.Spec.SampleConditions

/-! # Testers for examples -/

namespace Sample
open Go TesterModel TreeModel ScannerModel FontModel CacheModel Spec

/-- A font with one setting and one condition: the setting is 1. -/
def testerFont : Font := conditionsFont [[0x61, 0, 9]] [3, 0]

/-- What surrounds the testers. -/
def testerEnv : Env := ⟨fun _ => true, treeSets, testerFont, List.replicate 255 0, ⟨[], 0, 0, false⟩⟩

/-- A rule whose blocks have one fragment without sets, or none. -/
def plainRule (condition : UInt8) (outs head body tail : List Nat) : RuleCode :=
  let block (l : List Nat) : List Fragment := if l = [] then [] else [⟨[], l⟩]
  ⟨condition, outs, block head, block body, block tail⟩

/-- 1 2 4 is replaced by 7. -/
def rewrite124 : RuleCode := plainRule 255 [7] [] [1, 2, 4] []
/-- 2, after 5, is replaced by 8. -/
def rewriteH52 : RuleCode := plainRule 255 [8] [5] [2] []
/-- 1 2, before 1, is replaced by 9. -/
def rewrite12T1 : RuleCode := plainRule 255 [9] [] [1, 2] [1]
/-- 1 2, before an element of set 0, is replaced by 9. -/
def rewrite12TSet : RuleCode := ⟨255, [9], [], [⟨[], [1, 2]⟩], [⟨[0], []⟩]⟩
/-- 2, after 1, is replaced by 8. -/
def rewriteH12 : RuleCode := plainRule 255 [8] [1] [2] []
/-- When the condition holds, 3 is replaced by 9. -/
def rewriteIf3 : RuleCode := plainRule 0 [9] [] [3] []
/-- 1 2 is replaced by 6 7. -/
def rewriteTwo : RuleCode := plainRule 255 [6, 7] [] [1, 2] []
/-- One element of set 0, followed by 3, is replaced by 7. -/
def rewriteSet : RuleCode := ⟨255, [7], [], [⟨[0], [3]⟩], []⟩

/-- A history on a fresh tester, with the setting at `option`. -/
def tested (v : Variant) (word : Nat → Bytes) (option : Nat) (ops : List Op) : Res (List (List Nat)) := do
  let s ← SettingsCache.new testerFont
  let s ← setOptions [(0, option)] s
  let (_, outs) ← World.run v word testerEnv ops { s := s }
  return outs

/-- Any element of set 0 is replaced by 7. -/
def onlySet : RuleCode := ⟨255, [7], [], [⟨[0], []⟩], []⟩

end Sample
