import Verif.Spec.SampleBuilder

/-! # Sample builders with a switch whose combinations do not fit in 64 bits -/

namespace Sample
open Go BuilderModel

/-- Adds a setting with two options, named by a number. -/
def addFlag (b : Builder) (i : Nat) : Res Builder := do
  return (← b.addSetting [byte (97 + i / 16), byte (97 + i % 16)] [ascii "off", ascii "on"]).1

/-- 64 settings with two options each. -/
def wideSettings : Builder := val fresh ((List.range 64).foldlM addFlag fourGlyphs)

/-- A switch on all of them. -/
def wideSwitch : Builder := (val (fresh, 0) (wideSettings.addSwitch (List.range 64))).1

/-- A code point mapped to no glyph for each of the 2^64 combinations. -/
def noCases : Builder := val fresh (wideSwitch.mapWithSwitchSingles 65 0 [])

/-- And another one mapped to two glyphs. -/
def noCasesMore : Builder := val fresh (noCases.mapGroup 66 9 [1003, 1001])

end Sample
