import Verif.Spec.Sections
import Verif.Spec.Names

/-!
# The demands of `specification.md`

What the document demands of the uncompressed data of a font, one by one. Positions of sections are those
of the font (`f.off…`), everything else is read from the data.
-/

namespace Spec
open FontModel

/-- The tables of end offsets (`specification.md:46`). -/
inductive Table
  | dyeAlphas | dyeNames | paletteColors | paletteNames | glyphNames | masks | words | settingNames | settings
  | switches | mapping | conditions | utf8Sets | glyphSets | utf8Rules | glyphRules
deriving DecidableEq

/-- The demands. -/
inductive Demand
  | format            -- line 60
  | dates             -- line 36
  | name              -- line 68
  | glyphCount        -- line 83
  | vertLayout        -- lines 30, 84
  | ascent            -- line 87
  | extraAscent       -- line 88
  | vertInterspacing  -- line 94
  | vertLineWidth     -- line 96
  | vertLineGap       -- line 97
  | colorSections     -- line 146
  | colors            -- line 153
  | ends (t : Table)  -- line 46
  | glyphNameOrder    -- line 165
  | glyphNames        -- line 171
  | namedGlyphs       -- line 163
  | words             -- line 210
  | settingNames      -- line 221
  | options           -- line 219
  | switchCount       -- line 232
  | switchSettings    -- line 251
  | switchCases       -- line 251
  | codePoints        -- line 237
  | mappingSwitch     -- line 242
  | conditionTerms    -- lines 305-306
  | ruleCondition (utf8 : Bool)  -- line 292
  | ruleBody (utf8 : Bool)       -- line 293
  | ruleOutput (utf8 : Bool)     -- line 292
  | ruleBlocks (utf8 : Bool)     -- line 292
  | ruleSize (utf8 : Bool)       -- line 296
  | horzPairs         -- line 320
  | vertPairs         -- line 323
  | vertKerning       -- line 322
  | ending            -- line 331
  | size              -- lines 13, 55
deriving DecidableEq

/-- Every block ends where it starts or later. -/
def Table.Ordered (f : Font) : Table → Prop
  | .dyeAlphas => ∀ i < nDyes f.data f, start8 f.data (f.offDyes + 1) i ≤ end8 f.data (f.offDyes + 1) i
  | .dyeNames => ∀ i < nDyes f.data f, start16 f.data (dyeNameEnds f.data f) i ≤ end16 f.data (dyeNameEnds f.data f) i
  | .paletteColors => ∀ i < nPalettes f.data f,
      start8 f.data (f.offPalettes + 1) i ≤ end8 f.data (f.offPalettes + 1) i
  | .paletteNames => ∀ i < nPalettes f.data f,
      start16 f.data (paletteNameEnds f.data f) i ≤ end16 f.data (paletteNameEnds f.data f) i
  | .glyphNames => ∀ i < nNamed f.data f,
      start24 f.data (glyphNameEnds f.data f) i ≤ end24 f.data (glyphNameEnds f.data f) i
  | .masks => ∀ i < nGlyphs f.data f, start24 f.data f.offGlyphMasks i ≤ end24 f.data f.offGlyphMasks i
  | .words => ∀ i < nWords f.data f, start16 f.data (f.offWords + 1) i ≤ end16 f.data (f.offWords + 1) i
  | .settingNames => ∀ i < nSettings f.data f,
      start16 f.data (f.offSettingNames + 1) i ≤ end16 f.data (f.offSettingNames + 1) i
  | .settings => ∀ i < nSettings f.data f, start16 f.data f.offSettingDefs i ≤ end16 f.data f.offSettingDefs i
  | .switches => ∀ i < nSwitches f.data f, start16 f.data (f.offSwitches + 1) i ≤ end16 f.data (f.offSwitches + 1) i
  | .mapping => ∀ i < nEntries f.data f,
      start24 f.data (mappingEnds f.data f) i ≤ end24 f.data (mappingEnds f.data f) i
  | .conditions => ∀ i < nConditions f.data f,
      start16 f.data (f.offConditions + 1) i ≤ end16 f.data (f.offConditions + 1) i
  | .utf8Sets => ∀ i < nUtf8Sets f.data f, start16 f.data (f.offUtf8Sets + 1) i ≤ end16 f.data (f.offUtf8Sets + 1) i
  | .glyphSets => ∀ i < nGlyphSets f.data f,
      start16 f.data (f.offGlyphSets + 1) i ≤ end16 f.data (f.offGlyphSets + 1) i
  | .utf8Rules => ∀ i < nUtf8Rules f.data f,
      start24 f.data (f.offUtf8Rules + 2) i ≤ end24 f.data (f.offUtf8Rules + 2) i
  | .glyphRules => ∀ i < nGlyphRules f.data f,
      start24 f.data (f.offGlyphRules + 2) i ≤ end24 f.data (f.offGlyphRules + 2) i

/-- A day needs a month, and a month needs a year. -/
def DateNested (D : Bytes) (o : Nat) : Prop :=
  (u16At D o = 0 → byteAt D (o + 2) = 0 ∧ byteAt D (o + 3) = 0) ∧ (byteAt D (o + 2) = 0 → byteAt D (o + 3) = 0)

/-- The same for dates of builders. -/
def Nested (d : DateModel.Date) : Prop := (d.year = 0 → d.month = 0 ∧ d.day = 0) ∧ (d.month = 0 → d.day = 0)

/-- The bytes of block `i`, where the ends are at `o` and the blocks at `p`. -/
def block16 (D : Bytes) (o p i : Nat) : Bytes := sub D (p + start16 D o i) (end16 D o i - start16 D o i)
def block24 (D : Bytes) (o p i : Nat) : Bytes := sub D (p + start24 D o i) (end24 D o i - start24 D o i)

def glyphNameAt (f : Font) (i : Nat) : Bytes :=
  block24 f.data (glyphNameEnds f.data f) (glyphNameData f.data f) i
def wordAt (f : Font) (i : Nat) : Bytes :=
  block16 f.data (f.offWords + 1) (f.offWords + 1 + 2 * nWords f.data f) i
def settingNameAt (f : Font) (i : Nat) : Bytes :=
  block16 f.data (f.offSettingNames + 1) (f.offSettingNames + 1 + 2 * nSettings f.data f) i
def optionsAt (f : Font) (i : Nat) : Bytes :=
  block16 f.data f.offSettingDefs (f.offSettingDefs + 2 * nSettings f.data f) i
def switchAt (f : Font) (i : Nat) : Bytes :=
  block16 f.data (f.offSwitches + 1) (f.offSwitches + 1 + 2 * nSwitches f.data f) i
def mappingAt (f : Font) (i : Nat) : Bytes := block24 f.data (mappingEnds f.data f) (mappingData f.data f) i
def conditionAt (f : Font) (i : Nat) : Bytes :=
  block16 f.data (f.offConditions + 1) (f.offConditions + 1 + 2 * nConditions f.data f) i

/-- Number of rules, and the bytes of a rule. -/
def nRules (f : Font) (utf8 : Bool) : Nat := if utf8 then nUtf8Rules f.data f else nGlyphRules f.data f
def ruleAt (f : Font) (utf8 : Bool) (i : Nat) : Bytes :=
  if utf8 then block24 f.data (f.offUtf8Rules + 2) (f.offUtf8Rules + 2 + 3 * nUtf8Rules f.data f) i
  else block24 f.data (f.offGlyphRules + 2) (f.offGlyphRules + 2 + 3 * nGlyphRules f.data f) i

/-- Length of a rule. -/
def ruleSpan (f : Font) (utf8 : Bool) (i : Nat) : Nat :=
  if utf8 then end24 f.data (f.offUtf8Rules + 2) i - start24 f.data (f.offUtf8Rules + 2) i
  else end24 f.data (f.offGlyphRules + 2) i - start24 f.data (f.offGlyphRules + 2) i

/-- Combinations of the options of the settings of a switch. -/
def casesOf (f : Font) (i : Nat) : Nat := ((switchAt f i).map fun s => (optionsAt f s.toNat).length).prod

/-- What each of them says. -/
def Demand.Holds (f : Font) : Demand → Prop
  | .format => u32At f.data 0 = 1
  | .dates => DateNested f.data 16 ∧ DateNested f.data 20 ∧ DateNested f.data 24
  | .name => 1 ≤ byteAt f.data 28
  | .glyphCount => nGlyphs f.data f ≤ 56789
  | .vertLayout => byteAt f.data (f.offMetrics + 2) = 0 ∨ byteAt f.data (f.offMetrics + 2) = 1
  | .ascent => byteAt f.data (f.offMetrics + 4) ≠ 0
  | .extraAscent => byteAt f.data (f.offMetrics + 5) < byteAt f.data (f.offMetrics + 4)
  | .vertInterspacing => byteAt f.data (f.offMetrics + 2) = 0 → byteAt f.data (f.offMetrics + 11) = 0
  | .vertLineWidth => byteAt f.data (f.offMetrics + 2) = 0 → byteAt f.data (f.offMetrics + 13) = 0
  | .vertLineGap => byteAt f.data (f.offMetrics + 2) = 0 → byteAt f.data (f.offMetrics + 14) = 0
  | .colorSections => nDyes f.data f + nPalettes f.data f ≤ 255
  | .colors => (if nDyes f.data f = 0 then 0 else dyeColors f.data f) +
      (if nPalettes f.data f = 0 then 0 else paletteColors f.data f) ≤ 255
  | .ends t => t.Ordered f
  | .glyphNameOrder => ∀ i < nNamed f.data f - 1, glyphNameAt f i < glyphNameAt f (i + 1)
  | .glyphNames => ∀ i < nNamed f.data f, Names.BasicName (glyphNameAt f i)
  | .namedGlyphs => ∀ i < nNamed f.data f, u16At f.data (f.offGlyphNames + 2 + 2 * i) < nGlyphs f.data f ∨
      (56900 ≤ u16At f.data (f.offGlyphNames + 2 + 2 * i) ∧ u16At f.data (f.offGlyphNames + 2 + 2 * i) ≤ 56999)
  | .words => ∀ i < nWords f.data f, Names.BasicName (wordAt f i)
  | .settingNames => ∀ i < nSettings f.data f, Names.BasicName (settingNameAt f i)
  | .options => ∀ i < nSettings f.data f, ∀ o ∈ optionsAt f i, o ≠ 255
  | .switchCount => nSwitches f.data f ≤ 254
  | .switchSettings => ∀ i < nSwitches f.data f, ∀ s ∈ switchAt f i, s.toNat < nSettings f.data f
  | .switchCases => ∀ i < nSwitches f.data f, casesOf f i ≤ 254
  | .codePoints => ∀ i < nEntries f.data f - 1,
      u32At f.data (f.offMapping + 2 + 4 * i) < u32At f.data (f.offMapping + 2 + 4 * (i + 1))
  | .mappingSwitch => ∀ i < nEntries f.data f,
      byteAt (mappingAt f i) 0 < nSwitches f.data f ∨ byteAt (mappingAt f i) 0 = 254 ∨ byteAt (mappingAt f i) 0 = 255
  | .conditionTerms => ∀ i < nConditions f.data f,
      byteAt (conditionAt f i) 0 < 64 → 2 ≤ byteAt (conditionAt f i) 0 % 32
  | .ruleCondition u => ∀ i < nRules f u,
      byteAt (ruleAt f u i) 0 < nConditions f.data f ∨ byteAt (ruleAt f u i) 0 = 255
  | .ruleBody u => ∀ i < nRules f u, 1 ≤ byteAt (ruleAt f u i) 2
  | .ruleOutput u => ∀ i < nRules f u, byteAt (ruleAt f u i) 4 ≤ byteAt (ruleAt f u i) 2
  | .ruleBlocks u => ∀ i < nRules f u,
      byteAt (ruleAt f u i) 1 + byteAt (ruleAt f u i) 2 + byteAt (ruleAt f u i) 3 ≤ 255
  | .ruleSize u => ∀ i < nRules f u, ruleSpan f u i ≤ 4096
  | .horzPairs => ∀ i < u24At f.data f.offHorzKern - 1,
      u32At f.data (f.offHorzKern + 3 + 4 * i) < u32At f.data (f.offHorzKern + 3 + 4 * (i + 1))
  | .vertPairs => ∀ i < u24At f.data f.offVertKern - 1,
      u32At f.data (f.offVertKern + 3 + 4 * i) < u32At f.data (f.offVertKern + 3 + 4 * (i + 1))
  | .vertKerning => byteAt f.data (f.offMetrics + 2) = 0 → u24At f.data f.offVertKern = 0
  | .ending => f.offVertKern + 3 ≤ f.data.length ∧ f.offVertKern + kernSize f.data f.offVertKern = f.data.length
  | .size => f.data.length ≤ 33554432

end Spec
