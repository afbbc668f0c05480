import Verif.Spec.History
import Verif.Spec.Names
import Verif.Spec.Date
import Verif.Spec.Colors
import Verif.Spec.Mapping

/-!
# Which calls succeed

Written without the checks of the methods.
-/

namespace Spec
open Go BuilderModel

/-- A text for the header: not too long, without control characters. -/
def TextOk (valid : Bytes → Bool) (limit : Nat) (x : Bytes) : Prop :=
  x.length ≤ limit ∧ valid x = true ∧ ∀ c ∈ x, 32 ≤ c.toNat

/-- A name of glyphs, settings and options. -/
def NameOk (x : Bytes) : Prop :=
  1 ≤ x.length ∧ x.length ≤ 32 ∧ (∀ c ∈ x, Names.Alnum c ∨ c = 45) ∧ x.head? ≠ some 45 ∧ x.getLast? ≠ some 45

/-- A date that can be checked. -/
def DateOk (d : DateModel.Date) : Prop := ¬ (d.month = 0 ∧ d.day = 0) ∧ Calendar.Valid d.year d.month d.day

/-- All visible pixels are between ascent and descent, and inside the width of a monospaced font. -/
def MaskFits (b : Builder) (mask : Mask.Img) : Prop :=
  ∀ x y, mask.alphaAt x y ≠ 0 →
    -((b.ascent.toNat : Int) + b.extraAscent.toNat) ≤ y ∧ y < b.descent.toNat + b.extraDescent.toNat ∧
    (b.monoWidth ≠ 0 → 0 ≤ x ∧ x < b.monoWidth.toNat)

/-- A switch whose settings all have options, with `n` combinations of them, counted with 64 bits. -/
def SwitchWith (b : Builder) (k n : Nat) : Prop :=
  ∃ sw, b.switches[k]? = some sw ∧ (∀ j ∈ sw, options b j ≠ 0) ∧
    combinations (sw.map (options b)) % 18446744073709551616 = n ∧ n < 9223372036854775808

/-- A switch with a setting without options. -/
def SwitchWithout (b : Builder) (k : Nat) : Prop := ∃ sw, b.switches[k]? = some sw ∧ ∃ j ∈ sw, options b j = 0

/-- How many groups have several glyphs. -/
def several (groups : List (List Nat)) : Nat := groups.countP fun g => 2 ≤ g.length

namespace Method

/-- The call succeeds. -/
def Accepts (b : Builder) : Method → Prop
  | setFirstVerDate d => DateOk d
  | setMajorVerDate d => DateOk d
  | setMinorVerDate d => DateOk d
  | setName valid x => TextOk valid 255 x
  | setFamily valid x => TextOk valid 255 x
  | setAuthor valid x => TextOk valid 255 x
  | setAbout valid x => TextOk valid 65535 x
  | setVertLineWidth v => (v ≠ 0 ↔ b.hasVertLayout = true)
  | setVertLineGap v => v ≠ 0 → b.hasVertLayout = true
  | addGlyph rolls mask => b.glyphOrder.length < 56789 ∧ MaskFits b mask ∧
      ∃ u ∈ rolls.take 4, u ∉ b.glyphOrder ∧ u ≠ 56789
  | setGlyphPlacement u _ => u ∈ b.glyphOrder
  | setGlyphName u x => u ∈ b.glyphOrder ∧ NameOk x
  | addDye x alphas => x ∉ sectionNames b ∧ (sectionSizes b).sum + alphas.length ≤ 255
  | addPalette x colors => x ∉ sectionNames b ∧ (sectionSizes b).sum + colors.length ≤ 255
  | addSetting x options => NameOk x ∧ (∀ o ∈ options, NameOk o) ∧ options.length ≤ 255 ∧
      b.settings.length < 255 ∧ ∀ s ∈ b.settings, s.name ≠ x
  | addSwitch settings => 1 ≤ settings.length ∧ settings.length ≤ 255 ∧ b.switches.length < 254 ∧ settings.Nodup ∧
      ∀ k ∈ settings, k < b.settings.length
  | map c u => 32 ≤ c ∧ u ∈ b.glyphOrder
  | mapGroup c _ us => 32 ≤ c ∧ 2 ≤ us.length ∧ us.length ≤ 127 ∧ ∀ u ∈ us, u ∈ b.glyphOrder
  | mapWithSwitchSingles c k us => 32 ≤ c ∧ k < 254 ∧ SwitchWith b k us.length
  | mapWithSwitch c k groups flags => 32 ≤ c ∧ k < 254 ∧ SwitchWith b k groups.length ∧
      (∀ g ∈ groups, 2 ≤ g.length) ∧ flags.length = groups.length
  | createGlyphSet u => b.glyphSets.length < 255 ∧ b.glyphSets.get u = none
  | addGlyphSetRange u first last => ∃ s, b.glyphSets.get u = some s ∧ s.ranges.length < 255 ∧
      first ∈ b.glyphOrder ∧ last ∈ b.glyphOrder ∧ (first, last) ∉ s.ranges
  | addGlyphSetListGlyph u g => ∃ s, b.glyphSets.get u = some s ∧ s.list.length < 255 ∧ g ∈ b.glyphOrder ∧ g ∉ s.list
  | createRuneSet _ => False
  | addRuneSetRange _ _ _ => False
  | addRuneSetListRune _ _ => False
  | addSimpleUtf8RewriteRule _ sequence => 1 ≤ sequence.length ∧ sequence.length ≤ 255
  | addGlyphRewriteRule headLen bodyLen tailLen input out =>
      headLen.toNat + bodyLen.toNat + tailLen.toNat = input.length ∧ input.length ≤ 255 ∧
      (∀ u ∈ out, u ∈ b.glyphOrder) ∧ ∀ u ∈ input, u ∈ b.glyphOrder ∨ ∃ s, b.glyphSets.get u = some s
  | _ => True

/-- The call panics. -/
def Panics (b : Builder) : Method → Prop
  | setFirstVerDate d => d.month = 0 ∧ d.day = 0
  | setMajorVerDate d => d.month = 0 ∧ d.day = 0
  | setMinorVerDate d => d.month = 0 ∧ d.day = 0
  | mapWithSwitchSingles c k _ => 32 ≤ c ∧ (254 ≤ k ∨ SwitchWithout b k)
  | mapWithSwitch c k groups flags => 32 ≤ c ∧ (254 ≤ k ∨ SwitchWithout b k ∨
      (SwitchWith b k groups.length ∧
        ((∃ pre post, groups = pre ++ [] :: post ∧ (∀ g ∈ pre, g ≠ []) ∧ several pre ≤ flags.length) ∨
         ((∀ g ∈ groups, g ≠ []) ∧ flags.length = several groups ∧ ∃ g ∈ groups, g.length = 1))))
  | createRuneSet u => b.glyphSets.get u = none
  | _ => False

/-- Masks have a byte for every pixel. `Build` and `ParseEditionData` are the subject of other properties. -/
def Plain : Method → Prop
  | addGlyph _ mask => ∀ x y, mask.rect.x0 ≤ x → x < mask.rect.x1 → mask.rect.y0 ≤ y → y < mask.rect.y1 →
      0 ≤ (y - mask.rect.y0) * mask.stride + (x - mask.rect.x0) ∧
      (y - mask.rect.y0) * mask.stride + (x - mask.rect.x0) < mask.pix.length
  | build _ => False
  | parseEditionData _ _ _ => False
  | _ => True

end Method

end Spec
