import Verif.Spec.Reachable
import Verif.Spec.TextRules

/-!
# What the calls of the public methods say

The content of a builder is described by the calls that succeeded, the latest one first. Most properties are the
argument of the latest call that sets them (`latest`); lists are the arguments of all calls in their order (`all`).
-/

namespace Spec
open Go BuilderModel EditionModel

/-- A call of a public method: its arguments, the results of the clock (`today`) and the random generator (`rolls`,
`uid`), the result of `utf8.ValidString` (`valid`). -/
inductive Method
  | setFirstVerDate (date : DateModel.Date)
  | setMajorVerDate (date : DateModel.Date)
  | setMinorVerDate (date : DateModel.Date)
  | raiseMajorVersion (today : DateModel.Date)
  | raiseMinorVersion (today : DateModel.Date)
  | setVersion (major minor : UInt16) (today today' : DateModel.Date)
  | setName (valid : Bytes → Bool) (name : Bytes)
  | setFamily (valid : Bytes → Bool) (name : Bytes)
  | setAuthor (valid : Bytes → Bool) (name : Bytes)
  | setAbout (valid : Bytes → Bool) (about : Bytes)
  | setVertLayoutUsed (used : Bool)
  | setMonoWidth (v : UInt8)
  | setAscent (v : UInt8)
  | setExtraAscent (v : UInt8)
  | setDescent (v : UInt8)
  | setExtraDescent (v : UInt8)
  | setMidlineAscent (v : UInt8)
  | setUppercaseAscent (v : UInt8)
  | setHorzInterspacing (v : UInt8)
  | setVertInterspacing (v : UInt8)
  | setLineGap (v : UInt8)
  | setVertLineWidth (v : UInt8)
  | setVertLineGap (v : UInt8)
  | addGlyph (rolls : List Nat) (mask : Mask.Img)
  | setGlyphPlacement (uid : Nat) (p : Placement)
  | setGlyphName (uid : Nat) (name : Bytes)
  | setKerningPair (prev next : Nat) (kerning : Int)
  | addDye (name : Bytes) (alphas : List UInt8)
  | addPalette (name : Bytes) (colors : List RGBA)
  | addSetting (name : Bytes) (options : List Bytes)
  | addSwitch (settings : List Nat)
  | map (codePoint : Int) (uid : Nat)
  | mapGroup (codePoint : Int) (flags : UInt8) (uids : List Nat)
  | mapWithSwitchSingles (codePoint : Int) (sw : Nat) (uids : List Nat)
  | mapWithSwitch (codePoint : Int) (sw : Nat) (groups : List (List Nat)) (flags : List UInt8)
  | createGlyphSet (uid : Nat)
  | removeGlyphSet (uid : Nat)
  | addGlyphSetRange (uid first last : Nat)
  | removeGlyphSetRange (uid first last : Nat)
  | addGlyphSetListGlyph (uid glyph : Nat)
  | removeGlyphSetListGlyph (uid glyph : Nat)
  | createRuneSet (uid : Nat)
  | removeRuneSet (uid : Nat)
  | addRuneSetRange (uid : Nat) (first last : Int)
  | removeRuneSetRange (uid : Nat) (first last : Int)
  | addRuneSetListRune (uid : Nat) (c : Int)
  | removeRuneSetListRune (uid : Nat) (c : Int)
  | addSimpleUtf8RewriteRule (c : Nat) (sequence : List Nat)
  | addGlyphRewriteRule (headLen bodyLen tailLen : UInt8) (input out : List Nat)
  | build (env : Env)
  | clearEditionData
  | parseEditionData (junk : Nat → UInt8) (sig : ParseBuf.Ev) (gz : Res ParseBuf.Reader)

namespace Method

/-- Arguments are in the range of their Go types. -/
def InRange : Method → Prop
  | setKerningPair _ _ kerning => IsInt8 kerning
  | map c _ => c < 2147483648
  | mapGroup c _ _ => c < 2147483648
  | mapWithSwitchSingles c _ _ => c < 2147483648
  | mapWithSwitch c _ _ _ => c < 2147483648
  | addSimpleUtf8RewriteRule c sequence => c < 4294967296 ∧ ∀ x ∈ sequence, x < 4294967296
  | _ => True

/-- What a method makes of the builder. -/
def call : Method → Builder → Res Builder
  | setFirstVerDate d, b => b.setFirstVerDate d
  | setMajorVerDate d, b => b.setMajorVerDate d
  | setMinorVerDate d, b => b.setMinorVerDate d
  | raiseMajorVersion today, b => .ok (b.raiseMajorVersion today)
  | raiseMinorVersion today, b => .ok (b.raiseMinorVersion today)
  | setVersion major minor today today', b => .ok (b.setVersion major minor today today')
  | setName valid name, b => b.setName valid name
  | setFamily valid name, b => b.setFamily valid name
  | setAuthor valid name, b => b.setAuthor valid name
  | setAbout valid about, b => b.setAbout valid about
  | setVertLayoutUsed v, b => .ok (b.setVertLayoutUsed v)
  | setMonoWidth v, b => .ok (b.setMonoWidth v)
  | setAscent v, b => .ok (b.setAscent v)
  | setExtraAscent v, b => .ok (b.setExtraAscent v)
  | setDescent v, b => .ok (b.setDescent v)
  | setExtraDescent v, b => .ok (b.setExtraDescent v)
  | setMidlineAscent v, b => .ok (b.setMidlineAscent v)
  | setUppercaseAscent v, b => .ok (b.setUppercaseAscent v)
  | setHorzInterspacing v, b => .ok (b.setHorzInterspacing v)
  | setVertInterspacing v, b => .ok (b.setVertInterspacing v)
  | setLineGap v, b => .ok (b.setLineGap v)
  | setVertLineWidth v, b => b.setVertLineWidth v
  | setVertLineGap v, b => b.setVertLineGap v
  | addGlyph rolls mask, b => do return (← b.addGlyph rolls mask).1
  | setGlyphPlacement uid p, b => b.setGlyphPlacement uid p
  | setGlyphName uid name, b => b.setGlyphName uid name
  | setKerningPair prev next kerning, b => .ok (b.setKerningPair prev next kerning)
  | addDye name alphas, b => b.addDye name alphas
  | addPalette name colors, b => b.addPalette name colors
  | addSetting name options, b => do return (← b.addSetting name options).1
  | addSwitch settings, b => do return (← b.addSwitch settings).1
  | map c uid, b => b.map c uid
  | mapGroup c flags uids, b => b.mapGroup c flags uids
  | mapWithSwitchSingles c sw uids, b => b.mapWithSwitchSingles c sw uids
  | mapWithSwitch c sw groups flags, b => b.mapWithSwitch c sw groups flags
  | createGlyphSet uid, b => do return (← b.createGlyphSet uid).1
  | removeGlyphSet uid, b => .ok (b.removeGlyphSet uid).1
  | addGlyphSetRange uid first last, b => b.addGlyphSetRange uid first last
  | removeGlyphSetRange uid first last, b => .ok (b.removeGlyphSetRange uid first last).1
  | addGlyphSetListGlyph uid g, b => b.addGlyphSetListGlyph uid g
  | removeGlyphSetListGlyph uid g, b => .ok (b.removeGlyphSetListGlyph uid g).1
  | createRuneSet uid, b => do return (← b.createRuneSet uid).1
  | removeRuneSet uid, b => .ok (b.removeRuneSet uid).1
  | addRuneSetRange uid first last, b => b.addRuneSetRange uid first last
  | removeRuneSetRange uid first last, b => .ok (b.removeRuneSetRange uid first last).1
  | addRuneSetListRune uid c, b => b.addRuneSetListRune uid c
  | removeRuneSetListRune uid c, b => .ok (b.removeRuneSetListRune uid c).1
  | addSimpleUtf8RewriteRule c sequence, b => b.addSimpleUtf8Rule c sequence
  | addGlyphRewriteRule headLen bodyLen tailLen input out, b => b.addGlyphRule headLen bodyLen tailLen input out
  | build env, b => do return (← b.build env).1
  | clearEditionData, b => .ok b
  | parseEditionData _ _ _, b => .ok b

/-- What a method makes of the builder with its edition data; `ParseEditionData` changes it also when it returns an
error. -/
def run : Method → Editor → Res Editor
  | clearEditionData, e => .ok (EditionModel.clearEditionData e)
  | parseEditionData junk sig gz, e => do return (← EditionModel.parseEditionData junk sig gz e).2
  | m, e => do return { e with builder := ← m.call e.builder }

end Method

/-- A builder made with `New` and calls of methods: those that succeeded, the latest one first. (Calls that return an
error change nothing.) -/
inductive History (rolls : List UInt64) (today : DateModel.Date) : List Method → Editor → Prop
  | new {b : Builder} : new rolls today = .ok b → History rolls today [] ⟨b, [], [], []⟩
  | call {l : List Method} {e e' : Editor} {m : Method} : History rolls today l e → m.InRange → m.run e = .ok e' →
      History rolls today (m :: l) e'

/-- What the latest call says, if there is one. -/
def latest {α : Type} (f : Method → Option α) (first : α) (l : List Method) : α := (l.findSome? f).getD first

/-- What all calls say, in their order. -/
def all {α : Type} (f : Method → Option α) (l : List Method) : List α := (l.filterMap f).reverse

namespace Method

def firstDate? : Method → Option DateModel.Date
  | setFirstVerDate d => some d
  | _ => none
def majorDate? : Method → Option DateModel.Date
  | setMajorVerDate d => some d
  | raiseMajorVersion today => some today
  | setVersion _ _ today _ => some today
  | _ => none
def minorDate? : Method → Option DateModel.Date
  | setMinorVerDate d => some d
  | raiseMajorVersion today => some today
  | raiseMinorVersion today => some today
  | setVersion _ _ _ today' => some today'
  | _ => none
def name? : Method → Option Bytes
  | setName _ x => some x
  | _ => none
def family? : Method → Option Bytes
  | setFamily _ x => some x
  | _ => none
def author? : Method → Option Bytes
  | setAuthor _ x => some x
  | _ => none
def about? : Method → Option Bytes
  | setAbout _ x => some x
  | _ => none
def vertLayoutUsed? : Method → Option Bool
  | setVertLayoutUsed v => some v
  | _ => none
def monoWidth? : Method → Option UInt8
  | setMonoWidth v => some v
  | _ => none
def ascent? : Method → Option UInt8
  | setAscent v => some v
  | _ => none
def extraAscent? : Method → Option UInt8
  | setExtraAscent v => some v
  | _ => none
def descent? : Method → Option UInt8
  | setDescent v => some v
  | _ => none
def extraDescent? : Method → Option UInt8
  | setExtraDescent v => some v
  | _ => none
def midlineAscent? : Method → Option UInt8
  | setMidlineAscent v => some v
  | _ => none
def uppercaseAscent? : Method → Option UInt8
  | setUppercaseAscent v => some v
  | _ => none
def horzInterspacing? : Method → Option UInt8
  | setHorzInterspacing v => some v
  | _ => none
def vertInterspacing? : Method → Option UInt8
  | setVertInterspacing v => some v
  | _ => none
def lineGap? : Method → Option UInt8
  | setLineGap v => some v
  | _ => none
def vertLineWidth? : Method → Option UInt8
  | setVertLineWidth v => some v
  | _ => none
def vertLineGap? : Method → Option UInt8
  | setVertLineGap v => some v
  | _ => none
def mask? : Method → Option Mask.Img
  | addGlyph _ mask => some mask
  | _ => none
def placement? (uid : Nat) : Method → Option Placement
  | setGlyphPlacement u p => if u = uid then some p else none
  | _ => none
def glyphName? (uid : Nat) : Method → Option Bytes
  | setGlyphName u x => if u = uid then some x else none
  | _ => none
def kerning? (pair : Nat × Nat) : Method → Option Int
  | setKerningPair prev next v => if (prev, next) = pair then some v else none
  | _ => none
def palette? : Method → Option Palette
  | addPalette x colors => some ⟨x, colors⟩
  | _ => none
def setting? : Method → Option Setting
  | addSetting x options => some ⟨x, options⟩
  | _ => none
def switch? : Method → Option (List Nat)
  | addSwitch settings => some settings
  | _ => none
/-- What a code point is mapped to; 255 and 254 stand for one glyph and for one group of glyphs. -/
def entry? (c : Int) : Method → Option MapEntry
  | map c' uid => if c' = c then some ⟨255, [⟨[uid], 0⟩]⟩ else none
  | mapGroup c' flags uids => if c' = c then some ⟨254, [⟨uids, flags⟩]⟩ else none
  | mapWithSwitchSingles c' sw uids => if c' = c then some ⟨sw, uids.map fun u => ⟨[u], 0⟩⟩ else none
  | mapWithSwitch c' sw groups flags => if c' = c then some ⟨sw, List.zipWith MapGroup.mk groups flags⟩ else none
  | _ => none
def createdSet? : Method → Option Nat
  | createGlyphSet uid => some uid
  | _ => none
def textRule? : Method → Option Replacement
  | addSimpleUtf8RewriteRule c sequence => some ⟨0, sequence, [c], 0⟩
  | _ => none
def glyphRule? : Method → Option (Nat × Nat × Nat × List Nat × List Nat)
  | addGlyphRewriteRule headLen bodyLen tailLen input out =>
    some (headLen.toNat, bodyLen.toNat, tailLen.toNat, input, out)
  | _ => none
def parses : Method → Bool
  | parseEditionData _ _ _ => true
  | _ => false

end Method

/-- The version: the latest one that was set, raised as often as the calls after it say. -/
def versionOf : List Method → UInt16 × UInt16
  | [] => (0, 1)
  | .raiseMajorVersion _ :: l => ((versionOf l).1 + 1, 0)
  | .raiseMinorVersion _ :: l => ((versionOf l).1, (versionOf l).2 + 1)
  | .setVersion major minor _ _ :: _ => (major, minor)
  | _ :: l => versionOf l

/-- The dyes that were added; building adds one when there are no colors. -/
def dyesOf : List Method → List Dye
  | [] => []
  | .addDye name alphas :: l => dyesOf l ++ [⟨name, alphas⟩]
  | .build _ :: l => if dyesOf l = [] ∧ all Method.palette? l = [] then [⟨ascii "main", [255]⟩] else dyesOf l
  | _ :: l => dyesOf l

/-- A set of glyphs: what was added since it was created. -/
def setOf (uid : Nat) : List Method → Option GlyphSet
  | [] => none
  | .createGlyphSet u :: l => if u = uid then some ⟨[], []⟩ else setOf uid l
  | .removeGlyphSet u :: l => if u = uid then none else setOf uid l
  | .addGlyphSetRange u first last :: l =>
    if u = uid then (setOf uid l).map fun s => { s with ranges := s.ranges ++ [(first, last)] } else setOf uid l
  | .addGlyphSetListGlyph u g :: l =>
    if u = uid then (setOf uid l).map fun s => { s with list := s.list ++ [g] } else setOf uid l
  | _ :: l => setOf uid l

/-- The identifier in an input element. -/
def InElem.uid : InElem → Nat
  | .one u => u
  | .set u => u

end Spec
