import Verif.Model.Build
import Verif.Model.Edition
import Verif.Spec.Kern

/-!
# Builders that can be reached with the public methods

Every method that changes the builder is a step; calls that return an error change nothing, but for
`ParseEditionData`. Arguments are in the range of their Go types. Methods that are not implemented
(`NewFrom`, `Unmap`, `AddUtf8RewriteRule`, `ExportEditionData`, `ValidateEditionData`) always panic.
-/

namespace Spec
open Go BuilderModel EditionModel

/-- One successful call of a method. -/
inductive Call (b : Builder) : Builder → Prop
  | setFirstVerDate {d b'} : b.setFirstVerDate d = .ok b' → Call b b'
  | setMajorVerDate {d b'} : b.setMajorVerDate d = .ok b' → Call b b'
  | setMinorVerDate {d b'} : b.setMinorVerDate d = .ok b' → Call b b'
  | raiseMajorVersion (today) : Call b (b.raiseMajorVersion today)
  | raiseMinorVersion (today) : Call b (b.raiseMinorVersion today)
  | setVersion (major minor today today') : Call b (b.setVersion major minor today today')
  | setName {valid name b'} : b.setName valid name = .ok b' → Call b b'
  | setFamily {valid name b'} : b.setFamily valid name = .ok b' → Call b b'
  | setAuthor {valid name b'} : b.setAuthor valid name = .ok b' → Call b b'
  | setAbout {valid about b'} : b.setAbout valid about = .ok b' → Call b b'
  | setVertLayoutUsed (v) : Call b (b.setVertLayoutUsed v)
  | setMonoWidth (v) : Call b (b.setMonoWidth v)
  | setAscent (v) : Call b (b.setAscent v)
  | setExtraAscent (v) : Call b (b.setExtraAscent v)
  | setDescent (v) : Call b (b.setDescent v)
  | setExtraDescent (v) : Call b (b.setExtraDescent v)
  | setMidlineAscent (v) : Call b (b.setMidlineAscent v)
  | setUppercaseAscent (v) : Call b (b.setUppercaseAscent v)
  | setHorzInterspacing (v) : Call b (b.setHorzInterspacing v)
  | setVertInterspacing (v) : Call b (b.setVertInterspacing v)
  | setLineGap (v) : Call b (b.setLineGap v)
  | setVertLineWidth {v b'} : b.setVertLineWidth v = .ok b' → Call b b'
  | setVertLineGap {v b'} : b.setVertLineGap v = .ok b' → Call b b'
  | addGlyph {rolls mask b' uid} : b.addGlyph rolls mask = .ok (b', uid) → Call b b'
  | setGlyphPlacement {uid p b'} : b.setGlyphPlacement uid p = .ok b' → Call b b'
  | setGlyphName {uid name b'} : b.setGlyphName uid name = .ok b' → Call b b'
  | setKerningPair (prev next) {kerning} : IsInt8 kerning → Call b (b.setKerningPair prev next kerning)
  | addDye {name alphas b'} : b.addDye name alphas = .ok b' → Call b b'
  | addPalette {name colors b'} : b.addPalette name colors = .ok b' → Call b b'
  | addSetting {name options b' key} : b.addSetting name options = .ok (b', key) → Call b b'
  | addSwitch {settings b' i} : b.addSwitch settings = .ok (b', i) → Call b b'
  | map {c uid b'} : c < 2147483648 → b.map c uid = .ok b' → Call b b'
  | mapGroup {c flags uids b'} : c < 2147483648 → b.mapGroup c flags uids = .ok b' → Call b b'
  | mapWithSwitchSingles {c sw uids b'} : c < 2147483648 → b.mapWithSwitchSingles c sw uids = .ok b' → Call b b'
  | mapWithSwitch {c sw groups flags b'} : c < 2147483648 →
      b.mapWithSwitch c sw groups flags = .ok b' → Call b b'
  | createGlyphSet {uid b' i} : b.createGlyphSet uid = .ok (b', i) → Call b b'
  | removeGlyphSet (uid) : Call b (b.removeGlyphSet uid).1
  | addGlyphSetRange {uid first last b'} : b.addGlyphSetRange uid first last = .ok b' → Call b b'
  | removeGlyphSetRange (uid first last) : Call b (b.removeGlyphSetRange uid first last).1
  | addGlyphSetListGlyph {uid g b'} : b.addGlyphSetListGlyph uid g = .ok b' → Call b b'
  | removeGlyphSetListGlyph (uid g) : Call b (b.removeGlyphSetListGlyph uid g).1
  | createRuneSet {uid b' i} : b.createRuneSet uid = .ok (b', i) → Call b b'
  | removeRuneSet (uid) : Call b (b.removeRuneSet uid).1
  | addRuneSetRange {uid first last b'} : b.addRuneSetRange uid first last = .ok b' → Call b b'
  | removeRuneSetRange (uid first last) : Call b (b.removeRuneSetRange uid first last).1
  | addRuneSetListRune {uid c b'} : b.addRuneSetListRune uid c = .ok b' → Call b b'
  | removeRuneSetListRune (uid c) : Call b (b.removeRuneSetListRune uid c).1
  | addSimpleUtf8RewriteRule {c sequence b'} : c < 4294967296 → (∀ x ∈ sequence, x < 4294967296) →
      b.addSimpleUtf8Rule c sequence = .ok b' → Call b b'
  | addGlyphRewriteRule {headLen bodyLen tailLen input out b'} :
      b.addGlyphRule headLen bodyLen tailLen input out = .ok b' → Call b b'
  | build {env b' f} : b.build env = .ok (b', f) → Call b b'

/-- Builders with their edition data. `New` makes neither categories nor conditions. -/
inductive Edits : Editor → Prop
  | new {rolls today b} : new rolls today = .ok b → Edits ⟨b, [], [], []⟩
  | call {e b'} : Edits e → Call e.builder b' → Edits { e with builder := b' }
  | clear {e} : Edits e → Edits (clearEditionData e)
  | parse {e junk sig gz err e'} : Edits e → parseEditionData junk sig gz e = .ok (err, e') → Edits e'

/-- What the public methods can lead to. -/
def Reachable (b : Builder) : Prop := ∃ e, Edits e ∧ e.builder = b

end Spec
