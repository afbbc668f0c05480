import Verif.Spec.SampleHistory
import Verif.Lemmas.RuleHistory
import Verif.Lemmas.TextRules
import Verif.Lemmas.EditionLoad
import Verif.Lemmas.Kern
import Verif.Spec.History

/-! # Builders and the calls that made them -/

namespace Spec
open Go BuilderModel EditionModel

/-- A successful call is one of those of `Call`. -/
theorem Method.run_call {m : Method} {e e' : Editor} (hr : m.InRange) (h : m.run e = .ok e') (he : Edits e) : Edits e' := by
  have key : ∀ {b' : Builder}, Call e.builder b' → ({ e with builder := b' } : Editor) = e' → Edits e' := by
    rintro b' hc rfl
    exact he.call hc
  have go : ∀ {r : Res Builder}, (do return { e with builder := ← r }) = Res.ok e' →
      ∃ b', r = .ok b' ∧ ({ e with builder := b' } : Editor) = e' := fun h => by
    simpa only [Res.bind_eq_ok, Res.pure_eq, Res.ok.injEq] using h
  have fst : ∀ {α : Type} {r : Res (Builder × α)} {b' : Builder}, (do return (← r).1) = Res.ok b' →
      ∃ x, r = .ok (b', x) := fun {α r b'} h => by
    simp only [Res.bind_eq_ok, Res.pure_eq, Res.ok.injEq] at h
    obtain ⟨⟨b, x⟩, hr, rfl⟩ := h
    exact ⟨x, hr⟩
  cases m with
  | clearEditionData =>
    obtain rfl := Res.ok.inj h
    exact he.clear
  | parseEditionData junk sig gz =>
    simp only [Method.run, Res.bind_eq_ok, Res.pure_eq, Res.ok.injEq] at h
    obtain ⟨⟨err, e1⟩, hp, rfl⟩ := h
    exact he.parse hp
  | setFirstVerDate => obtain ⟨b', h, he⟩ := go h; exact key (.setFirstVerDate h) he
  | setMajorVerDate => obtain ⟨b', h, he⟩ := go h; exact key (.setMajorVerDate h) he
  | setMinorVerDate => obtain ⟨b', h, he⟩ := go h; exact key (.setMinorVerDate h) he
  | raiseMajorVersion => obtain ⟨b', h, he⟩ := go h; cases h; exact key (.raiseMajorVersion _) he
  | raiseMinorVersion => obtain ⟨b', h, he⟩ := go h; cases h; exact key (.raiseMinorVersion _) he
  | setVersion => obtain ⟨b', h, he⟩ := go h; cases h; exact key (.setVersion ..) he
  | setName => obtain ⟨b', h, he⟩ := go h; exact key (.setName h) he
  | setFamily => obtain ⟨b', h, he⟩ := go h; exact key (.setFamily h) he
  | setAuthor => obtain ⟨b', h, he⟩ := go h; exact key (.setAuthor h) he
  | setAbout => obtain ⟨b', h, he⟩ := go h; exact key (.setAbout h) he
  | setVertLayoutUsed => obtain ⟨b', h, he⟩ := go h; cases h; exact key (.setVertLayoutUsed _) he
  | setMonoWidth => obtain ⟨b', h, he⟩ := go h; cases h; exact key (.setMonoWidth _) he
  | setAscent => obtain ⟨b', h, he⟩ := go h; cases h; exact key (.setAscent _) he
  | setExtraAscent => obtain ⟨b', h, he⟩ := go h; cases h; exact key (.setExtraAscent _) he
  | setDescent => obtain ⟨b', h, he⟩ := go h; cases h; exact key (.setDescent _) he
  | setExtraDescent => obtain ⟨b', h, he⟩ := go h; cases h; exact key (.setExtraDescent _) he
  | setMidlineAscent => obtain ⟨b', h, he⟩ := go h; cases h; exact key (.setMidlineAscent _) he
  | setUppercaseAscent => obtain ⟨b', h, he⟩ := go h; cases h; exact key (.setUppercaseAscent _) he
  | setHorzInterspacing => obtain ⟨b', h, he⟩ := go h; cases h; exact key (.setHorzInterspacing _) he
  | setVertInterspacing => obtain ⟨b', h, he⟩ := go h; cases h; exact key (.setVertInterspacing _) he
  | setLineGap => obtain ⟨b', h, he⟩ := go h; cases h; exact key (.setLineGap _) he
  | setVertLineWidth => obtain ⟨b', h, he⟩ := go h; exact key (.setVertLineWidth h) he
  | setVertLineGap => obtain ⟨b', h, he⟩ := go h; exact key (.setVertLineGap h) he
  | addGlyph => obtain ⟨b', h, he⟩ := go h; obtain ⟨x, h⟩ := fst h; exact key (.addGlyph h) he
  | setGlyphPlacement => obtain ⟨b', h, he⟩ := go h; exact key (.setGlyphPlacement h) he
  | setGlyphName => obtain ⟨b', h, he⟩ := go h; exact key (.setGlyphName h) he
  | setKerningPair => obtain ⟨b', h, he⟩ := go h; cases h; exact key (.setKerningPair _ _ hr) he
  | addDye => obtain ⟨b', h, he⟩ := go h; exact key (.addDye h) he
  | addPalette => obtain ⟨b', h, he⟩ := go h; exact key (.addPalette h) he
  | addSetting => obtain ⟨b', h, he⟩ := go h; obtain ⟨x, h⟩ := fst h; exact key (.addSetting h) he
  | addSwitch => obtain ⟨b', h, he⟩ := go h; obtain ⟨x, h⟩ := fst h; exact key (.addSwitch h) he
  | map => obtain ⟨b', h, he⟩ := go h; exact key (.map hr h) he
  | mapGroup => obtain ⟨b', h, he⟩ := go h; exact key (.mapGroup hr h) he
  | mapWithSwitchSingles => obtain ⟨b', h, he⟩ := go h; exact key (.mapWithSwitchSingles hr h) he
  | mapWithSwitch => obtain ⟨b', h, he⟩ := go h; exact key (.mapWithSwitch hr h) he
  | createGlyphSet => obtain ⟨b', h, he⟩ := go h; obtain ⟨x, h⟩ := fst h; exact key (.createGlyphSet h) he
  | removeGlyphSet => obtain ⟨b', h, he⟩ := go h; cases h; exact key (.removeGlyphSet _) he
  | addGlyphSetRange => obtain ⟨b', h, he⟩ := go h; exact key (.addGlyphSetRange h) he
  | removeGlyphSetRange => obtain ⟨b', h, he⟩ := go h; cases h; exact key (.removeGlyphSetRange ..) he
  | addGlyphSetListGlyph => obtain ⟨b', h, he⟩ := go h; exact key (.addGlyphSetListGlyph h) he
  | removeGlyphSetListGlyph => obtain ⟨b', h, he⟩ := go h; cases h; exact key (.removeGlyphSetListGlyph ..) he
  | createRuneSet => obtain ⟨b', h, he⟩ := go h; obtain ⟨x, h⟩ := fst h; exact key (.createRuneSet h) he
  | removeRuneSet => obtain ⟨b', h, he⟩ := go h; cases h; exact key (.removeRuneSet _) he
  | addRuneSetRange => obtain ⟨b', h, he⟩ := go h; exact key (.addRuneSetRange h) he
  | removeRuneSetRange => obtain ⟨b', h, he⟩ := go h; cases h; exact key (.removeRuneSetRange ..) he
  | addRuneSetListRune => obtain ⟨b', h, he⟩ := go h; exact key (.addRuneSetListRune h) he
  | removeRuneSetListRune => obtain ⟨b', h, he⟩ := go h; cases h; exact key (.removeRuneSetListRune ..) he
  | addSimpleUtf8RewriteRule => obtain ⟨b', h, he⟩ := go h; exact key (.addSimpleUtf8RewriteRule hr.1 hr.2 h) he
  | addGlyphRewriteRule => obtain ⟨b', h, he⟩ := go h; exact key (.addGlyphRewriteRule h) he
  | build => obtain ⟨b', h, he⟩ := go h; obtain ⟨x, h⟩ := fst h; exact key (.build h) he

theorem History.edits {rolls : List UInt64} {today : DateModel.Date} {l : List Method} {e : Editor}
    (h : History rolls today l e) : Edits e := by
  induction h with
  | new h => exact .new h
  | call _ hr h ih => exact Method.run_call hr h ih

/-- Every call of `Call` is a call of a method. -/
theorem Call.method {b b' : Builder} (h : Call b b') (e : Editor) (he : e.builder = b) :
    ∃ m : Method, m.InRange ∧ m.run e = .ok { e with builder := b' } := by
  subst he
  have go : ∀ {r : Res Builder}, r = .ok b' → (do return { e with builder := ← r }) = Res.ok { e with builder := b' } :=
    fun h => by rw [h]; rfl
  have fst : ∀ {α : Type} {r : Res (Builder × α)} {x : α}, r = .ok (b', x) → (do return (← r).1) = Res.ok b' :=
    fun h => by rw [h]; rfl
  cases h with
  | setFirstVerDate h => exact ⟨.setFirstVerDate _, trivial, go h⟩
  | setMajorVerDate h => exact ⟨.setMajorVerDate _, trivial, go h⟩
  | setMinorVerDate h => exact ⟨.setMinorVerDate _, trivial, go h⟩
  | raiseMajorVersion t => exact ⟨.raiseMajorVersion t, trivial, rfl⟩
  | raiseMinorVersion t => exact ⟨.raiseMinorVersion t, trivial, rfl⟩
  | setVersion a b t t' => exact ⟨.setVersion a b t t', trivial, rfl⟩
  | setName h => exact ⟨.setName _ _, trivial, go h⟩
  | setFamily h => exact ⟨.setFamily _ _, trivial, go h⟩
  | setAuthor h => exact ⟨.setAuthor _ _, trivial, go h⟩
  | setAbout h => exact ⟨.setAbout _ _, trivial, go h⟩
  | setVertLayoutUsed v => exact ⟨.setVertLayoutUsed v, trivial, rfl⟩
  | setMonoWidth v => exact ⟨.setMonoWidth v, trivial, rfl⟩
  | setAscent v => exact ⟨.setAscent v, trivial, rfl⟩
  | setExtraAscent v => exact ⟨.setExtraAscent v, trivial, rfl⟩
  | setDescent v => exact ⟨.setDescent v, trivial, rfl⟩
  | setExtraDescent v => exact ⟨.setExtraDescent v, trivial, rfl⟩
  | setMidlineAscent v => exact ⟨.setMidlineAscent v, trivial, rfl⟩
  | setUppercaseAscent v => exact ⟨.setUppercaseAscent v, trivial, rfl⟩
  | setHorzInterspacing v => exact ⟨.setHorzInterspacing v, trivial, rfl⟩
  | setVertInterspacing v => exact ⟨.setVertInterspacing v, trivial, rfl⟩
  | setLineGap v => exact ⟨.setLineGap v, trivial, rfl⟩
  | setVertLineWidth h => exact ⟨.setVertLineWidth _, trivial, go h⟩
  | setVertLineGap h => exact ⟨.setVertLineGap _, trivial, go h⟩
  | addGlyph h => exact ⟨.addGlyph _ _, trivial, go (fst h)⟩
  | setGlyphPlacement h => exact ⟨.setGlyphPlacement _ _, trivial, go h⟩
  | setGlyphName h => exact ⟨.setGlyphName _ _, trivial, go h⟩
  | setKerningPair p n h => exact ⟨.setKerningPair p n _, h, rfl⟩
  | addDye h => exact ⟨.addDye _ _, trivial, go h⟩
  | addPalette h => exact ⟨.addPalette _ _, trivial, go h⟩
  | addSetting h => exact ⟨.addSetting _ _, trivial, go (fst h)⟩
  | addSwitch h => exact ⟨.addSwitch _, trivial, go (fst h)⟩
  | map hr h => exact ⟨.map _ _, hr, go h⟩
  | mapGroup hr h => exact ⟨.mapGroup _ _ _, hr, go h⟩
  | mapWithSwitchSingles hr h => exact ⟨.mapWithSwitchSingles _ _ _, hr, go h⟩
  | mapWithSwitch hr h => exact ⟨.mapWithSwitch _ _ _ _, hr, go h⟩
  | createGlyphSet h => exact ⟨.createGlyphSet _, trivial, go (fst h)⟩
  | removeGlyphSet u => exact ⟨.removeGlyphSet u, trivial, rfl⟩
  | addGlyphSetRange h => exact ⟨.addGlyphSetRange _ _ _, trivial, go h⟩
  | removeGlyphSetRange u a c => exact ⟨.removeGlyphSetRange u a c, trivial, rfl⟩
  | addGlyphSetListGlyph h => exact ⟨.addGlyphSetListGlyph _ _, trivial, go h⟩
  | removeGlyphSetListGlyph u a => exact ⟨.removeGlyphSetListGlyph u a, trivial, rfl⟩
  | createRuneSet h => exact ⟨.createRuneSet _, trivial, go (fst h)⟩
  | removeRuneSet u => exact ⟨.removeRuneSet u, trivial, rfl⟩
  | addRuneSetRange h => exact ⟨.addRuneSetRange _ _ _, trivial, go h⟩
  | removeRuneSetRange u a c => exact ⟨.removeRuneSetRange u a c, trivial, rfl⟩
  | addRuneSetListRune h => exact ⟨.addRuneSetListRune _ _, trivial, go h⟩
  | removeRuneSetListRune u a => exact ⟨.removeRuneSetListRune u a, trivial, rfl⟩
  | addSimpleUtf8RewriteRule h1 h2 h => exact ⟨.addSimpleUtf8RewriteRule _ _, ⟨h1, h2⟩, go h⟩
  | addGlyphRewriteRule h => exact ⟨.addGlyphRewriteRule _ _ _ _ _, trivial, go h⟩
  | build h => exact ⟨.build _, trivial, go (fst h)⟩

theorem Edits.history {e : Editor} (h : Edits e) : ∃ rolls today l, History rolls today l e := by
  induction h with
  | new h => exact ⟨_, _, [], .new h⟩
  | call _ hc ih =>
    obtain ⟨rolls, today, l, ih⟩ := ih
    obtain ⟨m, h1, h2⟩ := hc.method _ rfl
    exact ⟨rolls, today, m :: l, ih.call h1 h2⟩
  | clear _ ih =>
    obtain ⟨rolls, today, l, ih⟩ := ih
    exact ⟨rolls, today, .clearEditionData :: l, ih.call trivial rfl⟩
  | @parse e junk sig gz err e' _ hp ih =>
    obtain ⟨rolls, today, l, ih⟩ := ih
    refine ⟨rolls, today, .parseEditionData junk sig gz :: l, ih.call trivial ?_⟩
    show (do return (← EditionModel.parseEditionData junk sig gz e).2) = Res.ok e'
    rw [hp]
    rfl

/-! ## What the methods do -/

/-- The value of a pair, whatever its class. -/
def pairValue (m : GoMap (Nat × Nat) KernPair) (key : Nat × Nat) : Int := ((m.get key).map (·.value)).getD 0

/-- What a successful call of a method does to the builder. -/
def Method.Effect : Method → Builder → Builder → Prop
  | setFirstVerDate d, b, b' => b' = { b with firstVersionDate := d }
  | setMajorVerDate d, b, b' => b' = { b with majorVersionDate := d }
  | setMinorVerDate d, b, b' => b' = { b with minorVersionDate := d }
  | raiseMajorVersion t, b, b' => b' = b.raiseMajorVersion t
  | raiseMinorVersion t, b, b' => b' = b.raiseMinorVersion t
  | setVersion x y t t', b, b' => b' = b.setVersion x y t t'
  | setName _ x, b, b' => b' = { b with fontName := x }
  | setFamily _ x, b, b' => b' = { b with fontFamily := x }
  | setAuthor _ x, b, b' => b' = { b with fontAuthor := x }
  | setAbout _ x, b, b' => b' = { b with fontAbout := x }
  | setVertLayoutUsed v, b, b' => b' = b.setVertLayoutUsed v
  | setMonoWidth v, b, b' => b' = b.setMonoWidth v
  | setAscent v, b, b' => b' = b.setAscent v
  | setExtraAscent v, b, b' => b' = b.setExtraAscent v
  | setDescent v, b, b' => b' = b.setDescent v
  | setExtraDescent v, b, b' => b' = b.setExtraDescent v
  | setMidlineAscent v, b, b' => b' = b.setMidlineAscent v
  | setUppercaseAscent v, b, b' => b' = b.setUppercaseAscent v
  | setHorzInterspacing v, b, b' => b' = b.setHorzInterspacing v
  | setVertInterspacing v, b, b' => b' = b.setVertInterspacing v
  | setLineGap v, b, b' => b' = b.setLineGap v
  | setVertLineWidth v, b, b' => b' = { b with vertLineWidth := v }
  | setVertLineGap v, b, b' => b' = { b with vertLineGap := v }
  | addGlyph rolls mask, b, b' => ∃ u, u ∈ rolls.take 4 ∧ b.glyphData.get u = none ∧
      b' = { b with
        glyphData := b.glyphData.set u ⟨[], ⟨Builder.clampByte (mask.rect.x1 - mask.rect.x0), b.ascent, b.descent,
          Builder.clampByte ((mask.rect.x1 - mask.rect.x0) / 2)⟩, mask⟩
        glyphOrder := b.glyphOrder ++ [u] }
  | setGlyphPlacement u p, b, b' => ∃ g, b.glyphData.get u = some g ∧
      b' = { b with glyphData := b.glyphData.set u { g with placement := p } }
  | setGlyphName u x, b, b' => ∃ g, b.glyphData.get u = some g ∧
      b' = { b with glyphData := b.glyphData.set u { g with name := x } }
  | setKerningPair p n k, b, b' => b' = b.setKerningPair p n k
  | addDye x y, b, b' => b' = { b with dyes := b.dyes ++ [⟨x, y⟩] }
  | addPalette x y, b, b' => b' = { b with palettes := b.palettes ++ [⟨x, y⟩] }
  | addSetting x y, b, b' => b' = { b with settings := b.settings ++ [⟨x, y⟩] }
  | addSwitch x, b, b' => b' = { b with switches := b.switches ++ [x] }
  | map c u, b, b' => b' = { b with runeMapping := b.runeMapping.set c ⟨255, [⟨[u], 0⟩]⟩ }
  | mapGroup c fl us, b, b' => b' = { b with runeMapping := b.runeMapping.set c ⟨254, [⟨us, fl⟩]⟩ }
  | mapWithSwitchSingles c sw us, b, b' =>
      b' = { b with runeMapping := b.runeMapping.set c ⟨sw, us.map fun u => ⟨[u], 0⟩⟩ }
  | mapWithSwitch c sw gs fl, b, b' =>
      b' = { b with runeMapping := b.runeMapping.set c ⟨sw, List.zipWith MapGroup.mk gs fl⟩ }
  | createGlyphSet u, b, b' => b.glyphSets.get u = none ∧ b' = { b with
      glyphSets := b.glyphSets.set u ⟨[], []⟩, glyphSetsOrder := b.glyphSetsOrder ++ [u] }
  | removeGlyphSet u, b, b' => b' = { b with glyphSets := b.glyphSets.delete u }
  | addGlyphSetRange u x y, b, b' => ∃ s, b.glyphSets.get u = some s ∧
      b' = { b with glyphSets := b.glyphSets.set u { s with ranges := s.ranges ++ [(x, y)] } }
  | addGlyphSetListGlyph u x, b, b' => ∃ s, b.glyphSets.get u = some s ∧
      b' = { b with glyphSets := b.glyphSets.set u { s with list := s.list ++ [x] } }
  | removeGlyphSetRange u _ _, b, b' => b' = b ∨ ∃ s, b.glyphSets.get u = some s ∧
      b' = { b with glyphSets := b.glyphSets.set u s }
  | removeGlyphSetListGlyph u _, b, b' => b' = b ∨ ∃ s, b.glyphSets.get u = some s ∧
      b' = { b with glyphSets := b.glyphSets.set u s }
  | createRuneSet _, _, _ => False
  | removeRuneSet _, b, b' => b' = b
  | addRuneSetRange _ _ _, _, _ => False
  | removeRuneSetRange _ _ _, b, b' => b' = b
  | addRuneSetListRune _ _, _, _ => False
  | removeRuneSetListRune _ _, b, b' => b' = b
  | addSimpleUtf8RewriteRule c seq, b, b' => ∃ r, b' = { b with utf8Rules := b.utf8Rules ++ [r] } ∧ r.inElems = seq ∧
      r.output = [c]
  | addGlyphRewriteRule hl bl tl input out, b, b' => ∃ r, b' = { b with glyphRules := b.glyphRules ++ [r] } ∧
      r.headLen = hl.toNat ∧ r.bodyLen = bl.toNat ∧ r.tailLen = tl.toNat ∧ (pattern r).map InElem.uid = input ∧ r.output = out
  | build _, b, b' =>
      b' = { b with dyes := if b.dyes = [] ∧ b.palettes = [] then [⟨ascii "main", [255]⟩] else b.dyes }
  | clearEditionData, b, b' => b' = { b with
      kernClasses := [], horzKern := clearClasses b.horzKern, vertKern := clearClasses b.vertKern }
  | parseEditionData _ _ _, b, b' => ∃ cl hp vp,
      b' = { b with kernClasses := cl, horzKern := hp, vertKern := vp } ∧ ∀ key, pairValue hp key = pairValue b.horzKern key

theorem GoMap.delete_none {K V : Type} [DecidableEq K] : ∀ {m : GoMap K V} {k : K}, m.get k = none → m.delete k = m
  | [], _, _ => rfl
  | (k', v) :: rest, k, h => by
    rw [GoMap.get] at h
    split at h
    · cases h
    · rename_i hk
      rw [GoMap.delete, List.filter_cons_of_pos (by simpa using hk)]
      congr 1
      exact GoMap.delete_none h

theorem slicesDelete_self {α : Type} (s : List α) (i : Nat) : Builder.slicesDelete s i i = s := List.take_append_drop i s

/-- All groups have flags. -/
theorem animFlagsLoop_all : ∀ {groups : List (List Nat)} {flags final rest out : List UInt8},
    Builder.animFlagsLoop groups flags final = .ok (rest, out) →
    out.length ≤ final.length + groups.length ∧
    (out.length = final.length + groups.length → out ++ rest = final ++ flags)
  | [], flags, final, rest, out, h => by
    simp only [Builder.animFlagsLoop, Res.ok.injEq, Prod.mk.injEq] at h
    obtain ⟨rfl, rfl⟩ := h
    simp
  | g :: gs, flags, final, rest, out, h => by
    rw [Builder.animFlagsLoop.eq_def] at h
    simp only at h
    split at h
    · cases h
    · split at h
      · have := animFlagsLoop_all h
        simp only [List.length_cons]
        exact ⟨by omega, by omega⟩
      · split at h
        · cases h
        · have := animFlagsLoop_all h
          simp only [List.length_append, List.length_cons, List.length_nil, List.append_assoc, List.cons_append,
            List.nil_append] at this ⊢
          exact ⟨by omega, fun hl => this.2 (by omega)⟩

theorem switchCasesLoop_zip {final : List UInt8} : ∀ {groups : List (List Nat)} {i : Nat} {cs : List MapGroup},
    Builder.switchCasesLoop final groups i = .ok cs →
    (groups ≠ [] → i + groups.length ≤ final.length) ∧ cs = List.zipWith MapGroup.mk groups (final.drop i)
  | [], i, cs, h => by
    simp only [Builder.switchCasesLoop, Res.ok.injEq] at h
    exact ⟨fun h => absurd rfl h, by rw [← h]; rfl⟩
  | g :: gs, i, cs, h => by
    simp only [Builder.switchCasesLoop, Res.bind_eq_ok, Res.pure_eq, Res.ok.injEq] at h
    obtain ⟨f, hf, rest, hr, rfl⟩ := h
    obtain ⟨h1, h2⟩ := switchCasesLoop_zip hr
    rw [idx_eq_ok] at hf
    obtain ⟨hi, he⟩ := List.getElem?_eq_some_iff.1 hf
    constructor
    · intro _
      by_cases hn : gs = []
      · simp [hn]; omega
      · have := h1 hn
        simp only [List.length_cons]
        omega
    · rw [h2, List.drop_eq_getElem_cons hi, he]
      rfl

theorem mapWithSwitch_ok {b b' : Builder} {c : Int} {sw : Nat} {groups : List (List Nat)} {flags : List UInt8}
    (h : b.mapWithSwitch c sw groups flags = .ok b') :
    b' = { b with runeMapping := b.runeMapping.set c ⟨sw, List.zipWith MapGroup.mk groups flags⟩ } := by
  simp only [Builder.mapWithSwitch, ite_err, ite_panic, Res.bind_eq_ok, Res.pure_eq, Res.ok.injEq] at h
  obtain ⟨_, _, _, n, _, _, ⟨rest, final⟩, h6, h⟩ := h
  simp only [ite_err, Res.bind_eq_ok, Res.pure_eq, Res.ok.injEq, Decidable.not_not] at h
  obtain ⟨h0, cs, h7, rfl⟩ := h
  obtain ⟨h8, rfl⟩ := switchCasesLoop_zip h7
  by_cases hg : groups = []
  · subst hg; rfl
  · obtain ⟨k1, k2⟩ := animFlagsLoop_all h6
    have := h8 hg
    simp only [List.length_nil, Nat.zero_add, List.nil_append] at this k1 k2
    have := k2 (by omega)
    simp only [h0, List.append_nil] at this
    rw [this]
    rfl

theorem pairValue_clear (m : GoMap (Nat × Nat) KernPair) (key : Nat × Nat) :
    pairValue (clearClasses m) key = pairValue m key := by
  rw [pairValue, get_clear, pairValue]
  cases m.get key <;> rfl

theorem KeepsPairs.value {order : List Nat} {m m' : GoMap (Nat × Nat) KernPair} (h : KeepsPairs order m m') (key : Nat × Nat) :
    pairValue m' key = pairValue m key := by
  have := h key
  unfold pairValue
  split at this
  · rename_i p hp
    obtain ⟨c, hc⟩ := this
    rw [hc, hp]
    rfl
  · rename_i hp
    rcases this with hc | ⟨c, hc, _⟩
    · rw [hc, hp]
    · rw [hc, hp]; rfl

theorem kern_only {junk : Nat → UInt8} {sig : ParseBuf.Ev} {gz : Res ParseBuf.Reader} {e e' : Editor} {err : Option String}
    (h : EditionModel.parseEditionData junk sig gz e = .ok (err, e')) :
    ∃ cl hp vp, e'.builder = { e.builder with kernClasses := cl, horzKern := hp, vertKern := vp } ∧
      (∀ key, pairValue hp key = pairValue e.builder.horzKern key) := by
  have hk := parseEditionData_keepsAll h
  refine ⟨e'.builder.kernClasses, e'.builder.horzKern, e'.builder.vertKern, ?_, KeepsPairs.value hk.horz⟩
  rw [← hk.others]

theorem Method.effect {m : Method} {e e' : Editor} (he : Edits e) (h : m.run e = .ok e') :
    m.Effect e.builder e'.builder := by
  have go : ∀ {r : Res Builder}, (do return { e with builder := ← r }) = Res.ok e' → r = .ok e'.builder := fun h => by
    simp only [Res.bind_eq_ok, Res.pure_eq, Res.ok.injEq] at h
    obtain ⟨b', hr, rfl⟩ := h
    exact hr
  have fst : ∀ {α : Type} {r : Res (Builder × α)} {b' : Builder}, (do return (← r).1) = Res.ok b' →
      ∃ x, r = .ok (b', x) := fun {α r b'} h => by
    simp only [Res.bind_eq_ok, Res.pure_eq, Res.ok.injEq] at h
    obtain ⟨⟨b, x⟩, hr, rfl⟩ := h
    exact ⟨x, hr⟩
  have hrs := he.calls.runeSets
  cases m with
  | setFirstVerDate => exact isValid_ok (b := e.builder) (go h)
  | setMajorVerDate => exact isValid_ok (b := e.builder) (go h)
  | setMinorVerDate => exact isValid_ok (b := e.builder) (go h)
  | raiseMajorVersion => exact (Res.ok.inj (go h)).symm
  | raiseMinorVersion => exact (Res.ok.inj (go h)).symm
  | setVersion => exact (Res.ok.inj (go h)).symm
  | setName =>
    have h := go h
    simp only [Method.call, Builder.setName, ite_err, Res.bind_eq_ok, Res.pure_eq, Res.ok.injEq] at h
    obtain ⟨_, _, _, h⟩ := h
    exact h.symm
  | setFamily =>
    have h := go h
    simp only [Method.call, Builder.setFamily, ite_err, Res.bind_eq_ok, Res.pure_eq, Res.ok.injEq] at h
    obtain ⟨_, _, _, h⟩ := h
    exact h.symm
  | setAuthor =>
    have h := go h
    simp only [Method.call, Builder.setAuthor, ite_err, Res.bind_eq_ok, Res.pure_eq, Res.ok.injEq] at h
    obtain ⟨_, _, _, h⟩ := h
    exact h.symm
  | setAbout =>
    have h := go h
    simp only [Method.call, Builder.setAbout, ite_err, Res.bind_eq_ok, Res.pure_eq, Res.ok.injEq] at h
    obtain ⟨_, _, _, h⟩ := h
    exact h.symm
  | setVertLayoutUsed => exact (Res.ok.inj (go h)).symm
  | setMonoWidth => exact (Res.ok.inj (go h)).symm
  | setAscent => exact (Res.ok.inj (go h)).symm
  | setExtraAscent => exact (Res.ok.inj (go h)).symm
  | setDescent => exact (Res.ok.inj (go h)).symm
  | setExtraDescent => exact (Res.ok.inj (go h)).symm
  | setMidlineAscent => exact (Res.ok.inj (go h)).symm
  | setUppercaseAscent => exact (Res.ok.inj (go h)).symm
  | setHorzInterspacing => exact (Res.ok.inj (go h)).symm
  | setVertInterspacing => exact (Res.ok.inj (go h)).symm
  | setLineGap => exact (Res.ok.inj (go h)).symm
  | setVertLineWidth =>
    have h := go h
    simp only [Method.call, Builder.setVertLineWidth, ite_err, Res.ok.injEq] at h
    exact h.2.2.symm
  | setVertLineGap =>
    have h := go h
    simp only [Method.call, Builder.setVertLineGap, ite_err, Res.ok.injEq] at h
    exact h.2.symm
  | addGlyph rolls mask =>
    obtain ⟨x, h⟩ := fst (go h)
    simp only [Builder.addGlyph, Res.bind_eq_ok, ite_err] at h
    obtain ⟨_, _, _, h⟩ := h
    split at h
    · cases h
    · rename_i u hu
      simp only [Res.pure_eq, Res.ok.injEq, Prod.mk.injEq] at h
      have h1 := List.find?_some hu
      simp only [Bool.and_eq_true, Option.isNone_iff_eq_none] at h1
      exact ⟨u, List.mem_of_find?_eq_some hu, h1.1, h.1.symm⟩
  | setGlyphPlacement uid p =>
    have h := go h
    simp only [Method.call, Builder.setGlyphPlacement] at h
    split at h
    · cases h
    · rename_i g hg
      exact ⟨g, hg, (Res.ok.inj h).symm⟩
  | setGlyphName uid x =>
    have h := go h
    simp only [Method.call, Builder.setGlyphName] at h
    split at h
    · cases h
    · rename_i g hg
      simp only [Res.bind_eq_ok, Res.pure_eq, Res.ok.injEq] at h
      obtain ⟨_, _, h⟩ := h
      exact ⟨g, hg, h.symm⟩
  | setKerningPair => exact (Res.ok.inj (go h)).symm
  | addDye =>
    have h := go h
    simp only [Method.call, Builder.addDye, ite_err, Res.bind_eq_ok, Res.pure_eq, Res.ok.injEq] at h
    obtain ⟨_, _, _, h⟩ := h
    exact h.symm
  | addPalette =>
    have h := go h
    simp only [Method.call, Builder.addPalette, ite_err, Res.bind_eq_ok, Res.pure_eq, Res.ok.injEq] at h
    obtain ⟨_, _, _, h⟩ := h
    exact h.symm
  | addSetting =>
    obtain ⟨x, h⟩ := fst (go h)
    simp only [Builder.addSetting, ite_err, Res.bind_eq_ok, Res.pure_eq, Res.ok.injEq, Prod.mk.injEq] at h
    obtain ⟨_, _, _, _, _, _, _, h, _⟩ := h
    exact h.symm
  | addSwitch =>
    obtain ⟨x, h⟩ := fst (go h)
    simp only [Builder.addSwitch, ite_err, Res.bind_eq_ok, Res.pure_eq, Res.ok.injEq, Prod.mk.injEq] at h
    obtain ⟨_, _, _, _, h, _⟩ := h
    exact h.symm
  | map =>
    have h := go h
    simp only [Method.call, Builder.map, ite_err, Res.ok.injEq] at h
    exact h.2.2.symm
  | mapGroup =>
    have h := go h
    simp only [Method.call, Builder.mapGroup, ite_err, Res.ok.injEq] at h
    exact h.2.2.2.2.symm
  | mapWithSwitchSingles =>
    have h := go h
    simp only [Method.call, Builder.mapWithSwitchSingles, ite_err, ite_panic, Res.bind_eq_ok, Res.pure_eq,
      Res.ok.injEq] at h
    obtain ⟨_, _, _, _, _, _, h⟩ := h
    exact h.symm
  | mapWithSwitch => exact mapWithSwitch_ok (go h)
  | createGlyphSet u =>
    obtain ⟨x, h⟩ := fst (go h)
    simp only [Builder.createGlyphSet, ite_err, Res.ok.injEq, Prod.mk.injEq] at h
    exact ⟨by simpa using h.2.1, h.2.2.1.symm⟩
  | removeGlyphSet u =>
    have h := (Res.ok.inj (go h)).symm
    simp only [Builder.removeGlyphSet] at h
    show _ = _
    rw [h]
    split
    · rename_i hn
      rw [GoMap.delete_none hn]
    · rfl
  | addGlyphSetRange u x y =>
    have h := go h
    simp only [Method.call, Builder.addGlyphSetRange] at h
    split at h
    · cases h
    · rename_i gs hg
      simp only [ite_err, Res.ok.injEq] at h
      exact ⟨gs, hg, h.2.2.2.2.symm⟩
  | removeGlyphSetRange u x y =>
    have h := (Res.ok.inj (go h)).symm
    simp only [Builder.removeGlyphSetRange] at h
    show _ ∨ _
    rw [h]
    split
    · exact .inl rfl
    · rename_i gs hg
      split
      · exact .inl rfl
      · rw [slicesDelete_self]
        exact .inr ⟨gs, hg, rfl⟩
  | addGlyphSetListGlyph u x =>
    have h := go h
    simp only [Method.call, Builder.addGlyphSetListGlyph] at h
    split at h
    · cases h
    · rename_i gs hg
      simp only [ite_err, Res.ok.injEq] at h
      exact ⟨gs, hg, h.2.2.2.symm⟩
  | removeGlyphSetListGlyph u x =>
    have h := (Res.ok.inj (go h)).symm
    simp only [Builder.removeGlyphSetListGlyph] at h
    show _ ∨ _
    rw [h]
    split
    · exact .inl rfl
    · rename_i gs hg
      split
      · exact .inl rfl
      · rw [slicesDelete_self]
        exact .inr ⟨gs, hg, rfl⟩
  | createRuneSet =>
    obtain ⟨x, h⟩ := fst (go h)
    simp only [Builder.createRuneSet, ite_err] at h
    cases h.2.2
  | removeRuneSet uid =>
    have h := (Res.ok.inj (go h)).symm
    rwa [Builder.removeRuneSet, hrs] at h
  | addRuneSetRange =>
    have h := go h
    rw [Method.call, Builder.addRuneSetRange, hrs] at h
    cases h
  | removeRuneSetRange uid first last =>
    have h := (Res.ok.inj (go h)).symm
    rwa [Builder.removeRuneSetRange, hrs] at h
  | addRuneSetListRune =>
    have h := go h
    rw [Method.call, Builder.addRuneSetListRune, hrs] at h
    cases h
  | removeRuneSetListRune uid c =>
    have h := (Res.ok.inj (go h)).symm
    rwa [Builder.removeRuneSetListRune, hrs] at h
  | addSimpleUtf8RewriteRule c seq =>
    obtain ⟨r, bits, h, a1, a2, a3, a4, a5, a6, a7, a8⟩ := Builder.addSimpleUtf8Rule_ok (go h)
    obtain ⟨_, h2⟩ := merge_ones_only a1.groups a1.elems a8
    exact ⟨r, h, h2, a5⟩
  | addGlyphRewriteRule hl bl tl input out =>
    obtain ⟨r, bits, h, a1, a2, a3, a4, a5, a6, a7⟩ := Builder.addGlyphRule_ok (go h)
    refine ⟨r, h, a2, a3, a4, ?_, a5⟩
    rw [pattern_eq a1, a7, List.map_map]
    conv_rhs => rw [← List.map_id input]
    refine List.map_congr_left fun u _ => ?_
    simp only [Function.comp, Builder.inElem]
    split <;> rfl
  | build env =>
    obtain ⟨x, h⟩ := fst (go h)
    obtain ⟨s, w, bi, hb⟩ := build_parts h
    exact Builder.main_eq hb.main
  | clearEditionData =>
    obtain rfl := Res.ok.inj h
    rfl
  | parseEditionData junk sig gz =>
    simp only [Method.run, Res.bind_eq_ok, Res.pure_eq, Res.ok.injEq] at h
    obtain ⟨⟨err, e1⟩, hp, rfl⟩ := h
    exact kern_only hp

/-! ## Properties -/

/-- The fields that only the methods for the header and the metrics change. -/
structure Fields where
  fontID : UInt64
  versionMajor : UInt16
  versionMinor : UInt16
  firstVersionDate : DateModel.Date
  majorVersionDate : DateModel.Date
  minorVersionDate : DateModel.Date
  fontName : Bytes
  fontFamily : Bytes
  fontAuthor : Bytes
  fontAbout : Bytes
  hasVertLayout : Bool
  monoWidth : UInt8
  ascent : UInt8
  extraAscent : UInt8
  descent : UInt8
  extraDescent : UInt8
  uppercaseAscent : UInt8
  midlineAscent : UInt8
  horzInterspacing : UInt8
  vertInterspacing : UInt8
  lineGap : UInt8
  vertLineWidth : UInt8
  vertLineGap : UInt8

def fields (b : Builder) : Fields :=
  ⟨b.fontID, b.versionMajor, b.versionMinor, b.firstVersionDate, b.majorVersionDate, b.minorVersionDate, b.fontName, b.fontFamily,
    b.fontAuthor, b.fontAbout, b.hasVertLayout, b.monoWidth, b.ascent, b.extraAscent, b.descent, b.extraDescent,
    b.uppercaseAscent, b.midlineAscent, b.horzInterspacing, b.vertInterspacing, b.lineGap, b.vertLineWidth, b.vertLineGap⟩

def fieldsOf (id : UInt64) (today : DateModel.Date) (l : List Method) : Fields :=
  ⟨id, (versionOf l).1, (versionOf l).2, latest Method.firstDate? today l, latest Method.majorDate? today l,
    latest Method.minorDate? today l, latest Method.name? (ascii "Unnamed") l, latest Method.family? (ascii "Unnamed") l,
    latest Method.author? (ascii "Authorless") l, latest Method.about? (ascii "No information available.") l,
    latest Method.vertLayoutUsed? false l, latest Method.monoWidth? 0 l, latest Method.ascent? 9 l,
    latest Method.extraAscent? 0 l, latest Method.descent? 5 l, latest Method.extraDescent? 0 l,
    latest Method.uppercaseAscent? 9 l, latest Method.midlineAscent? 5 l, latest Method.horzInterspacing? 1 l,
    latest Method.vertInterspacing? 0 l, latest Method.lineGap? 1 l, latest Method.vertLineWidth? 0 l,
    latest Method.vertLineGap? 0 l⟩

theorem fields_step {id : UInt64} {today : DateModel.Date} {l : List Method} {b b' : Builder} {m : Method} (h : m.Effect b b')
    (ih : fields b = fieldsOf id today l) : fields b' = fieldsOf id today (m :: l) := by
  cases m with
  | setFirstVerDate d => cases h; exact congrArg (fun x : Fields => { x with firstVersionDate := d }) ih
  | setMajorVerDate d => cases h; exact congrArg (fun x : Fields => { x with majorVersionDate := d }) ih
  | setMinorVerDate d => cases h; exact congrArg (fun x : Fields => { x with minorVersionDate := d }) ih
  | raiseMajorVersion t =>
    cases h
    exact congrArg (fun x : Fields => { x with
      versionMajor := x.versionMajor + 1, versionMinor := 0, majorVersionDate := t, minorVersionDate := t }) ih
  | raiseMinorVersion t =>
    cases h
    exact congrArg (fun x : Fields => { x with versionMinor := x.versionMinor + 1, minorVersionDate := t }) ih
  | setVersion x y t t' =>
    cases h
    exact congrArg (fun z : Fields => { z with
      versionMajor := x, versionMinor := y, majorVersionDate := t, minorVersionDate := t' }) ih
  | setName _ v => cases h; exact congrArg (fun x : Fields => { x with fontName := v }) ih
  | setFamily _ v => cases h; exact congrArg (fun x : Fields => { x with fontFamily := v }) ih
  | setAuthor _ v => cases h; exact congrArg (fun x : Fields => { x with fontAuthor := v }) ih
  | setAbout _ v => cases h; exact congrArg (fun x : Fields => { x with fontAbout := v }) ih
  | setVertLayoutUsed v => cases h; exact congrArg (fun x : Fields => { x with hasVertLayout := v }) ih
  | setMonoWidth v => cases h; exact congrArg (fun x : Fields => { x with monoWidth := v }) ih
  | setAscent v => cases h; exact congrArg (fun x : Fields => { x with ascent := v }) ih
  | setExtraAscent v => cases h; exact congrArg (fun x : Fields => { x with extraAscent := v }) ih
  | setDescent v => cases h; exact congrArg (fun x : Fields => { x with descent := v }) ih
  | setExtraDescent v => cases h; exact congrArg (fun x : Fields => { x with extraDescent := v }) ih
  | setMidlineAscent v => cases h; exact congrArg (fun x : Fields => { x with midlineAscent := v }) ih
  | setUppercaseAscent v => cases h; exact congrArg (fun x : Fields => { x with uppercaseAscent := v }) ih
  | setHorzInterspacing v => cases h; exact congrArg (fun x : Fields => { x with horzInterspacing := v }) ih
  | setVertInterspacing v => cases h; exact congrArg (fun x : Fields => { x with vertInterspacing := v }) ih
  | setLineGap v => cases h; exact congrArg (fun x : Fields => { x with lineGap := v }) ih
  | setVertLineWidth v => cases h; exact congrArg (fun x : Fields => { x with vertLineWidth := v }) ih
  | setVertLineGap v => cases h; exact congrArg (fun x : Fields => { x with vertLineGap := v }) ih
  | addGlyph => obtain ⟨u, _, _, rfl⟩ := h; exact ih
  | setGlyphPlacement => obtain ⟨g, _, rfl⟩ := h; exact ih
  | setGlyphName => obtain ⟨g, _, rfl⟩ := h; exact ih
  | setKerningPair p n k =>
    cases h
    unfold Builder.setKerningPair
    split <;> exact ih
  | createGlyphSet => obtain ⟨_, rfl⟩ := h; exact ih
  | addGlyphSetRange => obtain ⟨g, _, rfl⟩ := h; exact ih
  | addGlyphSetListGlyph => obtain ⟨g, _, rfl⟩ := h; exact ih
  | removeGlyphSetRange => rcases h with rfl | ⟨s, _, rfl⟩ <;> exact ih
  | removeGlyphSetListGlyph => rcases h with rfl | ⟨s, _, rfl⟩ <;> exact ih
  | createRuneSet => exact h.elim
  | addRuneSetRange => exact h.elim
  | addRuneSetListRune => exact h.elim
  | addSimpleUtf8RewriteRule => obtain ⟨r, rfl, _⟩ := h; exact ih
  | addGlyphRewriteRule => obtain ⟨r, rfl, _⟩ := h; exact ih
  | parseEditionData => obtain ⟨cl, hp, vp, rfl, _⟩ := h; exact ih
  | _ => cases h; exact ih

theorem History.fields {rolls : List UInt64} {today : DateModel.Date} {l : List Method} {e : Editor}
    (h : History rolls today l e) : ∃ id, (rolls.take 8).find? (fun id => Helpers.lazyEntropyUint64 id.toNat ≥
      FontModel.minEntropyID) = some id ∧ fields e.builder = fieldsOf id today l := by
  induction h with
  | new h =>
    unfold BuilderModel.new at h
    split at h
    · cases h
    · rename_i id hid
      refine ⟨id, hid, ?_⟩
      rw [← Res.ok.inj h]
      rfl
  | call h0 _ h ih =>
    obtain ⟨id, hid, ih⟩ := ih
    exact ⟨id, hid, fields_step (Method.effect h0.edits h) ih⟩

/-! ## Lists -/

theorem all_some {α : Type} {f : Method → Option α} {m : Method} {x : α} (h : f m = some x) (l : List Method) :
    all f (m :: l) = all f l ++ [x] := by
  rw [all, List.filterMap_cons_some h, List.reverse_cons]
  rfl

theorem all_none {α : Type} {f : Method → Option α} {m : Method} (h : f m = none) (l : List Method) :
    all f (m :: l) = all f l := by
  rw [all, List.filterMap_cons_none h]
  rfl

/-- The lists of a builder to which the methods append. -/
structure Lists (l : List Method) (b : Builder) : Prop where
  palettes : b.palettes = all Method.palette? l
  dyes : b.dyes = dyesOf l
  settings : b.settings = all Method.setting? l
  switches : b.switches = all Method.switch? l
  setsOrder : b.glyphSetsOrder = all Method.createdSet? l
  texts : textRules b = all Method.textRule? l
  glyphs : b.glyphRules.map (fun r => (r.headLen, r.bodyLen, r.tailLen, (pattern r).map InElem.uid, r.output)) =
    all Method.glyphRule? l

theorem lists_step {l : List Method} {b b' : Builder} {m : Method} (h : m.Effect b b') (ih : Lists l b) :
    Lists (m :: l) b' := by
  cases m with
  | addGlyph => obtain ⟨u, _, _, rfl⟩ := h; exact ⟨ih.1, ih.2, ih.3, ih.4, ih.5, ih.6, ih.7⟩
  | setGlyphPlacement => obtain ⟨g, _, rfl⟩ := h; exact ⟨ih.1, ih.2, ih.3, ih.4, ih.5, ih.6, ih.7⟩
  | setGlyphName => obtain ⟨g, _, rfl⟩ := h; exact ⟨ih.1, ih.2, ih.3, ih.4, ih.5, ih.6, ih.7⟩
  | setKerningPair p n k =>
    cases h
    unfold Builder.setKerningPair
    split <;> exact ⟨ih.1, ih.2, ih.3, ih.4, ih.5, ih.6, ih.7⟩
  | createGlyphSet u =>
    obtain ⟨_, rfl⟩ := h
    refine ⟨ih.1, ih.2, ih.3, ih.4, ?_, ih.6, ih.7⟩
    rw [all_some (f := Method.createdSet?) (m := .createGlyphSet u) rfl, ← ih.5]
  | addGlyphSetRange => obtain ⟨g, _, rfl⟩ := h; exact ⟨ih.1, ih.2, ih.3, ih.4, ih.5, ih.6, ih.7⟩
  | addGlyphSetListGlyph => obtain ⟨g, _, rfl⟩ := h; exact ⟨ih.1, ih.2, ih.3, ih.4, ih.5, ih.6, ih.7⟩
  | removeGlyphSetRange => rcases h with rfl | ⟨s, _, rfl⟩ <;> exact ⟨ih.1, ih.2, ih.3, ih.4, ih.5, ih.6, ih.7⟩
  | removeGlyphSetListGlyph => rcases h with rfl | ⟨s, _, rfl⟩ <;> exact ⟨ih.1, ih.2, ih.3, ih.4, ih.5, ih.6, ih.7⟩
  | createRuneSet => exact h.elim
  | addRuneSetRange => exact h.elim
  | addRuneSetListRune => exact h.elim
  | addSimpleUtf8RewriteRule c seq =>
    obtain ⟨r, rfl, h1, h2⟩ := h
    refine ⟨ih.1, ih.2, ih.3, ih.4, ih.5, ?_, ih.7⟩
    rw [all_some (f := Method.textRule?) (m := .addSimpleUtf8RewriteRule c seq) rfl, ← ih.6, textRules, List.map_append]
    simp only [List.map_cons, List.map_nil, h1, h2]
    rfl
  | addGlyphRewriteRule hl bl tl input out =>
    obtain ⟨r, rfl, h1, h2, h3, h4, h5⟩ := h
    refine ⟨ih.1, ih.2, ih.3, ih.4, ih.5, ih.6, ?_⟩
    rw [all_some (f := Method.glyphRule?) (m := .addGlyphRewriteRule hl bl tl input out) rfl, ← ih.7, List.map_append]
    simp only [List.map_cons, List.map_nil, h1, h2, h3, h4, h5]
  | parseEditionData => obtain ⟨cl, hp, vp, rfl, _⟩ := h; exact ⟨ih.1, ih.2, ih.3, ih.4, ih.5, ih.6, ih.7⟩
  | addDye x y =>
    cases h
    refine ⟨ih.1, ?_, ih.3, ih.4, ih.5, ih.6, ih.7⟩
    rw [dyesOf, ← ih.2]
  | addPalette x y =>
    cases h
    refine ⟨?_, ih.2, ih.3, ih.4, ih.5, ih.6, ih.7⟩
    rw [all_some (f := Method.palette?) (m := .addPalette x y) rfl, ← ih.1]
  | addSetting x y =>
    cases h
    refine ⟨ih.1, ih.2, ?_, ih.4, ih.5, ih.6, ih.7⟩
    rw [all_some (f := Method.setting?) (m := .addSetting x y) rfl, ← ih.3]
  | addSwitch x =>
    cases h
    refine ⟨ih.1, ih.2, ih.3, ?_, ih.5, ih.6, ih.7⟩
    rw [all_some (f := Method.switch?) (m := .addSwitch x) rfl, ← ih.4]
  | build env =>
    cases h
    refine ⟨ih.1, ?_, ih.3, ih.4, ih.5, ih.6, ih.7⟩
    rw [dyesOf, ← ih.2, ← ih.1]
  | _ => cases h; exact ⟨ih.1, ih.2, ih.3, ih.4, ih.5, ih.6, ih.7⟩

theorem History.lists {rolls : List UInt64} {today : DateModel.Date} {l : List Method} {e : Editor}
    (h : History rolls today l e) : Lists l e.builder := by
  induction h with
  | new h =>
    obtain ⟨id, _, rfl⟩ := find_new h
    exact ⟨rfl, rfl, rfl, rfl, rfl, rfl, rfl⟩
  | call h0 _ h ih => exact lists_step (Method.effect h0.edits h) ih

/-! ## Maps -/

theorem get_set {K V : Type} [DecidableEq K] (m : GoMap K V) (k : K) (v : V) (k' : K) :
    (m.set k v).get k' = if k = k' then some v else m.get k' := by
  split
  · rename_i h
    subst h
    exact GoMap.get_set_self ..
  · rename_i h
    exact GoMap.get_set_ne _ _ (fun e => h e.symm)

theorem get_delete {K V : Type} [DecidableEq K] (m : GoMap K V) (k k' : K) :
    (m.delete k).get k' = if k = k' then none else m.get k' := by
  split
  · rename_i h
    subst h
    exact GoMap.get_delete_self ..
  · rename_i h
    exact GoMap.get_delete_ne _ (fun e => h e.symm)

theorem entry_set {c c' : Int} {x : MapEntry} {mp : GoMap Int MapEntry} {l : List Method} {m : Method}
    (hm : m.entry? c = if c' = c then some x else none) (ih : mp.get c = l.findSome? (Method.entry? c)) :
    (mp.set c' x).get c = (m :: l).findSome? (Method.entry? c) := by
  rw [List.findSome?_cons, hm, get_set]
  by_cases h : c' = c
  · rw [if_pos h, if_pos h]
  · rw [if_neg h, if_neg h]
    exact ih

theorem mapping_step {l : List Method} {b b' : Builder} {m : Method} (h : m.Effect b b') (c : Int)
    (ih : b.runeMapping.get c = l.findSome? (Method.entry? c)) :
    b'.runeMapping.get c = (m :: l).findSome? (Method.entry? c) := by
  cases m with
  | addGlyph => obtain ⟨u, _, _, rfl⟩ := h; exact ih
  | setGlyphPlacement => obtain ⟨g, _, rfl⟩ := h; exact ih
  | setGlyphName => obtain ⟨g, _, rfl⟩ := h; exact ih
  | setKerningPair p n k =>
    cases h
    unfold Builder.setKerningPair
    split <;> exact ih
  | createGlyphSet => obtain ⟨_, rfl⟩ := h; exact ih
  | addGlyphSetRange => obtain ⟨g, _, rfl⟩ := h; exact ih
  | addGlyphSetListGlyph => obtain ⟨g, _, rfl⟩ := h; exact ih
  | removeGlyphSetRange => rcases h with rfl | ⟨s, _, rfl⟩ <;> exact ih
  | removeGlyphSetListGlyph => rcases h with rfl | ⟨s, _, rfl⟩ <;> exact ih
  | createRuneSet => exact h.elim
  | addRuneSetRange => exact h.elim
  | addRuneSetListRune => exact h.elim
  | addSimpleUtf8RewriteRule => obtain ⟨r, rfl, _⟩ := h; exact ih
  | addGlyphRewriteRule => obtain ⟨r, rfl, _⟩ := h; exact ih
  | parseEditionData => obtain ⟨cl, hp, vp, rfl, _⟩ := h; exact ih
  | map => cases h; exact entry_set rfl ih
  | mapGroup => cases h; exact entry_set rfl ih
  | mapWithSwitchSingles => cases h; exact entry_set rfl ih
  | mapWithSwitch => cases h; exact entry_set rfl ih
  | _ => cases h; exact ih

theorem History.mapping {rolls : List UInt64} {today : DateModel.Date} {l : List Method} {e : Editor}
    (h : History rolls today l e) (c : Int) : e.builder.runeMapping.get c = l.findSome? (Method.entry? c) := by
  induction h with
  | new h =>
    obtain ⟨id, _, rfl⟩ := find_new h
    rfl
  | call h0 _ h ih => exact mapping_step (Method.effect h0.edits h) c ih

theorem sets_step {l : List Method} {b b' : Builder} {m : Method} (h : m.Effect b b') (u : Nat)
    (ih : b.glyphSets.get u = setOf u l) : b'.glyphSets.get u = setOf u (m :: l) := by
  cases m with
  | addGlyph => obtain ⟨u, _, _, rfl⟩ := h; exact ih
  | setGlyphPlacement => obtain ⟨g, _, rfl⟩ := h; exact ih
  | setGlyphName => obtain ⟨g, _, rfl⟩ := h; exact ih
  | setKerningPair p n k =>
    cases h
    unfold Builder.setKerningPair
    split <;> exact ih
  | createGlyphSet v =>
    obtain ⟨_, rfl⟩ := h
    rw [setOf, get_set]
    by_cases hv : v = u
    · rw [if_pos hv, if_pos hv]
    · rw [if_neg hv, if_neg hv]; exact ih
  | removeGlyphSet v =>
    cases h
    rw [setOf, get_delete]
    by_cases hv : v = u
    · rw [if_pos hv, if_pos hv]
    · rw [if_neg hv, if_neg hv]; exact ih
  | addGlyphSetRange v x y =>
    obtain ⟨g, hg, rfl⟩ := h
    rw [setOf, get_set]
    by_cases hv : v = u
    · subst hv
      rw [if_pos rfl, if_pos rfl, ← ih, hg]; rfl
    · rw [if_neg hv, if_neg hv]; exact ih
  | addGlyphSetListGlyph v x =>
    obtain ⟨g, hg, rfl⟩ := h
    rw [setOf, get_set]
    by_cases hv : v = u
    · subst hv
      rw [if_pos rfl, if_pos rfl, ← ih, hg]; rfl
    · rw [if_neg hv, if_neg hv]; exact ih
  | removeGlyphSetRange v =>
    rcases h with rfl | ⟨s, hs, rfl⟩
    · exact ih
    · rw [get_set]
      split
      · rename_i hv
        subst hv
        rw [← hs]; exact ih
      · exact ih
  | removeGlyphSetListGlyph v =>
    rcases h with rfl | ⟨s, hs, rfl⟩
    · exact ih
    · rw [get_set]
      split
      · rename_i hv
        subst hv
        rw [← hs]; exact ih
      · exact ih
  | createRuneSet => exact h.elim
  | addRuneSetRange => exact h.elim
  | addRuneSetListRune => exact h.elim
  | addSimpleUtf8RewriteRule => obtain ⟨r, rfl, _⟩ := h; exact ih
  | addGlyphRewriteRule => obtain ⟨r, rfl, _⟩ := h; exact ih
  | parseEditionData => obtain ⟨cl, hp, vp, rfl, _⟩ := h; exact ih
  | _ => cases h; exact ih

theorem History.sets {rolls : List UInt64} {today : DateModel.Date} {l : List Method} {e : Editor}
    (h : History rolls today l e) (u : Nat) : e.builder.glyphSets.get u = setOf u l := by
  induction h with
  | new h =>
    obtain ⟨id, _, rfl⟩ := find_new h
    rfl
  | call h0 _ h ih => exact sets_step (Method.effect h0.edits h) u ih

/-! ## Kerning -/

theorem kern_step {l : List Method} {b b' : Builder} {m : Method} (h : m.Effect b b') (key : Nat × Nat)
    (ih : pairValue b.horzKern key = latest (Method.kerning? key) 0 l) :
    pairValue b'.horzKern key = latest (Method.kerning? key) 0 (m :: l) := by
  cases m with
  | addGlyph => obtain ⟨u, _, _, rfl⟩ := h; exact ih
  | setGlyphPlacement => obtain ⟨g, _, rfl⟩ := h; exact ih
  | setGlyphName => obtain ⟨g, _, rfl⟩ := h; exact ih
  | setKerningPair p n k =>
    cases h
    rw [latest, List.findSome?_cons]
    have hm : Method.kerning? key (.setKerningPair p n k) = if (p, n) = key then some k else none := rfl
    rw [hm]
    unfold Builder.setKerningPair pairValue
    by_cases hk : k = 0
    · rw [if_pos hk]
      simp only [get_delete]
      by_cases hp : (p, n) = key
      · rw [if_pos hp, if_pos hp, hk]; rfl
      · rw [if_neg hp, if_neg hp]; exact ih
    · rw [if_neg hk]
      simp only [get_set]
      by_cases hp : (p, n) = key
      · rw [if_pos hp, if_pos hp]; rfl
      · rw [if_neg hp, if_neg hp]; exact ih
  | createGlyphSet => obtain ⟨_, rfl⟩ := h; exact ih
  | addGlyphSetRange => obtain ⟨g, _, rfl⟩ := h; exact ih
  | addGlyphSetListGlyph => obtain ⟨g, _, rfl⟩ := h; exact ih
  | removeGlyphSetRange => rcases h with rfl | ⟨s, _, rfl⟩ <;> exact ih
  | removeGlyphSetListGlyph => rcases h with rfl | ⟨s, _, rfl⟩ <;> exact ih
  | createRuneSet => exact h.elim
  | addRuneSetRange => exact h.elim
  | addRuneSetListRune => exact h.elim
  | addSimpleUtf8RewriteRule => obtain ⟨r, rfl, _⟩ := h; exact ih
  | addGlyphRewriteRule => obtain ⟨r, rfl, _⟩ := h; exact ih
  | clearEditionData => cases h; exact (pairValue_clear ..).trans ih
  | parseEditionData => obtain ⟨cl, hp, vp, rfl, hv⟩ := h; exact (hv key).trans ih
  | _ => cases h; exact ih

theorem History.kern {rolls : List UInt64} {today : DateModel.Date} {l : List Method} {e : Editor}
    (h : History rolls today l e) (key : Nat × Nat) :
    pairValue e.builder.horzKern key = latest (Method.kerning? key) 0 l := by
  induction h with
  | new h =>
    obtain ⟨id, _, rfl⟩ := find_new h
    rfl
  | call h0 _ h ih => exact kern_step (Method.effect h0.edits h) key ih

/-- Without edition data, there are no classes and no vertical pairs. -/
structure Plain (b : Builder) : Prop where
  horz : ∀ key p, b.horzKern.get key = some p → p.cls = 0
  vert : b.vertKern = []

theorem plain_step {b b' : Builder} {m : Method} (h : m.Effect b b') (hm : m.parses = false) (ih : Plain b) : Plain b' := by
  cases m with
  | addGlyph => obtain ⟨u, _, _, rfl⟩ := h; exact ⟨ih.1, ih.2⟩
  | setGlyphPlacement => obtain ⟨g, _, rfl⟩ := h; exact ⟨ih.1, ih.2⟩
  | setGlyphName => obtain ⟨g, _, rfl⟩ := h; exact ⟨ih.1, ih.2⟩
  | setKerningPair p n k =>
    cases h
    unfold Builder.setKerningPair
    split
    · refine ⟨fun key p h => ?_, ih.2⟩
      simp only [get_delete] at h
      split at h
      · cases h
      · exact ih.1 _ _ h
    · refine ⟨fun key p h => ?_, ih.2⟩
      simp only [get_set] at h
      split at h
      · rw [← Option.some.inj h]
      · exact ih.1 _ _ h
  | createGlyphSet => obtain ⟨_, rfl⟩ := h; exact ⟨ih.1, ih.2⟩
  | addGlyphSetRange => obtain ⟨g, _, rfl⟩ := h; exact ⟨ih.1, ih.2⟩
  | addGlyphSetListGlyph => obtain ⟨g, _, rfl⟩ := h; exact ⟨ih.1, ih.2⟩
  | removeGlyphSetRange => rcases h with rfl | ⟨s, _, rfl⟩ <;> exact ⟨ih.1, ih.2⟩
  | removeGlyphSetListGlyph => rcases h with rfl | ⟨s, _, rfl⟩ <;> exact ⟨ih.1, ih.2⟩
  | createRuneSet => exact h.elim
  | addRuneSetRange => exact h.elim
  | addRuneSetListRune => exact h.elim
  | addSimpleUtf8RewriteRule => obtain ⟨r, rfl, _⟩ := h; exact ⟨ih.1, ih.2⟩
  | addGlyphRewriteRule => obtain ⟨r, rfl, _⟩ := h; exact ⟨ih.1, ih.2⟩
  | clearEditionData =>
    cases h
    refine ⟨fun key p h => ?_, by rw [ih.2]; rfl⟩
    simp only [get_clear] at h
    obtain ⟨q, _, rfl⟩ := Option.map_eq_some_iff.1 h
    rfl
  | parseEditionData => cases hm
  | _ => cases h; exact ⟨ih.1, ih.2⟩

theorem History.plain {rolls : List UInt64} {today : DateModel.Date} {l : List Method} {e : Editor}
    (h : History rolls today l e) (hp : ∀ m ∈ l, m.parses = false) : Plain e.builder := by
  induction h with
  | new h =>
    obtain ⟨id, _, rfl⟩ := find_new h
    exact ⟨fun _ _ h => by simp [GoMap.get] at h, rfl⟩
  | call h0 _ h ih =>
    exact plain_step (Method.effect h0.edits h) (hp _ (List.mem_cons_self ..)) (ih fun m hm => hp m (List.mem_cons_of_mem _ hm))

theorem kernOf_value {classes : List Int} {m : GoMap (Nat × Nat) KernPair} {key : Nat × Nat}
    (h : ∀ p, m.get key = some p → p.cls = 0) : kernOf classes m key = pairValue m key := by
  rw [kernOf, ← get_eq_lookup, pairValue]
  cases hm : m.get key with
  | none => rfl
  | some p => simp [h p hm]

/-! ## Glyphs -/

/-- The glyph `u`, the `i`-th one, as the calls say. -/
def GlyphSaid (l : List Method) (b : Builder) (i u : Nat) : Prop :=
  ∃ (d : GlyphData) (since before : List Method) (rolls : List Nat) (p : Placement),
    b.glyphData.get u = some d ∧ l = since ++ .addGlyph rolls d.mask :: before ∧ u ∈ rolls.take 4 ∧
    (all Method.mask? before).length = i ∧ d.name = latest (Method.glyphName? u) [] since ∧
    d.placement = latest (Method.placement? u) p since ∧
    p = ⟨Builder.clampByte (d.mask.rect.x1 - d.mask.rect.x0), latest Method.ascent? 9 before,
      latest Method.descent? 5 before, Builder.clampByte ((d.mask.rect.x1 - d.mask.rect.x0) / 2)⟩

structure GlyphsSaid (l : List Method) (b : Builder) : Prop where
  count : b.glyphOrder.length = (all Method.mask? l).length
  each : ∀ i u, b.glyphOrder[i]? = some u → GlyphSaid l b i u

theorem GlyphsSaid.other {l : List Method} {b b' : Builder} {m : Method} (ih : GlyphsSaid l b)
    (h1 : b'.glyphOrder = b.glyphOrder) (h2 : b'.glyphData = b.glyphData) (h3 : m.mask? = none)
    (h4 : ∀ u, m.glyphName? u = none) (h5 : ∀ u, m.placement? u = none) : GlyphsSaid (m :: l) b' := by
  refine ⟨by rw [h1, all_none h3]; exact ih.1, fun i u hu => ?_⟩
  rw [h1] at hu
  obtain ⟨d, since, before, rolls, p, k1, rfl, k3, k4, k5, k6, k7⟩ := ih.2 i u hu
  refine ⟨d, m :: since, before, rolls, p, by rw [h2]; exact k1, rfl, k3, k4, ?_, ?_, k7⟩
  · rw [latest, List.findSome?_cons, h4]; exact k5
  · rw [latest, List.findSome?_cons, h5]; exact k6

theorem glyphs_step {id : UInt64} {today : DateModel.Date} {l : List Method} {b b' : Builder} {m : Method} (h : m.Effect b b')
    (hf : fields b = fieldsOf id today l) (ih : GlyphsSaid l b) : GlyphsSaid (m :: l) b' := by
  cases m with
  | addGlyph rolls mask =>
    obtain ⟨u, hu, hn, rfl⟩ := h
    refine ⟨?_, fun i v hv => ?_⟩
    · rw [all_some (f := Method.mask?) (m := .addGlyph rolls mask) rfl, List.length_append, List.length_append, ih.1]
      rfl
    · simp only at hv
      rcases Nat.lt_trichotomy i b.glyphOrder.length with hi | hi | hi
      · rw [List.getElem?_append_left hi] at hv
        obtain ⟨d, since, before, rolls', p, k1, rfl, k3, k4, k5, k6, k7⟩ := ih.2 i v hv
        refine ⟨d, .addGlyph rolls mask :: since, before, rolls', p, ?_, rfl, k3, k4, k5, k6, k7⟩
        rw [get_set, if_neg (fun e => by rw [e, k1] at hn; cases hn)]
        exact k1
      · subst hi
        rw [List.getElem?_append_right (Nat.le_refl _), Nat.sub_self] at hv
        obtain rfl := Option.some.inj hv
        refine ⟨_, [], l, rolls, _, by rw [get_set, if_pos rfl], rfl, hu, ih.1.symm, rfl, rfl, ?_⟩
        have h1 : b.ascent = latest Method.ascent? 9 l := congrArg Fields.ascent hf
        have h2 : b.descent = latest Method.descent? 5 l := congrArg Fields.descent hf
        rw [h1, h2]
      · rw [List.getElem?_eq_none (by simp; omega)] at hv
        cases hv
  | setGlyphPlacement v q =>
    obtain ⟨g, hg, rfl⟩ := h
    refine ⟨ih.1, fun i u hu => ?_⟩
    obtain ⟨d, since, before, rolls', p, k1, rfl, k3, k4, k5, k6, k7⟩ := ih.2 i u hu
    by_cases hv : v = u
    · subst hv
      rw [hg] at k1
      obtain rfl := Option.some.inj k1
      refine ⟨{ g with placement := q }, .setGlyphPlacement v q :: since, before, rolls', p, by rw [get_set, if_pos rfl], rfl, k3, k4, k5, ?_, k7⟩
      show q = _
      rw [latest, List.findSome?_cons, Method.placement?, if_pos rfl]
      rfl
    · refine ⟨d, .setGlyphPlacement v q :: since, before, rolls', p, by rw [get_set, if_neg hv]; exact k1, rfl, k3, k4, k5, ?_,
        k7⟩
      rw [latest, List.findSome?_cons, Method.placement?, if_neg hv]
      exact k6
  | setGlyphName v x =>
    obtain ⟨g, hg, rfl⟩ := h
    refine ⟨ih.1, fun i u hu => ?_⟩
    obtain ⟨d, since, before, rolls', p, k1, rfl, k3, k4, k5, k6, k7⟩ := ih.2 i u hu
    by_cases hv : v = u
    · subst hv
      rw [hg] at k1
      obtain rfl := Option.some.inj k1
      refine ⟨{ g with name := x }, .setGlyphName v x :: since, before, rolls', p, by rw [get_set, if_pos rfl], rfl, k3, k4, ?_, k6, k7⟩
      show x = _
      rw [latest, List.findSome?_cons, Method.glyphName?, if_pos rfl]
      rfl
    · refine ⟨d, .setGlyphName v x :: since, before, rolls', p, by rw [get_set, if_neg hv]; exact k1, rfl, k3, k4, ?_, k6, k7⟩
      rw [latest, List.findSome?_cons, Method.glyphName?, if_neg hv]
      exact k5
  | setKerningPair p n k =>
    cases h
    unfold Builder.setKerningPair
    split <;> exact ih.other rfl rfl rfl (fun _ => rfl) (fun _ => rfl)
  | createGlyphSet => obtain ⟨_, rfl⟩ := h; exact ih.other rfl rfl rfl (fun _ => rfl) (fun _ => rfl)
  | addGlyphSetRange => obtain ⟨g, _, rfl⟩ := h; exact ih.other rfl rfl rfl (fun _ => rfl) (fun _ => rfl)
  | addGlyphSetListGlyph => obtain ⟨g, _, rfl⟩ := h; exact ih.other rfl rfl rfl (fun _ => rfl) (fun _ => rfl)
  | removeGlyphSetRange => rcases h with rfl | ⟨s, _, rfl⟩ <;> exact ih.other rfl rfl rfl (fun _ => rfl) (fun _ => rfl)
  | removeGlyphSetListGlyph => rcases h with rfl | ⟨s, _, rfl⟩ <;> exact ih.other rfl rfl rfl (fun _ => rfl) (fun _ => rfl)
  | createRuneSet => exact h.elim
  | addRuneSetRange => exact h.elim
  | addRuneSetListRune => exact h.elim
  | addSimpleUtf8RewriteRule => obtain ⟨r, rfl, _⟩ := h; exact ih.other rfl rfl rfl (fun _ => rfl) (fun _ => rfl)
  | addGlyphRewriteRule => obtain ⟨r, rfl, _⟩ := h; exact ih.other rfl rfl rfl (fun _ => rfl) (fun _ => rfl)
  | parseEditionData => obtain ⟨cl, hp, vp, rfl, _⟩ := h; exact ih.other rfl rfl rfl (fun _ => rfl) (fun _ => rfl)
  | _ => cases h; exact ih.other rfl rfl rfl (fun _ => rfl) (fun _ => rfl)

theorem History.glyphs {rolls : List UInt64} {today : DateModel.Date} {l : List Method} {e : Editor}
    (h : History rolls today l e) : GlyphsSaid l e.builder := by
  induction h with
  | new h =>
    obtain ⟨id, _, rfl⟩ := find_new h
    exact ⟨rfl, fun i u h => by cases h⟩
  | call h0 _ h ih => obtain ⟨id, _, hf⟩ := h0.fields; exact glyphs_step (Method.effect h0.edits h) hf ih

/-- A history from running the calls. -/
def runAll (today : DateModel.Date) (rolls : List UInt64) : List Method → Res Editor
  | [] => do return ⟨← BuilderModel.new rolls today, [], [], []⟩
  | m :: l => do m.run (← runAll today rolls l)

theorem runAll_history {today : DateModel.Date} {rolls : List UInt64} : ∀ {l : List Method} {e : Editor},
    runAll today rolls l = .ok e → (∀ m ∈ l, m.InRange) → History rolls today l e
  | [], e, h, _ => by
    simp only [runAll, Res.bind_eq_ok, Res.pure_eq, Res.ok.injEq] at h
    obtain ⟨b, hb, rfl⟩ := h
    exact .new hb
  | m :: l, e, h, hr => by
    simp only [runAll, Res.bind_eq_ok] at h
    obtain ⟨e1, h1, h2⟩ := h
    exact .call (runAll_history h1 fun m hm => hr m (List.mem_cons_of_mem _ hm)) (hr m (List.mem_cons_self ..)) h2

theorem clampByte_eq {n : Int} (h : 0 ≤ n) : Builder.clampByte n = byte (min 255 n).toNat := by
  rw [Builder.clampByte, Int.emod_eq_of_lt (by omega) (by omega)]

theorem called_history : History [0x9E3779B97F4A7C15] Sample.day Sample.calls ⟨Sample.called, [], [], []⟩ := by
  refine runAll_history (by decide +kernel) ?_
  simp only [Sample.calls, List.mem_cons, List.not_mem_nil, or_false, forall_eq_or_imp, forall_eq, Method.InRange, IsInt8]
  decide

end Spec
