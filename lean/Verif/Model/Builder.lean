import Verif.Model.Font
import Verif.Model.Names
import Verif.Model.Encoder

/-!
# Model of the editing API of the `builder` package

`builder/font_builder.go` (state, `New`), `font_builder_props.go`, `font_builder_color.go`,
`font_builder_settings.go`, `font_builder_mapping.go`, `font_builder_rewrite_sets.go`,
`font_builder_rewrite_rules.go`.

Each function takes the state of the builder and returns the new one; when it returns an error (or
`false`) the state does not change.

Simplifications. Go maps are association lists (`GoMap`): the order of the list is only an
implementation detail of the model, iteration orders are separate parameters where they matter.
Unique identifiers are natural numbers (`uint64` in Go); the ones that `CryptoRandUint64` returns are
parameters. Slices passed by the caller are copied (Go keeps the caller's slice in `MapGroup`,
`AddSetting` and the rewrite rules). Pointers to entries of `glyphData` are not shared outside the
map. The unused temporary buffers are left out.
-/

namespace BuilderModel
open Go Helpers

/-- A Go map. -/
abbrev GoMap (K V : Type) := List (K × V)

namespace GoMap
variable {K V : Type} [DecidableEq K]

/-- `v, found := m[k]`. -/
def get (m : GoMap K V) (k : K) : Option V :=
  match m with
  | [] => none
  | (k', v) :: rest => if k' = k then some v else get rest k

/-- `m[k] = v`. -/
def set (m : GoMap K V) (k : K) (v : V) : GoMap K V :=
  match m with
  | [] => [(k, v)]
  | (k', v') :: rest => if k' = k then (k, v) :: rest else (k', v') :: set rest k v

/-- `delete(m, k)`. -/
def delete (m : GoMap K V) (k : K) : GoMap K V := m.filter fun e => e.1 ≠ k

/-- The keys, in some order. -/
def keys (m : GoMap K V) : List K := m.map (·.1)

end GoMap

/-- `glyph.go:34-41`, with `uint8` fields. -/
structure Placement where
  advance : UInt8
  topAdvance : UInt8
  bottomAdvance : UInt8
  horzCenter : UInt8
deriving DecidableEq, Repr

/-- `builder/font_builder_subtypes.go:7-11`. -/
structure GlyphData where
  name : Bytes
  placement : Placement
  mask : Mask.Img
deriving DecidableEq, Repr

/-- `builder/font_builder_subtypes.go:20-25` (`First` and `Second` repeat the key). -/
structure KernPair where
  cls : Nat
  value : Int
deriving DecidableEq, Repr

/-- `builder/font_builder_color.go:8-11`. -/
structure Dye where
  name : Bytes
  alphas : List UInt8
deriving DecidableEq, Repr

/-- `color.RGBA`. -/
structure RGBA where
  r : UInt8
  g : UInt8
  b : UInt8
  a : UInt8
deriving DecidableEq, Repr

/-- `builder/font_builder_color.go:50-53`. -/
structure Palette where
  name : Bytes
  colors : List RGBA
deriving DecidableEq, Repr

/-- `builder/font_builder_settings.go:8-11`. -/
structure Setting where
  name : Bytes
  options : List Bytes
deriving DecidableEq, Repr

/-- `builder/font_builder_mapping.go:78-81`. -/
structure MapGroup where
  glyphs : List Nat
  animFlags : UInt8
deriving DecidableEq, Repr

/-- `builder/font_builder_mapping.go:41-46`. -/
structure MapEntry where
  switchType : Nat
  cases : List MapGroup
deriving DecidableEq, Repr

/-- `builder/font_builder_rewrite_sets.go:14-17`, glyph sets by unique identifiers. -/
structure GlyphSet where
  ranges : List (Nat × Nat)
  list : List Nat
deriving DecidableEq, Repr

/-- `builder/font_builder_rewrite_sets.go:169-172`. -/
structure RuneSet where
  ranges : List (Int × Int)
  list : List Int
deriving DecidableEq, Repr

/-- `builder/font_builder_rewrite_rules.go:9-18` (glyph identifiers) and `114-123` (code points, as
the `uint32` that is stored). -/
structure Rule where
  condition : Nat
  headLen : Nat
  bodyLen : Nat
  tailLen : Nat
  isGroup : BoolList
  inElems : List Nat
  inGroups : List Nat
  output : List Nat
deriving DecidableEq, Repr

/-- `builder/font_builder.go:28-103`. Conditions are their data only. -/
structure Builder where
  glyphOrder : List Nat := []
  fontID : UInt64
  versionMajor : UInt16 := 0
  versionMinor : UInt16 := 1
  firstVersionDate : DateModel.Date
  majorVersionDate : DateModel.Date
  minorVersionDate : DateModel.Date
  fontName : Bytes
  fontFamily : Bytes
  fontAuthor : Bytes
  fontAbout : Bytes
  hasVertLayout : Bool := false
  monoWidth : UInt8 := 0
  ascent : UInt8 := 9
  extraAscent : UInt8 := 0
  descent : UInt8 := 5
  extraDescent : UInt8 := 0
  uppercaseAscent : UInt8 := 9
  midlineAscent : UInt8 := 5
  horzInterspacing : UInt8 := 1
  vertInterspacing : UInt8 := 0
  lineGap : UInt8 := 1
  vertLineWidth : UInt8 := 0
  vertLineGap : UInt8 := 0
  dyes : List Dye := []
  palettes : List Palette := []
  glyphData : GoMap Nat GlyphData := []
  settings : List Setting := []
  switches : List (List Nat) := []
  runeMapping : GoMap Int MapEntry := []
  conditions : List Bytes := []
  glyphSets : GoMap Nat GlyphSet := []
  runeSets : GoMap Nat RuneSet := []
  glyphSetsOrder : List Nat := []
  glyphRules : List Rule := []
  utf8Rules : List Rule := []
  horzKern : GoMap (Nat × Nat) KernPair := []
  vertKern : GoMap (Nat × Nat) KernPair := []
  kernClasses : List Int := []
deriving DecidableEq, Repr

/-- ASCII text of a Go string constant. -/
def ascii (s : String) : Bytes := s.toList.map fun c => byte c.toNat

/-- `builder/font_builder.go:109-169`, `New`; `rolls` are the results of `CryptoRandUint64` (at most
8 are looked at, lines 115-120), `today` is `CurrentDate()`. -/
def new (rolls : List UInt64) (today : DateModel.Date) : Res Builder :=
  match (rolls.take 8).find? fun id => lazyEntropyUint64 id.toNat ≥ FontModel.minEntropyID with
  | none => .panic "failed to generate font ID with sufficient entropy"
  | some id => .ok {
      fontID := id
      firstVersionDate := today
      majorVersionDate := today
      minorVersionDate := today
      fontName := ascii "Unnamed"
      fontFamily := ascii "Unnamed"
      fontAuthor := ascii "Authorless"
      fontAbout := ascii "No information available." }

namespace Builder

/-! ## Header (`font_builder_props.go:14-102`) -/

/-- `font_builder_props.go:27-32`. -/
def setFirstVerDate (b : Builder) (date : DateModel.Date) : Res Builder := do
  let ok ← date.isValid
  if !ok then .err "invalid date" else return { b with firstVersionDate := date }
/-- `font_builder_props.go:34-38`. -/
def setMajorVerDate (b : Builder) (date : DateModel.Date) : Res Builder := do
  let ok ← date.isValid
  if !ok then .err "invalid date" else return { b with majorVersionDate := date }
/-- `font_builder_props.go:40-44`. -/
def setMinorVerDate (b : Builder) (date : DateModel.Date) : Res Builder := do
  let ok ← date.isValid
  if !ok then .err "invalid date" else return { b with minorVersionDate := date }

/-- `font_builder_props.go:47-53`; `today` is `CurrentDate()`. -/
def raiseMajorVersion (b : Builder) (today : DateModel.Date) : Builder :=
  { b with versionMajor := b.versionMajor + 1, versionMinor := 0, majorVersionDate := today,
           minorVersionDate := today }
/-- `font_builder_props.go:56-59`. -/
def raiseMinorVersion (b : Builder) (today : DateModel.Date) : Builder :=
  { b with versionMinor := b.versionMinor + 1, minorVersionDate := today }
/-- `font_builder_props.go:62-67`; the date is asked for twice. -/
def setVersion (b : Builder) (major minor : UInt16) (today today' : DateModel.Date) : Builder :=
  { b with versionMajor := major, versionMinor := minor, majorVersionDate := today,
           minorVersionDate := today' }

/-- `font_builder_props.go:238-246`, `checkStringValidity`; `validUtf8` is `utf8.ValidString`. In
valid text code points below the space are single bytes. -/
def checkStringValidity (validUtf8 : Bytes → Bool) (str : Bytes) : Res Unit :=
  if !validUtf8 str then .err "string contains invalid characters"
  else if str.any (· < 32) then .err "string can't contain control characters"
  else .ok ()

/-- `font_builder_props.go:70-76`. -/
def setName (b : Builder) (validUtf8 : Bytes → Bool) (name : Bytes) : Res Builder := do
  if name.length > 255 then .err "font name can't exceed 255 bytes" else
  checkStringValidity validUtf8 name
  return { b with fontName := name }
/-- `font_builder_props.go:78-84`. -/
def setFamily (b : Builder) (validUtf8 : Bytes → Bool) (name : Bytes) : Res Builder := do
  if name.length > 255 then .err "family name can't exceed 255 bytes" else
  checkStringValidity validUtf8 name
  return { b with fontFamily := name }
/-- `font_builder_props.go:86-92`. -/
def setAuthor (b : Builder) (validUtf8 : Bytes → Bool) (name : Bytes) : Res Builder := do
  if name.length > 255 then .err "author name can't exceed 255 bytes" else
  checkStringValidity validUtf8 name
  return { b with fontAuthor := name }
/-- `font_builder_props.go:94-100`. -/
def setAbout (b : Builder) (validUtf8 : Bytes → Bool) (about : Bytes) : Res Builder := do
  if about.length > 65535 then .err "font 'about' can't exceed 65535 bytes" else
  checkStringValidity validUtf8 about
  return { b with fontAbout := about }

/-! ## Metrics (`font_builder_props.go:104-174`) -/

/-- `font_builder_props.go:109-116`, `GetMetricsStatus`. -/
def metricsStatus (b : Builder) : Res Unit :=
  if b.ascent = 0 then .err "ascent must be strictly positive"
  else if b.ascent ≤ b.extraAscent then .err "ascent must be greater than extra ascent"
  else if b.ascent < b.midlineAscent then
    .err "ascent must be equal or greater than midline ascent"
  else if b.ascent < b.uppercaseAscent then
    .err "ascent must be equal or greater than uppercase ascent"
  else if b.midlineAscent > b.uppercaseAscent then
    .err "midline ascent must be equal or greater than uppercase ascent"
  else .ok ()

/-- `font_builder_props.go:119-122`. -/
def setVertLayoutUsed (b : Builder) (used : Bool) : Builder := { b with hasVertLayout := used }
/-- `font_builder_props.go:124-126`. -/
def setMonoWidth (b : Builder) (width : UInt8) : Builder := { b with monoWidth := width }
/-- `font_builder_props.go:136`. -/
def setAscent (b : Builder) (v : UInt8) : Builder := { b with ascent := v }
/-- `font_builder_props.go:137`. -/
def setExtraAscent (b : Builder) (v : UInt8) : Builder := { b with extraAscent := v }
/-- `font_builder_props.go:138`. -/
def setDescent (b : Builder) (v : UInt8) : Builder := { b with descent := v }
/-- `font_builder_props.go:139`. -/
def setExtraDescent (b : Builder) (v : UInt8) : Builder := { b with extraDescent := v }
/-- `font_builder_props.go:140`. -/
def setMidlineAscent (b : Builder) (v : UInt8) : Builder := { b with midlineAscent := v }
/-- `font_builder_props.go:141`. -/
def setUppercaseAscent (b : Builder) (v : UInt8) : Builder := { b with uppercaseAscent := v }
/-- `font_builder_props.go:145-147`. -/
def setHorzInterspacing (b : Builder) (v : UInt8) : Builder := { b with horzInterspacing := v }
/-- `font_builder_props.go:148-150`. -/
def setVertInterspacing (b : Builder) (v : UInt8) : Builder := { b with vertInterspacing := v }
/-- `font_builder_props.go:152-154`. -/
def setLineGap (b : Builder) (v : UInt8) : Builder := { b with lineGap := v }
/-- `font_builder_props.go:158-167`. -/
def setVertLineWidth (b : Builder) (v : UInt8) : Res Builder :=
  if v = 0 ∧ b.hasVertLayout then
    .err "can't set vert line width to zero when vert layout is enabled"
  else if v ≠ 0 ∧ !b.hasVertLayout then
    .err "can't set vert line width without enabling vert layout first"
  else .ok { b with vertLineWidth := v }
/-- `font_builder_props.go:168-174`. -/
def setVertLineGap (b : Builder) (v : UInt8) : Res Builder :=
  if v ≠ 0 ∧ !b.hasVertLayout then
    .err "can't set vert line gap without enabling vert layout first"
  else .ok { b with vertLineGap := v }

/-! ## Glyphs (`font_builder_props.go:178-236`) -/

/-- `image.Rectangle.Dx` is the plain difference; then `uint8(min(255, ·))`. -/
def clampByte (n : Int) : UInt8 := byte (min 255 n % 256).toNat

/-- The checks of `font_builder_props.go:185-198`. -/
def checkMask (b : Builder) (mask : Mask.Img) : Res Unit := do
  let rect ← Mask.computeRect mask
  if rect.empty then return () else
  if rect.y0 < 0 ∧ -rect.y0 > b.ascent.toNat + b.extraAscent.toNat then
    .err "glyph exceeds font ascent" else
  if rect.y1 > 0 ∧ rect.y1 > b.descent.toNat + b.extraDescent.toNat then
    .err "glyph exceeds font descent" else
  if b.monoWidth ≠ 0 ∧ (rect.x0 < 0 ∨ rect.x1 > b.monoWidth.toNat) then
    .err "glyph doesn't respect monospacing width" else
  return ()

/-- `font_builder_props.go:178-220`, `AddGlyph`; `rolls` are the results of `CryptoRandUint64`, of
which at most 4 are looked at. The division of line 210 truncates, but `Dx` is not negative for an
image. -/
def addGlyph (b : Builder) (rolls : List Nat) (mask : Mask.Img) : Res (Builder × Nat) := do
  if b.glyphData.length ≥ FontModel.maxGlyphs then .err "reached font glyph count limit" else
  b.checkMask mask
  match (rolls.take 4).find? fun u => (b.glyphData.get u).isNone && u != FontModel.glyphMissing with
  | none => .err "failed to generate unique glyph UID"
  | some u =>
    let dx := mask.rect.x1 - mask.rect.x0
    let g : GlyphData := ⟨[], ⟨clampByte dx, b.ascent, b.descent, clampByte (dx / 2)⟩, mask⟩
    return ({ b with glyphData := b.glyphData.set u g, glyphOrder := b.glyphOrder ++ [u] }, u)

/-- `font_builder_props.go:222-227`. -/
def setGlyphPlacement (b : Builder) (uid : Nat) (p : Placement) : Res Builder :=
  match b.glyphData.get uid with
  | none => .err "glyph not found"
  | some g => .ok { b with glyphData := b.glyphData.set uid { g with placement := p } }

/-- `font_builder_props.go:229-236`. -/
def setGlyphName (b : Builder) (uid : Nat) (name : Bytes) : Res Builder :=
  match b.glyphData.get uid with
  | none => .err "glyph not found"
  | some g => do
    Names.validateBasicName name
    return { b with glyphData := b.glyphData.set uid { g with name := name } }

/-- `font_builder_props.go:250-261`, `SetKerningPair`; `kerning` is an `int8`. -/
def setKerningPair (b : Builder) (prev next : Nat) (kerning : Int) : Builder :=
  if kerning = 0 then { b with horzKern := b.horzKern.delete (prev, next) }
  else { b with horzKern := b.horzKern.set (prev, next) ⟨0, kerning⟩ }

/-! ## Colors (`font_builder_color.go`) -/

/-- `font_builder_color.go:103-115`. -/
def checkColorName (b : Builder) (name : Bytes) : Res Unit :=
  if b.dyes.any fun d => d.name = name then
    .err "the given name is already taken by an existing dye section"
  else if b.palettes.any fun p => p.name = name then
    .err "the given name is already taken by an existing palette section"
  else .ok ()

/-- `font_builder_color.go:117-126`. -/
def colorCount (b : Builder) : Nat :=
  (b.dyes.map fun d => d.alphas.length).sum + (b.palettes.map fun p => p.colors.length).sum

/-- `font_builder_color.go:33-46`, `AddDye`. -/
def addDye (b : Builder) (name : Bytes) (alphas : List UInt8) : Res Builder := do
  b.checkColorName name
  if b.colorCount + alphas.length > 255 then .err "font colors can't exceed 255 indices" else
  return { b with dyes := b.dyes ++ [⟨name, alphas⟩] }

/-- `font_builder_color.go:82-95`, `AddPalette`. -/
def addPalette (b : Builder) (name : Bytes) (colors : List RGBA) : Res Builder := do
  b.checkColorName name
  if b.colorCount + colors.length > 255 then .err "font colors can't exceed 255 indices" else
  return { b with palettes := b.palettes ++ [⟨name, colors⟩] }

/-- Loop of `font_builder_color.go:15-29`: the calls `fn(alpha, index)`, and the returned error
(never nil). `clrIndex` is an `int`. -/
def eachDyeAlphaLoop (name : Bytes) : List Dye → Int → List (UInt8 × UInt8) →
    List (UInt8 × UInt8) × String
  | [], _, calls => (calls, "dye section not found")
  | d :: ds, clrIndex, calls =>
    if (d.alphas.length : Int) > clrIndex then (calls, "dye sections exceed 255 alpha values")
    else if d.name = name then
      eachDyeAlphaLoop name ds clrIndex
        (calls ++ d.alphas.mapIdx fun i a => (a, byte ((clrIndex - i) % 256).toNat))
    else eachDyeAlphaLoop name ds (clrIndex - d.alphas.length) calls

/-- `font_builder_color.go:13-31`, `EachDyeAlpha`. -/
def eachDyeAlpha (b : Builder) (name : Bytes) : List (UInt8 × UInt8) × String :=
  eachDyeAlphaLoop name b.dyes 255 []

/-- Loop of `font_builder_color.go:64-78`: the calls `fn(rgba, index)` and the returned error (never
nil). Line 76 indexes the dyes with the index of the palette. -/
def eachPaletteColorLoop (dyes : List Dye) (name : Bytes) : List Palette → (i : Nat) → Int →
    List (RGBA × UInt8) → Res (List (RGBA × UInt8) × String)
  | [], _, _, calls => .ok (calls, "palette section not found")
  | p :: ps, i, clrIndex, calls =>
    if (p.colors.length : Int) > clrIndex then
      .ok (calls, "dye + palette sections exceed 255 alpha values")
    else if p.name = name then
      eachPaletteColorLoop dyes name ps (i + 1) clrIndex
        (calls ++ p.colors.mapIdx fun j c => (c, byte ((clrIndex - j) % 256).toNat))
    else do
      let d ← idx dyes i
      eachPaletteColorLoop dyes name ps (i + 1) (clrIndex - d.alphas.length) calls

/-- `font_builder_color.go:55-80`, `EachPaletteColor`. -/
def eachPaletteColor (b : Builder) (name : Bytes) : Res (List (RGBA × UInt8) × String) :=
  let clrIndex : Int := 255 - (b.dyes.map fun d => d.alphas.length).sum
  if clrIndex < 0 then .ok ([], "dye sections exceed 255 alpha values")
  else eachPaletteColorLoop b.dyes name b.palettes 0 clrIndex []

/-! ## Settings (`font_builder_settings.go:81-106`) -/

/-- The loop over the options of `font_builder_settings.go:84-87`. -/
def checkOptions : List Bytes → Res Unit
  | [] => .ok ()
  | o :: os => do
    Names.validateBasicName o
    checkOptions os

/-- `font_builder_settings.go:81-106`, `AddSetting`. -/
def addSetting (b : Builder) (name : Bytes) (options : List Bytes) : Res (Builder × Nat) := do
  Names.validateBasicName name
  checkOptions options
  if options.length > 255 then .err "setting can't have more than 255 options" else
  if b.settings.length ≥ 255 then .err "can't add more than 255 settings" else
  if b.settings.any fun s => s.name = name then .err "can't add two settings with the same name" else
  return ({ b with settings := b.settings ++ [⟨name, options⟩] }, b.settings.length)

/-! ## Mapping (`font_builder_mapping.go`) -/

/-- The loop of `font_builder_mapping.go:24-34`: `repeated` are the settings seen so far. -/
def checkSwitch (numSettings : Nat) : List Nat → List Nat → Res Unit
  | [], _ => .ok ()
  | s :: rest, repeated =>
    if s ≥ numSettings then .err "mapping switch contains undefined setting"
    else if s ∈ repeated then .err "mapping switch can't contain repeated settings"
    else checkSwitch numSettings rest (s :: repeated)

/-- `font_builder_mapping.go:14-39`, `AddSwitch`. -/
def addSwitch (b : Builder) (settings : List Nat) : Res (Builder × Nat) := do
  if settings.length < 1 ∨ settings.length > 255 then
    .err "mapping switch must contain between 1 and 255 settings" else
  if b.switches.length ≥ 254 then .err "can't have more than 254 mapping switches" else
  checkSwitch b.settings.length settings []
  return ({ b with switches := b.switches ++ [settings] }, b.switches.length)

/-- A value of type `int` after overflow. -/
def wrapInt (x : Int) : Int := x.bmod 18446744073709551616

/-- The loop of `font_builder.go:848-852`. The product wraps around. -/
def numCasesLoop (b : Builder) : List Nat → (i : Nat) → (numCases : Int) → Res Int
  | [], _, n => .ok n
  | s :: rest, i, n => do
    let setting ← idx b.settings s
    if setting.options.length = 0 then .panic "invalid internal state" else
    numCasesLoop b rest (i + 1)
      (wrapInt (if i = 0 then setting.options.length else n * setting.options.length))

/-- `font_builder.go:842-854`, `computeNumSwitchCases`. -/
def computeNumSwitchCases (b : Builder) (switchIndex : Nat) : Res Int :=
  if switchIndex ≥ 254 then .ok 1 else do
    let s ← idx b.switches switchIndex
    numCasesLoop b s 0 0

/-- `font_builder_mapping.go:122-138`, `Map`. -/
def map (b : Builder) (codePoint : Int) (uid : Nat) : Res Builder :=
  if codePoint < 32 then .err "can't map code points before ' ' (space)"
  else if (b.glyphData.get uid).isNone then .err "attempted to map to an undefined glyph"
  else .ok { b with runeMapping := b.runeMapping.set codePoint ⟨255, [⟨[uid], 0⟩]⟩ }

/-- `font_builder_mapping.go:140-162`, `MapGroup`. -/
def mapGroup (b : Builder) (codePoint : Int) (animFlags : UInt8) (uids : List Nat) : Res Builder :=
  if codePoint < 32 then .err "can't map code points before ' ' (space)"
  else if uids.length < 2 then
    .err "mapping a glyph group to a code point requires at least 2 glyphs"
  else if uids.length > 127 then .err "glyph groups can't exceed 127 glyphs"
  else if uids.any fun u => (b.glyphData.get u).isNone then
    .err "attempted to map to an undefined glyph"
  else .ok { b with runeMapping := b.runeMapping.set codePoint ⟨254, [⟨uids, animFlags⟩]⟩ }

/-- `font_builder_mapping.go:174-199`, `MapWithSwitchSingles`. -/
def mapWithSwitchSingles (b : Builder) (codePoint : Int) (mapSwitch : Nat) (uids : List Nat) :
    Res Builder := do
  if codePoint < 32 then .err "can't map code points before ' ' (space)" else
  if mapSwitch ≥ 254 then .panic "MapWithSwitch expects a map switch < 254" else
  if mapSwitch ≥ b.switches.length then .err "can't map with undefined switch" else
  let n ← b.computeNumSwitchCases mapSwitch
  if (uids.length : Int) ≠ n then .err "switch expects another number of glyph groups" else
  return { b with runeMapping := b.runeMapping.set codePoint ⟨mapSwitch, uids.map fun u => ⟨[u], 0⟩⟩ }

/-- The loop of `font_builder_mapping.go:219-225`. -/
def animFlagsLoop : (groups : List (List Nat)) → (animFlags : List UInt8) →
    (final : List UInt8) → Res (List UInt8 × List UInt8)
  | [], rest, final => .ok (rest, final)
  | g :: gs, flags, final =>
    if g.length = 0 then .panic "glyph groups can't be empty"
    else if g.length = 1 then animFlagsLoop gs flags final
    else match flags with
      | [] => .err "not enough animation flags for all multi-glyph groups"
      | f :: fs => animFlagsLoop gs fs (final ++ [f])

/-- The loop of `font_builder_mapping.go:231-233`. -/
def switchCasesLoop (final : List UInt8) : (groups : List (List Nat)) → (i : Nat) →
    Res (List MapGroup)
  | [], _ => .ok []
  | g :: gs, i => do
    let f ← idx final i
    let rest ← switchCasesLoop final gs (i + 1)
    return ⟨g, f⟩ :: rest

/-- `font_builder_mapping.go:202-239`, `MapWithSwitch`. -/
def mapWithSwitch (b : Builder) (codePoint : Int) (mapSwitch : Nat) (groups : List (List Nat))
    (animFlags : List UInt8) : Res Builder := do
  if codePoint < 32 then .err "can't map code points before ' ' (space)" else
  if mapSwitch ≥ 254 then .panic "MapWithSwitch expects a map switch < 254" else
  if mapSwitch ≥ b.switches.length then .err "can't map with undefined switch" else
  let n ← b.computeNumSwitchCases mapSwitch
  if (groups.length : Int) ≠ n then .err "switch expects another number of glyph groups" else
  let (rest, final) ← animFlagsLoop groups animFlags []
  if rest ≠ [] then .err "number of animation flags doesn't match number of multi-glyph groups" else
  let cases ← switchCasesLoop final groups 0
  return { b with runeMapping := b.runeMapping.set codePoint ⟨mapSwitch, cases⟩ }

/-! ## Rewrite sets (`font_builder_rewrite_sets.go:61-164`) -/

/-- `font_builder_rewrite_sets.go:61-75`, `CreateGlyphSet`; `uid` is the random identifier. -/
def createGlyphSet (b : Builder) (uid : Nat) : Res (Builder × Nat) :=
  if b.glyphSets.length ≥ 255 then .err "font can't contain more than 255 glyph sets"
  else if (b.glyphSets.get uid).isSome then .err "failed to generate unique glyph set UID"
  else .ok ({ b with glyphSets := b.glyphSets.set uid ⟨[], []⟩,
                     glyphSetsOrder := b.glyphSetsOrder ++ [uid] }, uid)

/-- `font_builder_rewrite_sets.go:77-82`, `RemoveGlyphSet`. -/
def removeGlyphSet (b : Builder) (setUID : Nat) : Builder × Bool :=
  match b.glyphSets.get setUID with
  | none => (b, false)
  | some _ => ({ b with glyphSets := b.glyphSets.delete setUID }, true)

/-- `font_builder_rewrite_sets.go:84-100`, `AddGlyphSetRange`. -/
def addGlyphSetRange (b : Builder) (setUID first last : Nat) : Res Builder :=
  match b.glyphSets.get setUID with
  | none => .err "invalid glyph set UID"
  | some gs =>
    if gs.ranges.length ≥ 255 then .err "glyph set can't contain more than 255 ranges"
    else if (b.glyphData.get first).isNone then .err "invalid glyph range starting UID"
    else if (b.glyphData.get last).isNone then .err "invalid glyph range ending UID"
    else if gs.ranges.any fun r => r.1 = first ∧ r.2 = last then .err "glyph range already included"
    else .ok { b with
        glyphSets := b.glyphSets.set setUID { gs with ranges := gs.ranges ++ [(first, last)] } }

/-- `slices.Delete(s, i, j)`. -/
def slicesDelete {α : Type} (s : List α) (i j : Nat) : List α := s.take i ++ s.drop j

/-- `font_builder_rewrite_sets.go:102-116`, `RemoveGlyphSetRange`. -/
def removeGlyphSetRange (b : Builder) (setUID first last : Nat) : Builder × Bool :=
  match b.glyphSets.get setUID with
  | none => (b, false)
  | some gs =>
    match gs.ranges.findIdx? fun r => r.1 = first ∧ r.2 = last with
    | none => (b, false)
    | some i => ({ b with
        glyphSets := b.glyphSets.set setUID { gs with ranges := slicesDelete gs.ranges i i } }, true)

/-- `font_builder_rewrite_sets.go:118-124`, `EachGlyphSetRange`. -/
def eachGlyphSetRange (b : Builder) (setUID : Nat) : List (Nat × Nat) :=
  match b.glyphSets.get setUID with
  | none => []
  | some gs => gs.ranges

/-- `font_builder_rewrite_sets.go:126-140`, `AddGlyphSetListGlyph`. -/
def addGlyphSetListGlyph (b : Builder) (setUID uid : Nat) : Res Builder :=
  match b.glyphSets.get setUID with
  | none => .err "invalid glyph set UID"
  | some gs =>
    if gs.list.length ≥ 255 then .err "glyph set can't contain more than 255 glyphs"
    else if (b.glyphData.get uid).isNone then .err "invalid glyph UID"
    else if uid ∈ gs.list then .err "glyph already included"
    else .ok { b with glyphSets := b.glyphSets.set setUID { gs with list := gs.list ++ [uid] } }

/-- `font_builder_rewrite_sets.go:142-156`, `RemoveGlyphSetListGlyph`. -/
def removeGlyphSetListGlyph (b : Builder) (setUID uid : Nat) : Builder × Bool :=
  match b.glyphSets.get setUID with
  | none => (b, false)
  | some gs =>
    match gs.list.findIdx? fun u => u = uid with
    | none => (b, false)
    | some i => ({ b with
        glyphSets := b.glyphSets.set setUID { gs with list := slicesDelete gs.list i i } }, true)

/-- `font_builder_rewrite_sets.go:158-164`, `EachGlyphSetListGlyph`. -/
def eachGlyphSetListGlyph (b : Builder) (setUID : Nat) : List Nat :=
  match b.glyphSets.get setUID with
  | none => []
  | some gs => gs.list

/-- `font_builder_rewrite_sets.go:174-187`, `CreateRuneSet`: the map is never made, so that writing
to it panics. (The check of line 181 looks at the glyph sets.) -/
def createRuneSet (b : Builder) (uid : Nat) : Res (Builder × Nat) :=
  if b.runeSets.length ≥ 255 then .err "font can't contain more than 255 rune sets"
  else if (b.glyphSets.get uid).isSome then .err "failed to generate unique rune set UID"
  else .panic "assignment to entry in nil map"

/-- `font_builder_rewrite_sets.go:189-194`, `RemoveRuneSet`. -/
def removeRuneSet (b : Builder) (setUID : Nat) : Builder × Bool :=
  match b.runeSets.get setUID with
  | none => (b, false)
  | some _ => ({ b with runeSets := b.runeSets.delete setUID }, true)

/-- `font_builder_rewrite_sets.go:196-210`, `AddRuneSetRange`. -/
def addRuneSetRange (b : Builder) (setUID : Nat) (first last : Int) : Res Builder :=
  match b.runeSets.get setUID with
  | none => .err "invalid rune set UID"
  | some rs =>
    if first > last then .err "invalid rune range (start > end)"
    else if rs.ranges.any fun r => r.1 = first ∧ r.2 = last then .err "rune range already included"
    else .ok { b with
        runeSets := b.runeSets.set setUID { rs with ranges := rs.ranges ++ [(first, last)] } }

/-- `font_builder_rewrite_sets.go:212-226`, `RemoveRuneSetRange`. -/
def removeRuneSetRange (b : Builder) (setUID : Nat) (first last : Int) : Builder × Bool :=
  match b.runeSets.get setUID with
  | none => (b, false)
  | some rs =>
    match rs.ranges.findIdx? fun r => r.1 = first ∧ r.2 = last with
    | none => (b, false)
    | some i => ({ b with
        runeSets := b.runeSets.set setUID { rs with ranges := slicesDelete rs.ranges i i } }, true)

/-- `font_builder_rewrite_sets.go:228-234`, `EachRuneSetRange`. -/
def eachRuneSetRange (b : Builder) (setUID : Nat) : List (Int × Int) :=
  match b.runeSets.get setUID with
  | none => []
  | some rs => rs.ranges

/-- `font_builder_rewrite_sets.go:236-247`, `AddRuneSetListRune`. -/
def addRuneSetListRune (b : Builder) (setUID : Nat) (codePoint : Int) : Res Builder :=
  match b.runeSets.get setUID with
  | none => .err "invalid rune set UID"
  | some rs =>
    if codePoint ∈ rs.list then .err "rune already included"
    else .ok { b with runeSets := b.runeSets.set setUID { rs with list := rs.list ++ [codePoint] } }

/-- `font_builder_rewrite_sets.go:249-263`, `RemoveRuneSetListRune`. -/
def removeRuneSetListRune (b : Builder) (setUID : Nat) (codePoint : Int) : Builder × Bool :=
  match b.runeSets.get setUID with
  | none => (b, false)
  | some rs =>
    match rs.list.findIdx? fun u => u = codePoint with
    | none => (b, false)
    | some i => ({ b with
        runeSets := b.runeSets.set setUID { rs with list := slicesDelete rs.list i i } }, true)

/-- `font_builder_rewrite_sets.go:265-271`, `EachRuneSetListRune`. -/
def eachRuneSetListRune (b : Builder) (setUID : Nat) : List Int :=
  match b.runeSets.get setUID with
  | none => []
  | some rs => rs.list

/-! ## Rewrite rules (`font_builder_rewrite_rules.go:215-279`) -/

/-- The loop pushing `n` times `false` (lines 220-222). -/
def pushFalse : Nat → BoolList → Res BoolList
  | 0, l => .ok l
  | n + 1, l => do
    let l ← l.push false
    pushFalse n l

/-- `font_builder_rewrite_rules.go:215-225`, `AddSimpleUtf8RewriteRule`; runes as `uint32`. -/
def addSimpleUtf8Rule (b : Builder) (replacement : Nat) (sequence : List Nat) : Res Builder := do
  if sequence.length = 0 then .err "rewrite rule sequence can't be empty" else
  if sequence.length > 255 then .err "rewrite rule sequence can't exceed 255 runes" else
  let isGroup ← pushFalse sequence.length ⟨0, []⟩
  return { b with utf8Rules := b.utf8Rules ++ [⟨255, 0, sequence.length, 0, isGroup, sequence, [],
    [replacement]⟩] }

/-- The loop of `font_builder_rewrite_rules.go:256-269`. -/
def ruleInputs (b : Builder) : List Nat → BoolList → List Nat → List Nat →
    Res (BoolList × List Nat × List Nat)
  | [], l, glyphs, groups => .ok (l, glyphs, groups)
  | u :: us, l, glyphs, groups =>
    if (b.glyphData.get u).isSome then do
      let l ← l.push false
      ruleInputs b us l (glyphs ++ [u]) groups
    else if (b.glyphSets.get u).isNone then .err "given input UID is neither glyph nor set"
    else do
      let l ← l.push true
      ruleInputs b us l glyphs (groups ++ [u])

/-- `font_builder_rewrite_rules.go:233-279`, `AddGlyphRewriteRule`. The error for an empty body
(line 235) is made but not returned. Lengths are `uint8`. -/
def addGlyphRule (b : Builder) (headLen bodyLen tailLen : UInt8) (input out : List Nat) :
    Res Builder := do
  let headBody := u8 (headLen.toNat + bodyLen.toNat)
  let total := u8 (headBody + tailLen.toNat)
  if headBody < bodyLen.toNat ∨ total < tailLen.toNat then
    .err "rewrite rule exceeds 255 input elements" else
  if total ≠ input.length then
    .err "rewrite rule input block lengths don't match given input" else
  if out.any fun u => (b.glyphData.get u).isNone then
    .err "invalid rewrite rule output glyph UID" else
  let (isGroup, glyphs, groups) ← b.ruleInputs input ⟨0, []⟩ [] []
  return { b with glyphRules := b.glyphRules ++ [⟨255, headLen.toNat, bodyLen.toNat, tailLen.toNat,
    isGroup, glyphs, groups, out⟩] }

end Builder
end BuilderModel
