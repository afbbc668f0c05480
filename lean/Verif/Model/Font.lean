import Verif.Model.Helpers
import Verif.Model.Date

/-!
# Model of `internal/font.go` and of the accessors of `font.go`

Simplifications. Offsets are Go `uint32`; the sums below are written without wrap-around (offsets of
parsed and built fonts are below `2 ^ 26`, and what is added is below `2 ^ 27`). `Data[a : a + k]`
and `Data[a : ]` followed by a decode of `k` bytes both panic exactly when fewer than `k` bytes are
left, and are modelled by the same functions `rd16`, `rd24`, `rd32`, `rd64`.
-/

namespace FontModel
open Go Helpers

/-- `internal/font.go:3-28`. -/
structure Font where
  data : Bytes
  offMetrics : Nat := 0
  offDyes : Nat := 0
  offPalettes : Nat := 0
  offGlyphNames : Nat := 0
  offGlyphMasks : Nat := 0
  offWords : Nat := 0
  offSettingNames : Nat := 0
  offSettingDefs : Nat := 0
  offSwitches : Nat := 0
  offMapping : Nat := 0
  offConditions : Nat := 0
  offUtf8Sets : Nat := 0
  offGlyphSets : Nat := 0
  offUtf8Rules : Nat := 0
  offGlyphRules : Nat := 0
  offHorzKern : Nat := 0
  offVertKern : Nat := 0
deriving DecidableEq, Repr

/-- `internal.DecodeUint16LE(data[off : ])`. -/
def rd16 (data : Bytes) (off : Nat) : Res Nat := do
  let s ← sliceFrom data off
  decodeUint16LE s

/-- `internal.DecodeUint24LE(data[off : ])`. -/
def rd24 (data : Bytes) (off : Nat) : Res Nat := do
  let s ← sliceFrom data off
  decodeUint24LE s

/-- `internal.DecodeUint32LE(data[off : ])`. -/
def rd32 (data : Bytes) (off : Nat) : Res Nat := do
  let s ← sliceFrom data off
  decodeUint32LE s

/-- `internal.DecodeUint64LE(data[off : ])`. -/
def rd64 (data : Bytes) (off : Nat) : Res Nat := do
  let s ← sliceFrom data off
  decodeUint64LE s

/-- `internal.DecodeDate(data[off : off + 4])`. -/
def rdDate (data : Bytes) (off : Nat) : Res DateModel.Date := do
  let s ← sliceFrom data off
  let (y, m, d) ← decodeDate s
  return ⟨y, m, d⟩

/-- `data[off]` as a number. -/
def rd8 (data : Bytes) (off : Nat) : Res Nat := do
  let b ← idx data off
  return b.toNat

/-- `unsafe.String(&data[off], n)`. Go checks that `off` is in range; that the `n` bytes are inside
the data is the responsibility of the caller. A violation reads foreign memory and is modelled as a
panic. -/
def unsafeString (data : Bytes) (off n : Nat) : Res Bytes := do
  let _ ← idx data off
  if off + n ≤ data.length then return (data.drop off).take n
  else .panic "unsafe.String out of the data"

/-- `internal/constants.go:5`. -/
def formatVersion : Nat := 2
/-- `internal/constants.go:4`. -/
def maxFontDataSize : Nat := 32 <<< 20
/-- `internal/constants.go:6`. -/
def maxGlyphs : Nat := 56789
/-- `internal/constants.go:13`, `MinEntropyID = 0.26`. -/
def minEntropyID : Rat := 26 / 100
/-- `glyph.go:7`. -/
def glyphMissing : Nat := 56789
/-- `glyph.go:8`. -/
def glyphZilch : Nat := 56790

namespace Font

/-! ## Header (`font.go:90-155`) -/

/-- `font.go:91-93`, `FormatVersion`. -/
def formatVersion (f : Font) : Res Nat := rd32 f.data 0
/-- `font.go:94-96`, `ID`. -/
def id (f : Font) : Res Nat := rd64 f.data 4
/-- `font.go:97-99`, `VersionMajor`. -/
def versionMajor (f : Font) : Res Nat := rd16 f.data 12
/-- `font.go:100-102`, `VersionMinor`. -/
def versionMinor (f : Font) : Res Nat := rd16 f.data 14
/-- `font.go:103-106`. -/
def firstVersionDate (f : Font) : Res DateModel.Date := rdDate f.data 16
/-- `font.go:107-110`. -/
def majorVersionDate (f : Font) : Res DateModel.Date := rdDate f.data 20
/-- `font.go:111-114`. -/
def minorVersionDate (f : Font) : Res DateModel.Date := rdDate f.data 24

/-- `font.go:115-118`, `Name`. -/
def name (f : Font) : Res Bytes := do
  let nameLen ← rd8 f.data 28
  unsafeString f.data 29 nameLen

/-- `font.go:119-123`, `Family`. The index is a `uint8` sum: the constant takes the type of
`nameLen`. -/
def family (f : Font) : Res Bytes := do
  let nameLen ← rd8 f.data 28
  let familyLen ← rd8 f.data (u8 (29 + nameLen))
  unsafeString f.data (u8 (30 + nameLen)) familyLen

/-- `font.go:124-129`, `Author`. -/
def author (f : Font) : Res Bytes := do
  let nameLen ← rd8 f.data 28
  let familyLen ← rd8 f.data (u8 (29 + nameLen))
  let authorLen ← rd8 f.data (u8 (30 + nameLen + familyLen))
  unsafeString f.data (u8 (31 + nameLen + familyLen)) authorLen

/-- `font.go:130-137`, `About`: `self.Data[aboutIndex : aboutIndex + 2]` with `uint8` bounds. -/
def about (f : Font) : Res Bytes := do
  let nameLen ← rd8 f.data 28
  let familyLen ← rd8 f.data (u8 (29 + nameLen))
  let authorLen ← rd8 f.data (u8 (30 + nameLen + familyLen))
  let aboutIndex := u8 (31 + nameLen + familyLen + authorLen)
  let s ← slice f.data aboutIndex (u8 (aboutIndex + 2))
  let aboutLen ← decodeUint16LE s
  unsafeString f.data (u8 (33 + nameLen + familyLen + authorLen)) aboutLen

/-- `font.go:139-153`, `FontHeader.Validate(FmtDefault)`. -/
def validateHeader (f : Font) : Res Unit := do
  let v ← f.formatVersion
  if v ≠ FontModel.formatVersion then .err "invalid FormatVersion" else
  let id ← f.id
  if lazyEntropyUint64 id < minEntropyID then .err "font ID entropy too low" else
  let name ← f.name
  if name = [] then .err "font name can't be empty" else
  return ()

/-! ## Metrics (`font.go:157-238`) -/

/-- `font.go:158-160`, `NumGlyphs` (also `FontGlyphs.Count`, lines 456-458). -/
def numGlyphs (f : Font) : Res Nat := rd16 f.data f.offMetrics
/-- `font.go:161-163`, `HasVertLayout` (also lines 451-453). -/
def hasVertLayout (f : Font) : Res Bool := do
  let b ← rd8 f.data (f.offMetrics + 2)
  return b == 1
/-- `font.go:165-167`. -/
def monoWidth (f : Font) : Res Nat := rd8 f.data (f.offMetrics + 3)
/-- `font.go:164`, `Monospaced`. -/
def monospaced (f : Font) : Res Bool := do
  let w ← f.monoWidth
  return w != 0
/-- `font.go:173-175`. -/
def ascent (f : Font) : Res Nat := rd8 f.data (f.offMetrics + 4)
/-- `font.go:176-178`. -/
def extraAscent (f : Font) : Res Nat := rd8 f.data (f.offMetrics + 5)
/-- `font.go:179-181`. -/
def descent (f : Font) : Res Nat := rd8 f.data (f.offMetrics + 6)
/-- `font.go:182-184`. -/
def extraDescent (f : Font) : Res Nat := rd8 f.data (f.offMetrics + 7)
/-- `font.go:185-187`. -/
def uppercaseAscent (f : Font) : Res Nat := rd8 f.data (f.offMetrics + 8)
/-- `font.go:188-190`. -/
def midlineAscent (f : Font) : Res Nat := rd8 f.data (f.offMetrics + 9)
/-- `font.go:191-193`. -/
def horzInterspacing (f : Font) : Res Nat := rd8 f.data (f.offMetrics + 10)
/-- `font.go:194-196`. -/
def vertInterspacing (f : Font) : Res Nat := rd8 f.data (f.offMetrics + 11)
/-- `font.go:197-199`. -/
def lineGap (f : Font) : Res Nat := rd8 f.data (f.offMetrics + 12)
/-- `font.go:207-209`. -/
def vertLineWidth (f : Font) : Res Nat := rd8 f.data (f.offMetrics + 13)
/-- `font.go:211-215`. -/
def vertLineGap (f : Font) : Res Nat := rd8 f.data (f.offMetrics + 14)
/-- `font.go:170-172`, `LineHeight` (an `int`). -/
def lineHeight (f : Font) : Res Nat := do
  let a ← f.ascent
  let d ← f.descent
  let g ← f.lineGap
  return a + d + g
/-- `font.go:201-203`, `VertLineFullWidth` (an `int`). -/
def vertLineFullWidth (f : Font) : Res Nat := do
  let w ← f.vertLineWidth
  let g ← f.vertLineGap
  return w + g

/-- `font.go:217-236`, `FontMetrics.Validate(FmtDefault)`. -/
def validateMetrics (f : Font) : Res Unit := do
  let n ← f.numGlyphs
  if n = 0 then .err "font must define at least one glyph" else
  let b ← idx f.data (f.offMetrics + 2)
  boolErrCheck b
  let a ← f.ascent
  if a = 0 then .err "Ascent can't be zero" else
  let e ← f.extraAscent
  if e > a then .err "ExtraAscent can't be bigger than Ascent" else
  let vi ← f.vertInterspacing
  let vl ← f.hasVertLayout
  if vi ≠ 0 ∧ vl = false then .err "VertInterspacing set without HasVertLayout" else
  return ()

/-! ## Color (`font.go:240-444`) -/

/-- `font.go:242-244`. -/
def numDyes (f : Font) : Res Nat := rd8 f.data f.offDyes
/-- `font.go:246-248`. -/
def numPalettes (f : Font) : Res Nat := rd8 f.data f.offPalettes

/-- `font.go:253-256`. -/
def numDyeIndices (f : Font) : Res Nat := do
  let n ← f.numDyes
  rd8 f.data (f.offDyes + n)
/-- `font.go:261-264`. -/
def numPaletteIndices (f : Font) : Res Nat := do
  let n ← f.numPalettes
  rd8 f.data (f.offPalettes + n)

/-- `font.go:266-274`, `FontColor.Count`. -/
def colorCount (f : Font) : Res Nat := do
  let d ← f.numDyeIndices
  let p ← f.numPaletteIndices
  let total := u8 (d + p)
  if total < d then .panic "invalid font data" else return total

/-- Loop of lines 284-294 and 332-342: names between consecutive `uint16` end offsets. -/
def eachNameLoop (data : Bytes) (names : Nat) : Nat → Nat → Nat → Res (List Bytes)
  | 0, _, _ => .ok []
  | n + 1, endPos, start => do
    let e ← rd16 data endPos
    if e ≤ start then .panic "invalid font data" else
    let name ← unsafeString data (names + start) (e - start)
    let rest ← eachNameLoop data names n (endPos + 2) e
    return name :: rest

/-- `font.go:277-295`, `EachDye`: the names passed to the callback, in order of key. -/
def eachDye (f : Font) : Res (List Bytes) := do
  let n ← f.numDyes
  let k ← f.numDyeIndices
  let ends := f.offDyes + 1 + n + k
  eachNameLoop f.data (ends + (n <<< 1)) n ends 0

/-- `font.go:325-343`, `EachPalette`. -/
def eachPalette (f : Font) : Res (List Bytes) := do
  let n ← f.numPalettes
  let k ← f.numPaletteIndices
  let ends := f.offPalettes + 1 + n + (k <<< 2)
  eachNameLoop f.data (ends + (n <<< 1)) n ends 0

/-- Lines 300-305, 314-319 and the palette versions (348-353, 362-367): first and last (exclusive) color index of the
section with the given key. -/
def sectionBounds (data : Bytes) (off key : Nat) : Res (Nat × Nat) := do
  let last ← rd8 data (off + 1 + key)
  let first ← (if key > 0 then rd8 data (off + key) else .ok 0)
  if first ≥ last then .panic "invalid font data" else return (first, last)

/-- `font.go:297-307`, `NumDyeAlphas`. -/
def numDyeAlphas (f : Font) (key : Nat) : Res Nat := do
  let n ← f.numDyes
  if key ≥ n then .panic "invalid dye key" else
  let (first, last) ← sectionBounds f.data f.offDyes key
  return last - first

/-- The loop of lines 320-322 (the `uint8` counter stays below `lastAlphaIndex`). -/
def readAlphas (data : Bytes) (base : Nat) : Nat → Nat → Res (List Nat)
  | 0, _ => .ok []
  | n + 1, i => do
    let a ← rd8 data (base + i)
    let rest ← readAlphas data base n (i + 1)
    return a :: rest

/-- `font.go:309-323`, `EachDyeAlpha`. -/
def eachDyeAlpha (f : Font) (key : Nat) : Res (List Nat) := do
  let n ← f.numDyes
  if key ≥ n then .panic "invalid dye key" else
  let (first, last) ← sectionBounds f.data f.offDyes key
  readAlphas f.data (f.offDyes + 1 + n) (last - first) first

/-- `font.go:345-355`, `NumPaletteColors`. -/
def numPaletteColors (f : Font) (key : Nat) : Res Nat := do
  let n ← f.numPalettes
  if key ≥ n then .panic "invalid palette key" else
  let (first, last) ← sectionBounds f.data f.offPalettes key
  return last - first

/-- The loop of lines 368-376: `(R, G, B, A)`. -/
def readColors (data : Bytes) (base : Nat) : Nat → Nat → Res (List (Nat × Nat × Nat × Nat))
  | 0, _ => .ok []
  | n + 1, i => do
    let o := base + (i <<< 2)
    let r ← rd8 data o
    let g ← rd8 data (o + 1)
    let b ← rd8 data (o + 2)
    let a ← rd8 data (o + 3)
    let rest ← readColors data base n (i + 1)
    return (r, g, b, a) :: rest

/-- `font.go:357-377`, `EachPaletteColor`. -/
def eachPaletteColor (f : Font) (key : Nat) : Res (List (Nat × Nat × Nat × Nat)) := do
  let n ← f.numPalettes
  if key ≥ n then .panic "invalid palette key" else
  let (first, last) ← sectionBounds f.data f.offPalettes key
  readColors f.data (f.offPalettes + 1 + n) (last - first) first

/-- `font.go:396-444`, `FontColor.Validate(FmtDefault)`. -/
def validateColor (f : Font) : Res Unit := do
  let d ← f.numDyes
  let p ← f.numPalettes
  if d + p > 255 then .err "NumDyes + NumPalettes can't exceed 255" else return ()

/-! ## Glyphs (`font.go:446-582`) -/

/-- `font.go:460-462`, `NamedCount`. -/
def namedCount (f : Font) : Res Nat := rd16 f.data f.offGlyphNames

/-- `font.go:569-581`, `FontGlyphs.Validate(FmtDefault)`. -/
def validateGlyphs (f : Font) : Res Unit := do
  let n ← f.namedCount
  let c ← f.numGlyphs
  if n > c then .err "can't have more named glyphs than glyphs" else return ()

/-- `font.go:487-495`, `getNthGlyphName`. -/
def nthGlyphName (f : Font) (nth numNamed : Nat) : Res Bytes := do
  let ends := f.offGlyphNames + 2 + (numNamed <<< 1)
  let endPos := ends + (nth <<< 1) + nth
  let e ← rd24 f.data endPos
  let names := ends + (numNamed <<< 1) + numNamed
  if nth = 0 then slice f.data names (names + e)
  else
    let p ← rd24 f.data (endPos - 3)
    slice f.data (names + p) (names + e)

/-- Loop of lines 498-501 of `bytesSmallerThanStr`: `none` when the loop ends. -/
def smallerLoop : Bytes → Bytes → Option Bool
  | [], _ => none
  | _ :: _, [] => some true
  | b :: bs, c :: cs => if b > c then some false else smallerLoop bs cs

/-- `font.go:497-504`, `bytesSmallerThanStr`. -/
def bytesSmallerThanStr (bytes str : Bytes) : Bool :=
  match smallerLoop bytes str with
  | some b => b
  | none => if bytes.length = str.length then false else true

/-- `font.go:506-512`, `bytesEqStr`. -/
def bytesEqStr (bytes str : Bytes) : Bool := bytes == str

/-- The binary search loop of `font.go:470-478`. -/
def nameSearch (f : Font) (name : Bytes) (numEntries : Nat) : (fuel lo hi : Nat) → Res Nat
  | 0, _, _ => .panic "out of fuel"
  | fuel + 1, lo, hi =>
    if lo < hi then do
      let mid := (lo + hi) >>> 1
      let value ← f.nthGlyphName mid numEntries
      if bytesSmallerThanStr value name then nameSearch f name numEntries fuel (mid + 1) hi
      else nameSearch f name numEntries fuel lo mid
    else .ok lo

/-- `font.go:465-485`, `FindIndexByName`. -/
def findIndexByName (f : Font) (name : Bytes) : Res Nat := do
  let n ← f.namedCount
  if n = 0 then return glyphMissing else
  let i ← f.nameSearch name n (n + 1) 0 (n - 1)
  if i ≥ n then return glyphMissing else
  let value ← f.nthGlyphName i n
  if bytesEqStr value name then rd16 f.data (f.offGlyphNames + 2 + (i <<< 1))
  else return glyphMissing

/-- `font.go:551-560`, `getGlyphDataOffsets`. -/
def glyphDataOffsets (f : Font) (glyph : Nat) : Res (Nat × Nat) := do
  let index := (glyph <<< 1) + glyph
  let e ← rd24 f.data (f.offGlyphMasks + index)
  if index = 0 then return (0, e) else
  let s ← rd24 f.data (f.offGlyphMasks + index - 3)
  if e ≤ s then .panic "invalid font data" else return (s, e)

/-- `font.go:562-567`, `getGlyphDataStartOffset`. -/
def glyphDataStart (f : Font) (glyph : Nat) : Res Nat :=
  if glyph = 0 then .ok 0 else
  let index := (glyph <<< 1) + glyph
  rd24 f.data (f.offGlyphMasks + index - 3)

/-- `font.go:514-522`, `RasterizeMask`, up to the call of `mask.Rasterize`: the raster operations. -/
def maskOps (f : Font) (glyph : Nat) : Res Bytes := do
  let (s, e) ← f.glyphDataOffsets glyph
  let vert ← f.hasVertLayout
  let s := if vert then s + 4 else s + 1
  let n ← f.numGlyphs
  let base := f.offGlyphMasks + (n <<< 1) + n
  slice f.data (base + s) (base + e)

/-- `font.go:524-531`, `Advance`. -/
def advance (f : Font) (glyph : Nat) : Res Nat := do
  let n ← f.numGlyphs
  if glyph ≥ n then .panic "glyphIndex out of range" else
  let s ← f.glyphDataStart glyph
  rd8 f.data (f.offGlyphMasks + (n <<< 1) + n + s)

/-- `glyph.go:34-41`. -/
structure Placement where
  advance : Nat
  topAdvance : Nat := 0
  bottomAdvance : Nat := 0
  horzCenter : Nat := 0
deriving DecidableEq, Repr

/-- `font.go:533-549`, `Placement`. -/
def placement (f : Font) (glyph : Nat) : Res Placement := do
  let n ← f.numGlyphs
  if glyph ≥ n then .panic "glyphIndex out of range" else
  let s ← f.glyphDataStart glyph
  let p := f.offGlyphMasks + (n <<< 1) + n + s
  let a ← rd8 f.data p
  let vert ← f.hasVertLayout
  if vert then
    let t ← rd8 f.data (p + 1)
    let b ← rd8 f.data (p + 2)
    let h ← rd8 f.data (p + 3)
    return ⟨a, t, b, h⟩
  else return ⟨a, 0, 0, 0⟩

/-! ## Settings (`font.go:584-691`) -/

/-- `font.go:594-596`. -/
def numWords (f : Font) : Res Nat := rd8 f.data f.offWords

/-- `font.go:598-614`, `GetWord`; `predef` is `GetPredefinedWord` (`words.go`). -/
def getWord (predef : Nat → Bytes) (f : Font) (index : Nat) : Res Bytes := do
  let n ← f.numWords
  if index < n then
    let endPos := f.offWords + 1 + (index <<< 1)
    let e ← rd16 f.data endPos
    let s ← (if index > 0 then rd16 f.data (endPos - 2) else .ok 0)
    if e ≤ s then .panic "invalid font data" else
    unsafeString f.data (f.offWords + 1 + (n <<< 1) + s) (e - s)
  else return predef index

/-- `font.go:616-618`, `FontSettings.Count`. -/
def numSettings (f : Font) : Res Nat := rd8 f.data f.offSettingNames

/-- Lines 624-633 and 641-649: start and end of the options of a setting, with the checks. -/
def settingBounds (f : Font) (key : Nat) : Res (Nat × Nat) := do
  let endPos := f.offSettingDefs + (key <<< 1)
  let e ← rd16 f.data endPos
  let s ← (if key > 0 then rd16 f.data (endPos - 2) else .ok 0)
  if e ≤ s then .panic "invalid font data" else
  if e - s > 255 then .panic "invalid font data" else return (s, e)

/-- `font.go:621-634`, `GetNumOptions`. -/
def getNumOptions (f : Font) (key : Nat) : Res Nat := do
  let n ← f.numSettings
  if key ≥ n then return 0 else
  let (s, e) ← f.settingBounds key
  return e - s

/-- `font.go:636-656`, `GetOptionName`. -/
def getOptionName (predef : Nat → Bytes) (f : Font) (key option : Nat) : Res Bytes := do
  let n ← f.numSettings
  if key ≥ n then .panic "invalid setting key" else
  let (s, e) ← f.settingBounds key
  if option ≥ e - s then .panic "invalid setting option (out of bounds)" else
  let v ← rd8 f.data (f.offSettingDefs + (n <<< 1) + s + option)
  f.getWord predef v

/-- Loop of `font.go:663-668`; `nameLen` is an `int` and may be negative, in which case
`unsafe.String` panics. -/
def eachSettingLoop (data : Bytes) (names : Nat) : Nat → Nat → Nat → Res (List Bytes)
  | 0, _, _ => .ok []
  | n + 1, endPos, start => do
    let e ← rd16 data endPos
    if e < start then .panic "unsafe.String: len out of range" else
    let name ← unsafeString data (names + start) (e - start)
    let rest ← eachSettingLoop data names n (endPos + 2) e
    return name :: rest

/-- `font.go:658-669`, `FontSettings.Each`: the names in order of key. -/
def eachSetting (f : Font) : Res (List Bytes) := do
  let n ← f.numSettings
  eachSettingLoop f.data (f.offSettingNames + 1 + n * 2) n (f.offSettingNames + 1) 0

/-! ## Mapping (`font.go:693-939`) -/

/-- `font.go:696-702`, `GlyphMappingGroup` (the font is passed separately). -/
structure Group where
  offset : Nat
  switchType : Nat
  caseBranch : Nat := 0
  direct : Bool := false
deriving DecidableEq, Repr

/-- `font.go:703-706`, `Size`. -/
def groupSize (f : Font) (g : Group) : Res Nat :=
  if g.direct then .ok 1 else do
    let b ← rd8 f.data g.offset
    return (b &&& 0b01111111) + 1

/-- `font.go:707-711`, `AnimationFlags`. -/
def groupAnimFlags (f : Font) (g : Group) : Res Nat :=
  if g.direct then .ok 0 else do
    let b ← rd8 f.data g.offset
    if b &&& 0b01111111 = 0 then return 0 else
    rd8 f.data (g.offset + 2)

/-- `font.go:717-738`, `Select`. -/
def groupSelect (f : Font) (g : Group) (choice : Nat) : Res Nat :=
  if g.direct then
    if choice ≠ 0 then .panic "choice outside valid range" else rd16 f.data g.offset
  else do
    let info ← rd8 f.data g.offset
    let size := (info &&& 0b01111111) + 1
    if choice ≥ size then .panic "choice outside valid range" else
    if size = 1 then rd16 f.data (g.offset + 1) else
    if info &&& 0b10000000 ≠ 0 then
      let base ← rd16 f.data (g.offset + 2)
      return u16 (base + choice)
    else rd16 f.data (g.offset + 2 + (choice <<< 2))

/-- `font.go:745-747`, `NumSwitchTypes`. -/
def numSwitchTypes (f : Font) : Res Nat := rd8 f.data f.offSwitches

/-- The loop of `font.go:765-771`, from the setting at `data + e` down to the one at `data + s`;
`n = e - s` iterations are left after this one. -/
def switchLoop (f : Font) (settings : List Nat) (data : Nat) : (n e : Nat) →
    (combinations result : Nat) → Res Nat
  | 0, e, c, r => do
    let k ← rd8 f.data (data + e)
    let v ← idx settings k
    return u8 (r + u8 (v * c))
  | n + 1, e, c, r => do
    let k ← rd8 f.data (data + e)
    let v ← idx settings k
    let o ← f.getNumOptions k
    switchLoop f settings data n (e - 1) (u8 (c * o)) (u8 (r + u8 (v * c)))

/-- `font.go:749-773`, `EvaluateSwitch`. -/
def evaluateSwitch (f : Font) (key : Nat) (settings : List Nat) : Res Nat := do
  let n ← f.numSwitchTypes
  if key ≥ n then .panic "invalid switch key" else
  let endPos := f.offSwitches + 1 + (key <<< 1)
  let e ← rd16 f.data endPos
  let s ← (if key > 0 then rd16 f.data (endPos - 2) else .ok 0)
  if e ≤ s then .panic "invalid font data" else
  f.switchLoop settings (f.offSwitches + 1 + (n <<< 1)) (e - 1 - s) (e - 1) 1 0

/-- `font.go:775-777`, `NumEntries`. -/
def numEntries (f : Font) : Res Nat := rd16 f.data f.offMapping

/-- The binary search loops of lines 785-793, 861-869, 1316-1324 and 1339-1347 over `uint32` keys;
`maxIndex` starts at `count - 1`, which is `-1` for an empty table: the loop does not run then. -/
def search32 (data : Bytes) (base target : Nat) : (fuel lo hi : Nat) → Res Nat
  | 0, _, _ => .panic "out of fuel"
  | fuel + 1, lo, hi =>
    if lo < hi then do
      let mid := (lo + hi) >>> 1
      let v ← rd32 data (base + (mid <<< 2))
      if v < target then search32 data base target fuel (mid + 1) hi
      else search32 data base target fuel lo mid
    else .ok lo

/-- The staircase loop of lines 835-848 and 906-919; `cases` is `targetSwitchCase`. The comparison
of lines 838 and 909 looks at `groupSize`, which is at most 128, and 128 is the size of a full group. -/
def staircase (data : Bytes) (base endOff : Nat) : (cases start : Nat) → Res Nat
  | 0, start => .ok start
  | n + 1, start => do
    let info ← rd8 data (base + start)
    let size := (info &&& 0b01111111) + 1
    let start := if size &&& 0b10000000 ≠ 0 then start + 3 else start + (1 + (size <<< 1))
    let start := if size > 1 then start + 1 else start
    if start ≥ endOff then .panic "invalid font data" else
    staircase data base endOff n start

/-- Lines 780-811 and 856-887: what is found in the table for a code point: switch type, start (past
the switch type), end, and the offset of the mapping data. `none` when there is no entry. -/
def findEntry (f : Font) (target : Nat) : Res (Option (Nat × Nat × Nat × Nat)) := do
  let n ← f.numEntries
  let base := f.offMapping + 2
  let i ← search32 f.data base target (n + 1) 0 (n - 1)
  if i ≥ n then return none else
  let v ← rd32 f.data (base + (i <<< 2))
  if v ≠ target then return none else
  let ends := base + (n <<< 2)
  let endPos := ends + i + (i <<< 1)
  let e ← rd24 f.data endPos
  let s ← (if i > 0 then rd24 f.data (endPos - 3) else .ok 0)
  if e ≤ s then .panic "invalid font data" else
  let maps := ends + n + (n <<< 1)
  let t ← rd8 f.data (maps + s)
  return some (t, s + 1, e, maps)

/-- `font.go:855-922`, `Utf8`, for a code point given as the `uint32` of line 857. -/
def utf8 (f : Font) (target : Nat) (settings : List Nat) : Res (Option Group) := do
  match ← f.findEntry target with
  | none => return none
  | some (t, s, e, maps) =>
    if t = 255 then return some { offset := maps + s, switchType := t, direct := true } else
    let c ← (if t ≠ 254 then f.evaluateSwitch t settings else .ok 0)
    let s ← staircase f.data maps e c s
    return some { offset := maps + s, switchType := t, caseBranch := c }

/-! ## Rewrites (`font.go:941-1298`) -/

/-- `font.go:945-947`. -/
def numConditions (f : Font) : Res Nat := rd8 f.data f.offConditions
/-- `font.go:949-951`. -/
def numGlyphRules (f : Font) : Res Nat := rd16 f.data f.offGlyphRules
/-- `font.go:953-955`. -/
def numUtf8Rules (f : Font) : Res Nat := rd16 f.data f.offUtf8Rules

/-- Common part of `GetGlyphRule` (lines 1139-1154) and `GetUtf8Rule` (lines 1180-1195): the block of
bytes of the rule at `index`; `off` is the offset of the rules section. -/
def getRule (f : Font) (off index : Nat) : Res Bytes := do
  let n ← rd16 f.data off
  if index ≥ n then .panic "invalid rule index" else
  let endPos := off + 2 + ((index <<< 1) + index)
  let e ← rd24 f.data endPos
  let s ← (if index > 0 then rd24 f.data (endPos - 3) else .ok 0)
  let base := off + 2 + ((n <<< 1) + n)
  slice f.data (base + s) (base + e)

/-- `font.go:1139-1154`. -/
def getGlyphRule (f : Font) (index : Nat) : Res Bytes := f.getRule f.offGlyphRules index
/-- `font.go:1180-1195`. -/
def getUtf8Rule (f : Font) (index : Nat) : Res Bytes := f.getRule f.offUtf8Rules index

/-- Common part of `GetGlyphSet` (lines 1225-1240) and `GetUtf8Set` (lines 1269-1284). -/
def getSet (f : Font) (off set : Nat) : Res Bytes := do
  let n ← rd8 f.data off
  if set ≥ n then .panic "invalid set" else
  let e ← rd16 f.data (off + 1 + (set <<< 1))
  let base := off + 1 + (n <<< 1)
  if set = 0 then slice f.data base (base + e) else
  let s ← rd16 f.data (off + 1 + ((set - 1) <<< 1))
  if s ≥ e then .panic "invalid font data" else
  slice f.data (base + s) (base + e)

/-- `font.go:1225-1240`. -/
def getGlyphSet (f : Font) (set : Nat) : Res Bytes := f.getSet f.offGlyphSets set
/-- `font.go:1269-1284`. -/
def getUtf8Set (f : Font) (set : Nat) : Res Bytes := f.getSet f.offUtf8Sets set

/-! ## Kerning (`font.go:1300-1370`) -/

/-- `font.go:1303-1305`. -/
def numPairs (f : Font) : Res Nat := rd24 f.data f.offHorzKern
/-- `font.go:1307-1309`. -/
def numVertPairs (f : Font) : Res Nat := rd24 f.data f.offVertKern

/-- `int8(b)`. -/
def int8 (b : Nat) : Int := if b < 128 then b else (b : Int) - 256

/-- `font.go:1311-1332` (`Get`) and `1334-1355` (`GetVert`); `off` is the offset of the table. -/
def kernAt (f : Font) (off prev curr : Nat) : Res Int := do
  let target := (prev <<< 16) ||| curr
  let n ← rd24 f.data off
  let base := off + 3
  let i ← search32 f.data base target (n + 1) 0 (n - 1)
  if i ≥ n then return 0 else
  let v ← rd32 f.data (base + (i <<< 2))
  if v ≠ target then return 0 else
  let b ← rd8 f.data (off + 3 + (n <<< 2) + i)
  return int8 b

/-- `font.go:1311-1332`, `Get`. -/
def kernGet (f : Font) (prev curr : Nat) : Res Int := f.kernAt f.offHorzKern prev curr
/-- `font.go:1334-1355`, `GetVert`. -/
def kernGetVert (f : Font) (prev curr : Nat) : Res Int := f.kernAt f.offVertKern prev curr

end Font
end FontModel
