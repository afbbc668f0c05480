import Verif.Model.ParseBuf

/-!
# Model of `parse.go`, `Parse`

One definition per section. `font` carries the offsets assigned so far; its `data` field is filled
at the end (`font.Data` lives in the parsing buffer while parsing, see `Prog.sync` and `Prog.query`).
`parser.NewError` only adds a prefix to messages, which is left out.
-/

namespace ParseModel
open Go ParseBuf FontModel
open ParseBuf.Prog

/-- Run a function of a font on the current `font.Data`. -/
def onFont {β : Type} (font : Font) (v : Font → Res β) : Prog β :=
  .query (fun data => v { font with data := data }) .ret

/-- `uint32(parser.Index)`. -/
def here : Prog Nat := .index fun i => .ret (u32 i)

/-- `font.Data = parser.Bytes`. -/
def syncData : Prog Unit := .sync .ret

/-- `parse.go:69-82`, header. -/
def parseHeader (font : Font) : Prog Font := do
  advanceBytes 28
  let _ ← readShortStr
  let _ ← readShortStr
  let _ ← readShortStr
  let _ ← readString
  syncData
  onFont font Font.validateHeader
  return font

/-- `parse.go:84-92`, metrics. -/
def parseMetrics (font : Font) : Prog Font := do
  let o ← here
  let font := { font with offMetrics := o }
  advanceBytes 15
  syncData
  onFont font Font.validateMetrics
  return font

/-- `parse.go:101-121`, the body of `if numDyes > 0`; returns `usedColorIndices`. -/
def parseDyes (numDyes : Nat) : Prog Nat := do
  advanceBytes (numDyes - 1)
  let lastIndex ← readUint8
  if lastIndex < numDyes then .fail "invalid dye end index" else
  advanceBytes lastIndex
  advanceBytes ((numDyes - 1) * 2)
  let lastName ← readUint16
  if lastName < numDyes then .fail "invalid dye name offset" else
  advanceBytes lastName
  return lastIndex

/-- `parse.go:129-151`, the body of `if numPalettes > 0`. -/
def parsePalettes (numPalettes used : Nat) : Prog Unit := do
  advanceBytes (numPalettes - 1)
  let lastIndex ← readUint8
  if used + lastIndex > 255 then .fail "dyes and palettes exceeding 255 color indices" else
  if lastIndex < numPalettes then .fail "invalid palette end index" else
  advanceBytes (lastIndex * 4)
  advanceBytes ((numPalettes - 1) * 2)
  let lastName ← readUint16
  if lastName < numPalettes then .fail "invalid palette name offset" else
  advanceBytes lastName

/-- `parse.go:94-156`, color sections. -/
def parseColor (font : Font) : Prog Font := do
  let o ← here
  let font := { font with offDyes := o }
  let numDyes ← readUint8
  let used ← (if numDyes > 0 then parseDyes numDyes else .ret 0)
  let o ← here
  let font := { font with offPalettes := o }
  let numPalettes ← readUint8
  if numPalettes > 0 then parsePalettes numPalettes used
  syncData
  onFont font Font.validateColor
  return font

/-- `parse.go:169-185`, the body of `if numNamedGlyphs > 0`. -/
def parseGlyphNames (numNamed numGlyphs : Nat) : Prog Unit := do
  if numNamed > numGlyphs then .fail "NumNamedGlyphs can't exceed NumGlyphs" else
  advanceBytes (numNamed * 2)
  advanceBytes ((numNamed - 1) * 3)
  let namesLen ← readUint24
  if namesLen > numNamed * 32 then
    .fail "GlyphNameEndOffsets declares GlyphNames to end beyond allowed" else
  advanceBytes namesLen

/-- `parse.go:158-208`, glyphs; also returns the number of glyphs. -/
def parseGlyphs (font : Font) : Prog (Font × Nat) := do
  let o ← here
  let font := { font with offGlyphNames := o }
  let numNamed ← readUint16
  let numGlyphs ← onFont font Font.numGlyphs
  let hasVertLayout ← onFont font Font.hasVertLayout
  if numNamed > 0 then parseGlyphNames numNamed numGlyphs
  let o ← here
  let font := { font with offGlyphMasks := o }
  -- line 190; `numGlyphs - 1` is a `uint16`
  advanceBytes (sub16 numGlyphs 1 * 3)
  let masksLen ← readUint24
  let placementSize := if hasVertLayout then 4 else 1
  if masksLen < placementSize * numGlyphs then
    .fail "GlyphMaskEndOffsets declares GlyphMasks to end before allowed" else
  if masksLen > (placementSize + 255) * numGlyphs then
    .fail "GlyphMaskEndOffsets declares GlyphMasks to end beyond allowed" else
  advanceBytes masksLen
  syncData
  onFont font Font.validateGlyphs
  return (font, numGlyphs)

/-- `parse.go:216-230`, the body of `if numWords > 0`. -/
def parseWords (numWords : Nat) : Prog Unit := do
  advanceBytes ((numWords - 1) * 2)
  let wordsLen ← readUint16
  if wordsLen < numWords then .fail "WordEndOffsets declares Words to end before allowed" else
  if wordsLen > numWords * 32 then .fail "WordEndOffsets declares Words to end beyond allowed" else
  advanceBytes wordsLen

/-- `parse.go:238-262`, the body of `if numSettings > 0`; returns the offset of the definitions. -/
def parseSettingDefs (numSettings : Nat) : Prog Nat := do
  advanceBytes ((numSettings - 1) * 2)
  let namesLen ← readUint16
  if namesLen < numSettings then
    .fail "SettingNameEndOffsets declares SettingNames to end before allowed" else
  if namesLen > numSettings * 32 then
    .fail "SettingNameEndOffsets declares SettingNames to end beyond allowed" else
  advanceBytes namesLen
  let o ← here
  advanceBytes ((numSettings - 1) * 2)
  let settingsLen ← readUint16
  if settingsLen < numSettings then
    .fail "SettingEndOffsets declares Settings to end before allowed" else
  advanceBytes settingsLen
  return o

/-- `parse.go:210-267`, settings (`Validate` accepts everything); also returns the number of settings. -/
def parseSettings (font : Font) : Prog (Font × Nat) := do
  let o ← here
  let font := { font with offWords := o }
  let numWords ← readUint8
  if numWords > 0 then parseWords numWords
  let o ← here
  let font := { font with offSettingNames := o, offSettingDefs := u32 (o + 1) }
  let numSettings ← readUint8
  let defs ← (if numSettings > 0 then parseSettingDefs numSettings else .ret font.offSettingDefs)
  let font := { font with offSettingDefs := defs }
  syncData
  return (font, numSettings)

/-- `parse.go:280-294`, the body of `if numMappingSwitches > 0`. -/
def parseSwitches (numSwitches numSettings : Nat) : Prog Unit := do
  advanceBytes ((numSwitches - 1) * 2)
  let len ← readUint16
  if len < numSwitches then
    .fail "MappingSwitchEndOffsets declares MappingSwitches to end before allowed" else
  if len > numSwitches * numSettings then
    .fail "MappingSwitchEndOffsets declares MappingSwitches to end beyond allowed" else
  advanceBytes len

/-- `parse.go:302-316`, the body of `if numMappingEntries > 0`. -/
def parseEntries (numEntries : Nat) : Prog Unit := do
  advanceBytes (numEntries * 4)
  advanceBytes ((numEntries - 1) * 3)
  let len ← readUint24
  if len < numEntries * 3 then .fail "MappingEndOffsets declares Mappings to end before allowed" else
  advanceBytes len

/-- `parse.go:269-321`, mappings (`Validate` accepts everything). -/
def parseMapping (font : Font) (numSettings : Nat) : Prog Font := do
  let o ← here
  let font := { font with offSwitches := o }
  let numSwitches ← readUint8
  if numSwitches > 253 then .fail "NumMappingSwitches can't exceed 254" else
  if numSwitches > 0 then parseSwitches numSwitches numSettings
  let o ← here
  let font := { font with offMapping := o }
  let numEntries ← readUint16
  if numEntries > 0 then parseEntries numEntries
  syncData
  return font

/-- `parse.go:329-340`, `347-358` and `365-376`: the bodies of `if numConditions > 0`,
`if numUtf8Sets > 0` and `if numGlyphSets > 0`; `least` is the smallest length allowed. -/
def parseBlocks16 (n least : Nat) : Prog Unit := do
  advanceBytes ((n - 1) * 2)
  let len ← readUint16
  if len < least then .fail "end offsets declare data to end before allowed" else
  advanceBytes len

/-- `parse.go:383-396` and `403-416`: the bodies of `if numUtf8Rules > 0` and
`if numGlyphRules > 0`. The error of `ReadUint24` is not looked at (lines 386 and 406). -/
def parseRules (n most : Nat) : Prog Unit := do
  advanceBytes ((n - 1) * 3)
  let len ← readUint24IgnoringError
  if len < n * 8 then .fail "end offsets declare rules to end before allowed" else
  if len > n * most then .fail "end offsets declare rules to end beyond allowed" else
  advanceBytes len

/-- `parse.go:323-421`, rewrite rules (`Validate` accepts everything). -/
def parseRewrites (font : Font) : Prog Font := do
  let o ← here
  let font := { font with offConditions := o }
  let n ← readUint8
  if n > 0 then parseBlocks16 n (n * 2)
  let o ← here
  let font := { font with offUtf8Sets := o }
  let n ← readUint8
  if n > 0 then parseBlocks16 n (1 + n * 5)
  let o ← here
  let font := { font with offGlyphSets := o }
  let n ← readUint8
  if n > 0 then parseBlocks16 n (1 + n * 3)
  let o ← here
  let font := { font with offUtf8Rules := o }
  let n ← readUint16
  if n > 0 then parseRules n (6 + 255 * 4)
  let o ← here
  let font := { font with offGlyphRules := o }
  let n ← readUint16
  if n > 0 then parseRules n 514
  syncData
  return font

/-- `parse.go:428-437` and `440-449`: one kerning table. The error of `ReadUint24` is not looked at.
`uint32(numGlyphs)*uint32(numGlyphs)` (line 426) does not overflow. -/
def parseKernTable (numGlyphs : Nat) : Prog Unit := do
  let n ← readUint24IgnoringError
  if n > 0 then
    if n > numGlyphs * numGlyphs then .fail "NumKerningPairs can't exceed NumGlyphs^2" else
    advanceBytes (n * 5)

/-- `parse.go:423-453`, kerning (`Validate` accepts everything). -/
def parseKerning (font : Font) (numGlyphs : Nat) : Prog Font := do
  let o ← here
  let font := { font with offHorzKern := o }
  parseKernTable numGlyphs
  let o ← here
  let font := { font with offVertKern := o }
  parseKernTable numGlyphs
  syncData
  return font

/-- `parse.go:69-421`: everything up to the kerning section. -/
def parseUpToKerning : Prog (Font × Nat) := do
  let font ← parseHeader { data := [] }
  let font ← parseMetrics font
  let font ← parseColor font
  let (font, numGlyphs) ← parseGlyphs font
  let (font, numSettings) ← parseSettings font
  let font ← parseMapping font numSettings
  let font ← parseRewrites font
  return (font, numGlyphs)

/-- `parse.go:69-453`: everything between the signature and the check for the end of the file. -/
def parseBody : Prog Font := do
  let (font, numGlyphs) ← parseUpToKerning
  parseKerning font numGlyphs

/-- `parse.go:69-463` on the decompressed stream. -/
def parseStream (junk : Nat → UInt8) (r : Reader) : Res Font := do
  let (font, s) ← parseBody.exec junk (PBuf.init r)
  let (e, _) ← ensureEOF junk s
  match e with
  | some m => .err m
  | none => return { font with data := s.data }

/-- `parse.go:46-464`, `Parse`. `sig` is the result of the first `Read` (at most 6 bytes, line 55);
`gz` is what `gzip.NewReader` makes of the rest of the file. -/
def parse (junk : Nat → UInt8) (sig : Ev) (gz : Res Reader) : Res Font :=
  if sig.status ≠ .nil ∨ sig.bytes.length ≠ 6 then .err "failed to read file signature"
  else if sig.bytes ≠ [116, 103, 103, 102, 110, 116] then .err "invalid signature"
  else do
    let r ← gz
    parseStream junk r

end ParseModel
