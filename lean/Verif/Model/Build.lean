import Verif.Model.Builder

/-!
# Model of `Build` (`builder/font_builder.go:179-671`) and of the `AppendTo` functions

Every section of the font data is a function that returns the bytes that `Build` appends for it;
`build` puts them together and records the offsets.

Simplifications. Sections that reserve space for end offsets and write them back while the blocks are
appended are modelled by computing the blocks first and the end offsets from their lengths.
`slices.Sort` on numbers is insertion sort (the result of sorting is the same). So is the sort by name of lines 302-308: the sort is not
stable, but equal names end in an error whatever their order. Orders of iteration over Go maps are
parameters where the result depends on them (`Env`). Offsets are `uint32` in Go; they are written
without wrap-around (the data is refused when it exceeds 32 MiB). The state that `Build` leaves when
it fails is not modelled (only the main dye can have been added).
-/

namespace BuilderModel
open Go Helpers

/-- What `Build` depends on besides the state of the builder: the order of the fragments of the mask
encoder (`sort` with ties), the orders in which the `words` map is iterated (in each pass of
`organizeWords`, when writing the end offsets, when writing the words), and the table of predefined
words (`words.go`). -/
structure Env where
  fragOrder : List Mask.Frag → List Mask.Frag
  organizeOrder : Nat → List Bytes → List Bytes
  wordEndsOrder : List Bytes → List Bytes
  wordsOrder : List Bytes → List Bytes
  predef : Nat → Bytes

/-- A loop that ends at the first error or panic. -/
def mapRes {α β : Type} (f : α → Res β) : List α → Res (List β)
  | [] => .ok []
  | a :: as => do
    let b ← f a
    let bs ← mapRes f as
    return b :: bs

/-- Insertion in a sorted list. -/
def insertBy {α : Type} (le : α → α → Bool) (a : α) : List α → List α
  | [] => [a]
  | b :: l => if le a b then a :: b :: l else b :: insertBy le a l

/-- Sorting. -/
def isort {α : Type} (le : α → α → Bool) : List α → List α
  | [] => []
  | a :: l => insertBy le a (isort le l)

/-- Order of numbers. -/
def natLe (a b : Nat) : Bool := decide (a ≤ b)

/-- Loops that append a running `uint8` sum (lines 251-255, 268-272), with the check
`clrIndex > 255`. -/
def ends8 : (off : Nat) → List Nat → Res Bytes
  | _, [] => .ok []
  | off, n :: ns =>
    if off + n > 255 then .panic "invalid internal state" else do
      let rest ← ends8 (off + n) ns
      return byte (off + n) :: rest

/-- Loops that append a running `uint16` sum. -/
def ends16 : (off : Nat) → List Nat → Bytes
  | _, [] => []
  | off, n :: ns => appendUint16LE [] (u16 (off + n)) ++ ends16 (u16 (off + n)) ns

/-- Loops that append or write back a running sum as `uint24` (the higher bits are dropped). -/
def ends24 : (off : Nat) → List Nat → Bytes
  | _, [] => []
  | off, n :: ns => appendUint24LE [] (off + n) ++ ends24 (off + n) ns

namespace Builder

/-- Lines 199-202, `tempGlyphIndexLookup`. -/
def lookupLoop : List Nat → (index : Nat) → GoMap Nat Nat → GoMap Nat Nat
  | [], _, m => m
  | u :: us, i, m => lookupLoop us (i + 1) (m.set u (u16 i))

/-- `tempGlyphIndexLookup[uid]`. -/
def glyphIndex (b : Builder) (uid : Nat) : Option Nat := (lookupLoop b.glyphOrder 0 []).get uid

/-- `glyphIndex, found := glyphLookup[uid]; if !found { panic }`. -/
def glyphIndexP (b : Builder) (uid : Nat) : Res Nat :=
  match b.glyphIndex uid with
  | some i => .ok i
  | none => .panic "invalid internal state"

/-- `glyphIndex, found := glyphLookup[uid]; if !found { return err }`. -/
def glyphIndexE (b : Builder) (uid : Nat) : Res Nat :=
  match b.glyphIndex uid with
  | some i => .ok i
  | none => .err "undefined glyph"

/-! ## Header and metrics (lines 204-237) -/

/-- Lines 205-207, `appendDateTo`. -/
def dateBytes (d : DateModel.Date) : Bytes :=
  appendUint16LE [] d.year ++ [byte d.month, byte d.day]

/-- Lines 208-218. -/
def headerSection (b : Builder) : Res Bytes := do
  let data := appendUint32LE [] FontModel.formatVersion
  let data := appendUint64LE data b.fontID.toNat
  let data := appendUint16LE data b.versionMajor.toNat
  let data := appendUint16LE data b.versionMinor.toNat
  let data := data ++ dateBytes b.firstVersionDate
  let data := data ++ dateBytes b.majorVersionDate
  let data := data ++ dateBytes b.minorVersionDate
  let data ← appendShortString data b.fontName
  let data ← appendShortString data b.fontFamily
  let data ← appendShortString data b.fontAuthor
  appendString data b.fontAbout

/-- Lines 224-237. -/
def metricsSection (b : Builder) : Bytes :=
  appendUint16LE [] b.glyphData.length ++
    [boolToUint8 b.hasVertLayout, b.monoWidth, b.ascent, b.extraAscent, b.descent, b.extraDescent,
     b.uppercaseAscent, b.midlineAscent, b.horzInterspacing, b.vertInterspacing, b.lineGap,
     b.vertLineWidth, b.vertLineGap]

/-! ## Colors (lines 239-284) -/

/-- Lines 249-262. -/
def dyesSection (b : Builder) : Res Bytes := do
  let ends ← ends8 0 (b.dyes.map fun d => d.alphas.length)
  return [byte b.dyes.length] ++ ends ++ (b.dyes.map fun d => d.alphas).flatten ++
    ends16 0 (b.dyes.map fun d => d.name.length) ++ (b.dyes.map fun d => d.name).flatten

/-- The bytes of a color (line 275). -/
def rgbaBytes (c : RGBA) : Bytes := [c.r, c.g, c.b, c.a]

/-- Lines 266-284. -/
def palettesSection (b : Builder) : Res Bytes := do
  let ends ← ends8 0 (b.palettes.map fun p => p.colors.length)
  return [byte b.palettes.length] ++ ends ++
    (b.palettes.map fun p => (p.colors.map rgbaBytes).flatten).flatten ++
    ends16 0 (b.palettes.map fun p => p.name.length) ++ (b.palettes.map fun p => p.name).flatten

/-! ## Glyphs (lines 286-354) -/

/-- `self.glyphData[uid]` with the panic of line 291. -/
def glyph (b : Builder) (uid : Nat) : Res GlyphData :=
  match b.glyphData.get uid with
  | some g => .ok g
  | none => .panic "invalid internal state"

/-- Lines 289-296: the named glyphs in order. -/
def namedLoop (b : Builder) : List Nat → Res (List (Nat × Bytes))
  | [] => .ok []
  | u :: us => do
    let g ← b.glyph u
    let rest ← namedLoop b us
    return if g.name ≠ [] then (u, g.name) :: rest else rest

/-- The loop of lines 318-325: equal to the name before? -/
def checkDuplicates : (prevName : Bytes) → List Bytes → Res Unit
  | _, [] => .ok ()
  | prev, n :: ns => if n = prev then .err "duplicated glyph name" else checkDuplicates n ns

/-- Comparison of strings. -/
def nameLe (a b : Nat × Bytes) : Bool := decide (a.2 ≤ b.2)

/-- Lines 299-326. -/
def glyphNamesSection (b : Builder) : Res Bytes := do
  let named ← b.namedLoop b.glyphOrder
  if named = [] then return appendUint16LE [] 0 else
  let sorted := isort nameLe named
  let ids := sorted.map fun e => appendUint16LE [] ((b.glyphIndex e.1).getD 0)
  let names := sorted.map (·.2)
  checkDuplicates [] names
  return appendUint16LE [] named.length ++ ids.flatten ++ ends24 0 (names.map List.length) ++
    names.flatten

/-- Lines 340-344: placement. -/
def placementBytes (b : Builder) (p : Placement) : Bytes :=
  if b.hasVertLayout then [p.advance, p.topAdvance, p.bottomAdvance, p.horzCenter] else [p.advance]

/-- Lines 336-348: the data of one glyph. The encoder only appends to its buffer. -/
def glyphBlock (env : Env) (b : Builder) (uid : Nat) : Res Bytes := do
  let g ← b.glyph uid
  Mask.appendRasterOps env.fragOrder (b.placementBytes g.placement) g.mask

/-- Lines 332-354. -/
def glyphMasksSection (env : Env) (b : Builder) : Res Bytes := do
  let blocks ← mapRes (b.glyphBlock env) b.glyphOrder
  return ends24 0 (blocks.map List.length) ++ blocks.flatten

/-! ## Settings (lines 356-424 and `font_builder_settings.go:13-77`) -/

/-- `font_builder_settings.go:13-20`, `AppendWords`, for all settings. -/
def appendWords : List Bytes → GoMap Bytes Int → GoMap Bytes Int
  | [], words => words
  | o :: os, words =>
    appendWords os (match words.get o with
      | some _ => words
      | none => words.set o 0)

/-- Lines 364-366. -/
def builtinLoop (predef : Nat → Bytes) : (n i : Nat) → GoMap Bytes Int → GoMap Bytes Int
  | 0, _, m => m
  | n + 1, i, m => builtinLoop predef n (i + 1) (m.set (predef i) i)

/-- The map from predefined words to their indices. -/
def builtinWords (predef : Nat → Bytes) : GoMap Bytes Int := builtinLoop predef 256 0 []

/-- First loop of `organizeWords` (lines 27-39); the indices are small, so that nothing wraps. -/
def organizeLoop (builtin : GoMap Bytes Int) : List Bytes → (words : GoMap Bytes Int) →
    (custom minBuiltin : Nat) → GoMap Bytes Int × Nat × Nat
  | [], words, custom, minB => (words, custom, minB)
  | w :: ws, words, custom, minB =>
    match builtin.get w with
    | some i => organizeLoop builtin ws (words.set w (-i)) custom (min i.toNat minB)
    | none => organizeLoop builtin ws (words.set w custom) (custom + 1) minB

/-- Body of the second loop (lines 45-54): one pass over the map. -/
def reindexLoop (target : Int) : List Bytes → (words : GoMap Bytes Int) → (custom minBuiltin : Nat) →
    GoMap Bytes Int × Nat × Nat
  | [], words, custom, minB => (words, custom, minB)
  | w :: ws, words, custom, minB =>
    match words.get w with
    | none => reindexLoop target ws words custom minB
    | some i =>
      if i = target then reindexLoop target ws (words.set w custom) (custom + 1) minB
      else if i < 0 then reindexLoop target ws words custom (min (-i).toNat minB)
      else reindexLoop target ws words custom minB

/-- Second loop (lines 42-55). Every pass gives a new index to a builtin word, so that the number of
words (and one more, for the builtin word with index 0) bounds the number of passes. -/
def resolveLoop (order : Nat → List Bytes → List Bytes) : (fuel pass : Nat) →
    (words : GoMap Bytes Int) → (custom minBuiltin : Nat) → Res (GoMap Bytes Int)
  | 0, _, words, custom, minB => if minB < custom then .panic "out of fuel" else .ok words
  | fuel + 1, pass, words, custom, minB =>
    if minB < custom then
      let (words, custom, minB) := reindexLoop (-minB) (order pass words.keys) words custom 65535
      resolveLoop order fuel (pass + 1) words custom minB
    else .ok words

/-- `font_builder_settings.go:22-66`, `organizeWords`. -/
def organizeWords (order : Nat → List Bytes → List Bytes) (builtin words : GoMap Bytes Int) :
    Res (GoMap Bytes Int) := do
  if words.length > 255 then .err "setting options require too many words" else
  let (words, custom, minB) := organizeLoop builtin (order 0 words.keys) words 0 65535
  let words ← resolveLoop order (words.length + 1) 1 words custom minB
  return words.filter fun e => !decide (e.2 < 0)

/-- Lines 357-369: the words that are stored, with their indices, and the builtin words. -/
def settingWords (env : Env) (b : Builder) : Res (GoMap Bytes Int × GoMap Bytes Int) := do
  let words := appendWords (b.settings.map (·.options)).flatten []
  if words = [] then return ([], []) else
  let builtin := builtinWords env.predef
  let words ← organizeWords env.organizeOrder builtin words
  return (words, builtin)

/-- Lines 376-378: `wordsList[index] = word`, of which only the panic matters. -/
def checkWordsList (n : Nat) : GoMap Bytes Int → Res Unit
  | [] => .ok ()
  | (_, i) :: rest =>
    if i < 0 ∨ i ≥ n then .panic "index out of range" else checkWordsList n rest

/-- Lines 370-392. -/
def wordsSection (env : Env) (words : GoMap Bytes Int) : Res Bytes := do
  if words.length > 255 then .panic "invalid internal state" else
  if words = [] then return [0] else
  checkWordsList words.length words
  return [byte words.length] ++ ends16 0 ((env.wordEndsOrder words.keys).map List.length) ++
    (env.wordsOrder words.keys).flatten

/-- Lines 394-410. -/
def settingNamesSection (b : Builder) : Res Bytes :=
  if b.settings.length > 255 then .panic "invalid internal state"
  else .ok ([byte b.settings.length] ++ ends16 0 (b.settings.map fun s => s.name.length) ++
    (b.settings.map fun s => s.name).flatten)

/-- One step of `font_builder_settings.go:68-79`, `settingEntry.AppendTo`. -/
def optionByte (builtin words : GoMap Bytes Int) (opt : Bytes) : Res UInt8 := do
  let i ← (match words.get opt with
    | some i => Res.ok i
    | none =>
      match builtin.get opt with
      | some i => .ok i
      | none => .panic "invalid internal state")
  if i > 255 then .panic "invalid internal state" else
  return byte (i % 256).toNat

/-- Lines 414-423. -/
def settingDefsSection (b : Builder) (builtin words : GoMap Bytes Int) : Res Bytes := do
  let blocks ← mapRes (fun s : Setting => mapRes (optionByte builtin words) s.options) b.settings
  return ends16 0 (b.settings.map fun s => s.options.length) ++ blocks.flatten

/-! ## Mapping (lines 426-490 and `font_builder_mapping.go:48-117`) -/

/-- The panic of line 435. -/
def checkSwitchSizes (numSettings : Nat) : List (List Nat) → Res Unit
  | [] => .ok ()
  | s :: ss =>
    if s.length > numSettings then .panic "invalid internal state"
    else checkSwitchSizes numSettings ss

/-- Lines 427-444. -/
def switchesSection (b : Builder) : Res Bytes := do
  if b.switches.length > 255 then .panic "invalid internal state" else
  checkSwitchSizes (b.settings.length % 256) b.switches
  return [byte b.switches.length] ++ ends16 0 (b.switches.map List.length) ++
    (b.switches.map fun s => s.map byte).flatten

/-- `builder/helpers.go:35-43`, `isContinuousSlice` on `uint16` values. -/
def isContinuous : List Nat → Bool
  | [] => true
  | [_] => true
  | a :: b :: rest => (b == u16 (a + 1)) && isContinuous (b :: rest)

/-- `font_builder_mapping.go:83-117`, `mappingGroup.AppendTo`: the bytes appended. -/
def groupBytes (b : Builder) (g : MapGroup) : Res Bytes := do
  if g.glyphs.length = 0 ∨ g.glyphs.length > 128 then .panic "invalid internal state" else
  let indices ← mapRes b.glyphIndexP g.glyphs
  match indices with
  | [i] => return [0] ++ appendUint16LE [] i
  | _ =>
    let sorted := isort natLe indices
    if isContinuous sorted then
      return [byte (0b10000000 ||| (g.glyphs.length - 1)), g.animFlags] ++
        appendUint16LE [] (sorted.headD 0)
    else
      return [byte (g.glyphs.length - 1), g.animFlags] ++ (sorted.map (appendUint16LE [])).flatten

/-- The loop of `font_builder_mapping.go:68-74`; `len` is the length of the data so far. -/
def casesBytes (b : Builder) : (len : Nat) → List MapGroup → Res Bytes
  | _, [] => .ok []
  | len, g :: gs => do
    let bytes ← b.groupBytes g
    if len + bytes.length > FontModel.maxFontDataSize then .err "font data exceeds maximum size" else
    let rest ← casesBytes b (len + bytes.length) gs
    return bytes ++ rest

/-- `font_builder_mapping.go:48-76`, `mappingEntry.AppendTo`: the bytes appended to `len` bytes. -/
def entryBytes (b : Builder) (len : Nat) (e : MapEntry) : Res Bytes :=
  if e.switchType = 255 then
    match e.cases with
    | [g] =>
      match g.glyphs with
      | [u] => do
        let i ← b.glyphIndexP u
        return [byte e.switchType] ++ appendUint16LE [] i
      | _ => .panic "invalid internal state"
    | _ => .panic "invalid internal state"
  else if e.switchType = 254 then
    match e.cases with
    | [g] =>
      if g.glyphs.length ≤ 1 then .panic "invalid internal state" else do
        let bytes ← b.groupBytes g
        return [byte e.switchType] ++ bytes
    | _ => .panic "invalid internal state"
  else do
    let bytes ← b.casesBytes (len + 1) e.cases
    return [byte e.switchType] ++ bytes

/-- The loop of lines 472-489; `len` is the length of the data so far. -/
def entriesLoop (b : Builder) : (len : Nat) → List Int → Res (List Bytes)
  | _, [] => .ok []
  | len, c :: cs =>
    match b.runeMapping.get c with
    | none => .panic "nil pointer"
    | some e => do
      let n ← b.computeNumSwitchCases e.switchType
      if n ≠ e.cases.length then .panic "invalid internal state" else
      let bytes ← b.entryBytes len e
      let rest ← entriesLoop b (len + bytes.length) cs
      return bytes :: rest

/-- Lines 447-490; `len` is the length of the data before the section. -/
def mappingSection (b : Builder) (len : Nat) : Res Bytes := do
  let n := b.runeMapping.length
  if n > FontModel.maxGlyphs then .panic "invalid internal state" else
  if b.runeMapping.keys.any (· < 0) then .panic "invalid internal state" else
  let sorted := isort (fun x y => decide (x ≤ y)) b.runeMapping.keys
  let blocks ← b.entriesLoop (len + 2 + 7 * n) sorted
  return appendUint16LE [] n ++ (sorted.map fun c => appendUint32LE [] c.toNat).flatten ++
    ends24 0 (blocks.map List.length) ++ blocks.flatten

/-! ## Rewrites (lines 492-599) -/

/-- The check of lines 501-504. -/
def checkConditions : (off : Nat) → List Nat → Res Unit
  | _, [] => .ok ()
  | off, n :: ns =>
    if u16 (off + n) < off then .err "rewrite rule conditions contain too much data"
    else checkConditions (u16 (off + n)) ns

/-- Lines 493-513. -/
def conditionsSection (b : Builder) : Res Bytes := do
  if b.conditions.length > 254 then .panic "invalid internal state" else
  checkConditions 0 (b.conditions.map List.length)
  return [byte b.conditions.length] ++ ends16 0 (b.conditions.map List.length) ++
    b.conditions.flatten

/-- Lines 516-522. -/
def utf8SetsSection (b : Builder) : Res Bytes :=
  if b.runeSets.length > 0 then .panic "rune sets encoding unimplemented" else .ok [0]

/-- `font_builder_rewrite_sets.go:19-21`, `GetSize`. -/
def setSize (s : GlyphSet) : Nat := 2 + (s.ranges.length <<< 1) + s.ranges.length + (s.list.length <<< 1)

/-- One step of the loop of `font_builder_rewrite_sets.go:29-48`. -/
def rangeBytes (b : Builder) (r : Nat × Nat) : Res Bytes := do
  let i ← b.glyphIndexE r.1
  if r.1 = r.2 then return appendUint16LE [] i ++ [0] else
  let j ← b.glyphIndexE r.2
  if j < i then .err "rewrite glyph set range start and end points are reversed" else
  if j - i > 255 then .err "rewrite glyph set range can't exceed length 255" else
  return appendUint16LE [] i ++ [byte (j - i)]

/-- `font_builder_rewrite_sets.go:23-59`, `reGlyphSet.AppendTo`. -/
def setBytes (b : Builder) (s : GlyphSet) : Res Bytes := do
  if s.ranges.length ≥ 255 then .panic "invalid internal state" else
  if s.list.length ≥ 255 then .panic "invalid internal state" else
  let ranges ← mapRes b.rangeBytes s.ranges
  let list ← mapRes (fun u => do
    let i ← b.glyphIndexE u
    return appendUint16LE [] i) s.list
  return [byte s.ranges.length] ++ ranges.flatten ++ [byte s.list.length] ++ list.flatten

/-- The loop of lines 534-543. -/
def checkSets (b : Builder) : (off : Nat) → List Nat → Res Unit
  | _, [] => .ok ()
  | off, u :: us =>
    match b.glyphSets.get u with
    | none => .panic "invalid internal state"
    | some s =>
      if off + setSize s > 65535 then .err "rewrite glyph sets contain too much data"
      else checkSets b (off + setSize s) us

/-- The sets in order (defined when `checkSets` succeeds). -/
def setsInOrder (b : Builder) : List GlyphSet :=
  b.glyphSetsOrder.filterMap fun u => b.glyphSets.get u

/-- Lines 524-551. -/
def glyphSetsSection (b : Builder) : Res Bytes := do
  if b.glyphSets.length > 255 then .panic "invalid internal state" else
  if b.glyphSets.length ≠ b.glyphSetsOrder.length then .panic "invalid internal state" else
  b.checkSets 0 b.glyphSetsOrder
  let blocks ← mapRes b.setBytes b.setsInOrder
  return [byte b.glyphSets.length] ++ ends16 0 (b.setsInOrder.map setSize) ++ blocks.flatten

/-- Line 535, `glyphSetsMap`. -/
def setIndex (b : Builder) (uid : Nat) : Option Nat := (lookupLoop b.glyphSetsOrder 0 []).get uid

/-- `appendAccumulatedInBlock` (`font_builder_rewrite_rules.go:96-110` and `199-211`). -/
def fragmentBytes (group : Nat → Res UInt8) (elem : Nat → Res Bytes) (groups elems : List Nat) :
    Res Bytes := do
  let gs ← mapRes group groups
  let es ← mapRes elem elems
  return [byte (u8 (groups.length <<< 4) ||| u8 elems.length)] ++ gs ++ es.flatten

/-- State of the loops of `AppendTo`. -/
structure RuleState where
  data : Bytes
  inIndex : Nat := 0
  groupsIndex : Nat := 0
  listIndex : Nat := 0
  accGroups : Nat := 0
  accElems : Nat := 0
deriving DecidableEq, Repr

/-- Lines 54-60 (and the same in 66-72, 81-87): append the fragment and reset. -/
def flushFragment (group : Nat → Res UInt8) (elem : Nat → Res Bytes) (r : Rule) (s : RuleState) :
    Res RuleState := do
  let groups ← slice r.inGroups s.groupsIndex (s.groupsIndex + s.accGroups)
  let elems ← slice r.inElems s.listIndex (s.listIndex + s.accElems)
  let bytes ← fragmentBytes group elem groups elems
  return { s with data := s.data ++ bytes, groupsIndex := s.groupsIndex + s.accGroups,
                  listIndex := s.listIndex + s.accElems, accGroups := 0, accElems := 0 }

/-- The loop of lines 49-77 over the elements of a block. -/
def blockLoop (group : Nat → Res UInt8) (elem : Nat → Res Bytes) (r : Rule) :
    (n : Nat) → RuleState → (hasFragment : Bool) → Res (RuleState × Bool)
  | 0, s, has => .ok (s, has)
  | n + 1, s, has => do
    let isGroup ← r.isGroup.get s.inIndex
    let flush := if isGroup then decide (s.accElems ≠ 0 ∨ s.accGroups = 15)
      else decide (s.accElems = 15)
    let s ← (if flush then flushFragment group elem r s else .ok s)
    let s := if isGroup then { s with accGroups := s.accGroups + 1 }
      else { s with accElems := s.accElems + 1 }
    blockLoop group elem r n { s with inIndex := s.inIndex + 1 } (has || flush)

/-- Lines 46-90: one block. -/
def blockBytes (group : Nat → Res UInt8) (elem : Nat → Res Bytes) (r : Rule) (n : Nat)
    (s : RuleState) : Res RuleState := do
  let (s, has) ← blockLoop group elem r n s false
  if s.accGroups > 0 ∨ s.accElems > 0 then flushFragment group elem r s
  else if !has then return { s with data := s.data ++ [0] }
  else return s

/-- `font_builder_rewrite_rules.go:20-94` and `125-197`, `AppendTo`: the bytes of the rule; `elem`
encodes a glyph or a code point, `group` looks up a set. -/
def ruleBytes (group : Nat → Res UInt8) (elem : Nat → Res Bytes) (r : Rule) : Res Bytes := do
  if r.output.length > 255 then .panic "invalid internal state" else
  if r.bodyLen = 0 then .panic "invalid internal state" else
  if r.inElems.length + r.inGroups.length ≠ r.headLen + r.bodyLen + r.tailLen then
    .panic "invalid internal state" else
  let out ← mapRes elem r.output
  let head := [byte r.condition, byte r.headLen, byte r.bodyLen, byte r.tailLen,
    byte r.output.length]
  let s ← blockBytes group elem r r.headLen { data := head ++ out.flatten }
  let s ← blockBytes group elem r r.bodyLen s
  let s ← blockBytes group elem r r.tailLen s
  return s.data

/-- A glyph in a rule: two bytes. -/
def glyphElem (b : Builder) (uid : Nat) : Res Bytes := do
  let i ← b.glyphIndexE uid
  return appendUint16LE [] i

/-- A code point in a rule: four bytes. -/
def runeElem (c : Nat) : Res Bytes := .ok (appendUint32LE [] c)

/-- A set in a glyph rule. -/
def groupRef (b : Builder) (uid : Nat) : Res UInt8 :=
  match b.setIndex uid with
  | some i => .ok (byte i)
  | none => .err "rewrite rule input sequence is using an undefined group"

/-- A set in a utf8 rule: `runeSetsMap` is empty. -/
def noGroup (_ : Nat) : Res UInt8 := .err "rewrite rule input sequence is using an undefined group"

/-- The loops of lines 564-574 and 588-598: blocks, with the check on the running offset. -/
def rulesLoop (rule : Rule → Res Bytes) : (off : Nat) → List Rule → Res (List Bytes)
  | _, [] => .ok []
  | off, r :: rs => do
    let bytes ← rule r
    if off + bytes.length > 16777215 then
      .err "rewrite rules exceed maximum allowed size of 16MiB" else
    let rest ← rulesLoop rule (off + bytes.length) rs
    return bytes :: rest

/-- Lines 554-575 and 578-599. -/
def rulesSection (rule : Rule → Res Bytes) (rules : List Rule) : Res Bytes := do
  if rules.length > 65535 then .panic "invalid internal state" else
  let blocks ← rulesLoop rule 0 rules
  return appendUint16LE [] rules.length ++ ends24 0 (blocks.map List.length) ++ blocks.flatten

/-! ## Kerning (lines 601-663) -/

/-- Lines 608-612: the pair of glyph indices as a number. -/
def pairKey (b : Builder) (key : Nat × Nat) : Res Nat := do
  let i ← b.glyphIndexP key.1
  let j ← b.glyphIndexP key.2
  return (i <<< 16) ||| j

/-- Lines 623-632: the value stored for a pair; `pairs` is the table that is looked at. -/
def pairValue (b : Builder) (pairs : GoMap (Nat × Nat) KernPair) (pair : Nat) : Res UInt8 := do
  let u ← idx b.glyphOrder (u16 (pair >>> 16))
  let v ← idx b.glyphOrder (u16 pair)
  match pairs.get (u, v) with
  | none => .panic "invalid internal state"
  | some info =>
    if info.cls = 0 then return byte (info.value % 256).toNat
    else do
      let v ← idx b.kernClasses (info.cls - 1)
      return byte (v % 256).toNat

/-- Lines 605-633 and 636-663 (`prevPair` is never assigned in the loops: the check of lines 618 and
649 fires for a pair `(0, 0)` that is not the first). `pairs` gives the keys, `values` is the table in
which the values are looked up. -/
def kernSection (b : Builder) (pairs values : GoMap (Nat × Nat) KernPair) : Res Bytes := do
  let keys ← mapRes b.pairKey pairs.keys
  let sorted := isort natLe keys
  if sorted.tail.any (· == 0) then .panic "invalid internal state" else
  let bytes ← mapRes (b.pairValue values) sorted
  return appendUint24LE [] pairs.length ++ (sorted.map (appendUint32LE [])).flatten ++ bytes

/-- `font_builder.go:179-671`, `Build`. -/
def build (env : Env) (b : Builder) : Res (Builder × FontModel.Font) := do
  if b.glyphData.length > FontModel.maxGlyphs then .panic "invalid internal state" else
  if b.glyphData.length ≠ b.glyphOrder.length then .panic "invalid internal state" else
  if b.glyphData.length = 0 then .err "can't build font with no glyphs" else
  let header ← b.headerSection
  b.metricsStatus
  if b.dyes.length + b.palettes.length > 255 then .panic "invalid internal state" else
  let b ← (if b.dyes.length + b.palettes.length = 0 then b.addDye (ascii "main") [255] else .ok b)
  let offMetrics := header.length
  let data := header ++ b.metricsSection
  let offDyes := data.length
  let dyes ← b.dyesSection
  let data := data ++ dyes
  let offPalettes := data.length
  let palettes ← b.palettesSection
  let data := data ++ palettes
  let offGlyphNames := data.length
  let glyphNames ← b.glyphNamesSection
  let data := data ++ glyphNames
  let offGlyphMasks := data.length
  let glyphMasks ← b.glyphMasksSection env
  let data := data ++ glyphMasks
  let offWords := data.length
  let (words, builtin) ← b.settingWords env
  let wordBytes ← wordsSection env words
  let data := data ++ wordBytes
  let offSettingNames := data.length
  let settingNames ← b.settingNamesSection
  let data := data ++ settingNames
  let offSettingDefs := data.length
  let settingDefs ← b.settingDefsSection builtin words
  let data := data ++ settingDefs
  let offSwitches := data.length
  let switches ← b.switchesSection
  let data := data ++ switches
  let offMapping := data.length
  let mapping ← b.mappingSection data.length
  let data := data ++ mapping
  let offConditions := data.length
  let conditions ← b.conditionsSection
  let data := data ++ conditions
  let offUtf8Sets := data.length
  let utf8Sets ← b.utf8SetsSection
  let data := data ++ utf8Sets
  let offGlyphSets := data.length
  let glyphSets ← b.glyphSetsSection
  let data := data ++ glyphSets
  let offUtf8Rules := data.length
  let utf8Rules ← rulesSection (ruleBytes noGroup runeElem) b.utf8Rules
  let data := data ++ utf8Rules
  let offGlyphRules := data.length
  let glyphRules ← rulesSection (ruleBytes b.groupRef b.glyphElem) b.glyphRules
  let data := data ++ glyphRules
  if b.horzKern.length > 16777215 then .panic "invalid internal state" else
  if b.vertKern.length > 16777215 then .panic "invalid internal state" else
  let offHorzKern := data.length
  let horzKern ← b.kernSection b.horzKern b.horzKern
  let data := data ++ horzKern
  let offVertKern := data.length
  let vertKern ← b.kernSection b.vertKern b.horzKern
  let data := data ++ vertKern
  if data.length > FontModel.maxFontDataSize then .err "font data exceeds maximum size" else
  return (b, ⟨data, offMetrics, offDyes, offPalettes, offGlyphNames, offGlyphMasks, offWords,
    offSettingNames, offSettingDefs, offSwitches, offMapping, offConditions, offUtf8Sets,
    offGlyphSets, offUtf8Rules, offGlyphRules, offHorzKern, offVertKern⟩)

end Builder
end BuilderModel
