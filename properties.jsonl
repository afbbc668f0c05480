{"id": "C01", "title": "Little-endian integer and string fields round-trip", "statement": "Writing an unsigned integer with AppendUint16/24/32/64LE (or overwriting a field in place with EncodeUint16/24/32LE) and reading it back with the matching Decode function at the same offset yields the same value, for every value that fits the width (24-bit writes keep the low 24 bits), and changes no other byte of the buffer. Length-prefixed strings (AppendShortString, AppendString) store exactly the length followed by the bytes.", "quantifier": "every value of each integer width, every buffer prefix/suffix and every offset", "why_tests_cant": "The value spaces are 2^16..2^64 and the buffer is unbounded; a test can only sample them.", "anchors": ["internal/helpers.go: DecodeUint16LE, DecodeUint24LE, DecodeUint32LE, AppendUint16LE, AppendUint24LE, AppendUint32LE, AppendUint64LE, EncodeUint16LE, EncodeUint24LE, AppendShortString, AppendString"]}
{"id": "C02", "title": "BoolList behaves as a list of booleans", "statement": "After any history of pushes, sets, set-all-true and set-all-false, reading index i of the list returns the last value written at i, the reported size is the number of elements, and out-of-range reads/writes panic instead of touching a neighbour.", "quantifier": "every finite history of operations and every index", "why_tests_cant": "Bit packing errors only show for particular indices, sizes and interleavings of operations; the history space is infinite.", "anchors": ["internal/helpers.go: BoolList, NewBoolList, Push, Get, Set, SetU8, GetU8, SetAllTrue, SetAllFalse"]}
{"id": "C03", "title": "Ordered insertion and search keep a sorted set", "statement": "Inserting into a sorted duplicate-free slice keeps it sorted and duplicate-free, its members become exactly the old members plus the new one, and searching returns the position of an element exactly when it is a member (and otherwise the position where it would be inserted).", "quantifier": "every sorted slice of every length and every element", "why_tests_cant": "Off-by-one mistakes in a binary search depend on the slice length, the position and the value; there are infinitely many combinations.", "anchors": ["internal/helpers.go: BadBinarySearch, BasicOrderedNonRepeatInsert, DeleteElementAt"]}
{"id": "C04", "title": "The circular buffer is a FIFO queue with lookahead", "statement": "For every history of Push, PopHead, PopTail, Head, Tail, PeekAhead, DiscardPeeks, ConfirmPeeks and Clear on a buffer of any capacity, the buffer shows exactly the contents of an ideal bounded deque: elements come out in insertion order, peeks return the successive elements after the head, Push fails only when the deque is full, and no element is lost, duplicated or reordered.", "quantifier": "every capacity and every finite history of operations", "why_tests_cant": "Wrap-around errors appear only for particular head/size/capacity combinations reached by particular histories.", "anchors": ["internal/circular_buffer.go: CircularBufferU16 and all its methods"]}
{"id": "C05", "title": "Resizing the circular buffer keeps its contents", "statement": "SetCapacity to any capacity that can hold the current elements keeps exactly the same elements in the same order, and the buffer remains fully usable afterwards: the capacity is the new one and every later operation behaves as on a fresh queue with these contents.", "quantifier": "every reachable buffer state (any wrap-around position) and every new capacity", "why_tests_cant": "The copy cases depend on where the head is and how the elements wrap; only exhaustive reasoning covers all positions and sizes.", "anchors": ["internal/circular_buffer.go: SetCapacity, Push, Head, PopHead"]}
{"id": "C06", "title": "The shared instance pool never hands out one instance twice", "statement": "With any number of goroutines retrieving and releasing under any interleaving (each holder releasing what it got at most once), no two goroutines ever hold the same instance at the same time, releasing never panics, and once everything is released the shared instance is available again.", "quantifier": "every number of goroutines and every interleaving of their atomic steps", "why_tests_cant": "Concurrency schedules cannot be enumerated by running; a data race may never show in a test run.", "anchors": ["internal/single_instance_pool.go: SingleInstancePool.Retrieve, Release"]}
{"id": "C07", "title": "Name validation accepts exactly the specified names", "statement": "ValidateBasicName accepts a name if and only if it matches the documented grammar: 1 to 32 characters, an ASCII letter first, then ASCII letters, digits and single hyphens, with no leading, trailing or doubled hyphen.", "quantifier": "every byte string", "why_tests_cant": "The set of strings is infinite and the accepted language must be compared with a grammar, not with samples.", "anchors": ["internal/parsing_buffer.go: ValidateBasicName, ValidateBasicSpacedName", "specification.md: basic-name-regexp"]}
{"id": "C08", "title": "Date validation is exactly the Gregorian calendar", "statement": "Checking a font date never panics and returns true exactly for: no date at all, a year only, a year and month, or a real day of the proleptic Gregorian calendar (leap years included); encoding the date in the header and reading it back yields the same date.", "quantifier": "every (month, day, year) triple of the 8+8+16 bit fields", "why_tests_cant": "2^32 triples; the failing ones are a small family that sampling can miss.", "anchors": ["date.go: Date.IsValid, monthDays, isLeapYear, IsComplete, HasMonthDay", "font.go: FontHeader.FirstVersionDate, MajorVersionDate, MinorVersionDate"]}
{"id": "C09", "title": "Rasterizing arbitrary bytes is safe", "statement": "Rasterizing any byte string terminates and never panics; it returns an error, an empty mask or a mask; when it succeeds every pixel that a draw command touches lies inside the returned bounds, bounds are the smallest rectangle containing them, and an error is returned exactly when the data is not a sequence of complete well-formed commands.", "quantifier": "every byte string", "why_tests_cant": "Malformed glyph data is adversarial; the set of inputs is infinite and the bounds of the first pass must agree with the second pass on all of them.", "anchors": ["mask/rasterize.go: Rasterize, computeRasterOpsRect, rasterizeInto", "mask/compute_rect.go"]}
{"id": "C10", "title": "Glyph masks survive encoding and rasterizing", "statement": "For every alpha mask whose encoding does not hit the documented size limits, rasterizing the bytes produced by the mask encoder gives back a mask with the same alpha value at every pixel and zero elsewhere, whatever order the unstable fragment sort produces.", "quantifier": "every mask (rectangle and pixel values) and every order of equal fragments", "why_tests_cant": "The space of images is infinite and the encoder uses a multi-pass greedy decomposition whose output order depends on an unstable sort.", "anchors": ["mask/encoder.go: Encoder.AppendRasterOps", "mask/encoder_helper_funcs.go", "mask/raster_fragment.go", "mask/rasterize.go: Rasterize"]}
{"id": "C11", "title": "ComputeRect is the tight bounding box", "statement": "ComputeRect returns the smallest rectangle containing every non-transparent pixel of a mask (the empty rectangle when there is none), so no visible pixel is ever cut.", "quantifier": "every mask", "why_tests_cant": "It is a statement about all pixel configurations and all rectangle origins.", "anchors": ["mask/compute_rect.go: ComputeRect"]}
{"id": "C12", "title": "Parsing does not depend on how the reader splits the data", "statement": "Every primitive read of the parsing buffer, and every parser written with them, gives the same value, the same consumed length and the same success or failure for every way the underlying reader may split the same bytes into partial reads.", "quantifier": "every byte stream, every split into read chunks (including up to two consecutive empty reads), every parser", "why_tests_cant": "A test fixes one reader; the schedules of short reads are unbounded.", "anchors": ["internal/parsing_buffer.go: ParsingBuffer.FillBuffer, readMore, AdvanceBytes, ReadUint8, ReadUint16, ReadUint24, ReadUint32, ReadUint64, ReadShortStr, ReadString"]}
{"id": "C13", "title": "Parse rejects trailing data and truncated files", "statement": "A font file with extra bytes after its last section, or cut short at any point, is rejected with an error.", "quantifier": "every byte stream and every truncation point / suffix", "why_tests_cant": "There are as many cut points as bytes and infinitely many suffixes.", "anchors": ["parse.go: Parse", "internal/parsing_buffer.go: EnsureEOF, readMore", "internal/parsing_buffer.go: ReadUint24"]}
{"id": "C14", "title": "Parse never panics", "statement": "Parsing any byte stream, however malformed and however it is split into reads, terminates and returns either a font or an error; it never panics and never reads outside the data.", "quantifier": "every byte stream and read schedule", "why_tests_cant": "Adversarial input space is infinite.", "anchors": ["parse.go: Parse", "internal/parsing_buffer.go"]}
{"id": "C15", "title": "Section offsets of a parsed font are ordered and inside the data", "statement": "For every accepted font the section offsets are strictly ordered in the documented order and inside the data, and each section has at least the length that its own counts declare, so glyph-name, placement, mask, color, settings, mapping and rewrite accessors indexed below their counts stay inside the data.", "quantifier": "every accepted byte stream and every in-range index", "why_tests_cant": "It is a statement about all accepted files.", "anchors": ["parse.go: Parse", "internal/font.go", "font.go: FontGlyphs, FontColor, FontSettings, FontMapping, FontRewrites"]}
{"id": "C16", "title": "Header accessors return the encoded fields", "statement": "Name, family, author and about text, identifier, versions, dates and format version read from a font are the ones stored in its header, for all lengths the format allows.", "quantifier": "all header field values, including every combination of string lengths up to their limits", "why_tests_cant": "The offset arithmetic depends on the sum of three variable lengths; failures only appear beyond an arithmetic boundary.", "anchors": ["font.go: FontHeader.Name, Family, Author, About, ID, VersionMajor, VersionMinor", "builder/font_builder.go: Build, SetName, SetFamily, SetAuthor, SetAbout"]}
{"id": "C17", "title": "Metrics and dates survive build and parse", "statement": "Every metric (ascent, extra ascent, descent, extra descent, line gap, interspacing, monospacing, ascents for upper/lower case, vertical layout) set on a builder with valid values is returned unchanged by the built font.", "quantifier": "all metric values allowed by the builder", "why_tests_cant": "The byte layout has many adjacent small fields; all value combinations must be covered.", "anchors": ["builder/font_builder.go: Build, GetMetricsStatus", "builder/font_builder_props.go", "font.go: FontMetrics"]}
{"id": "C18", "title": "Fonts produced by the builder are accepted by Parse", "statement": "If Build succeeds, exporting the font and parsing it back succeeds and yields a font with the same sections.", "quantifier": "every builder state reachable with the public API", "why_tests_cant": "The builder and the parser enforce limits independently; the states where they disagree are corner cases of an infinite state space.", "anchors": ["builder/font_builder.go: Build", "parse.go: Parse", "font.go: Export"]}
{"id": "C19", "title": "Glyph lookup by name is sound and complete", "statement": "Looking up a glyph by name returns the index of the glyph that has that name when there is one, and the missing-glyph value otherwise.", "quantifier": "every table of sorted glyph names and every name", "why_tests_cant": "It depends on the comparison function being a strict order consistent with the table, for all strings.", "anchors": ["font.go: FontGlyphs.FindIndexByName, bytesSmallerThanStr", "builder/font_builder.go: Build (glyph names)"]}
{"id": "C20", "title": "Kerning pairs read back exactly", "statement": "For every builder kerning table, the built font returns for each pair of glyphs the kerning that was set, and zero for every pair that was not set.", "quantifier": "every history of kerning updates and every pair of glyphs", "why_tests_cant": "The table is sorted and binary-searched; correctness for all tables and all pairs needs an invariant.", "anchors": ["builder/font_builder.go: SetKerningPair, Build", "font.go: FontKerning.Get, GetVert, NumPairs, NumVertPairs"]}
{"id": "C21", "title": "Code point lookup finds exactly the mapped code points", "statement": "Looking up a code point in a font's mapping table reports found exactly for the code points that were mapped and leads to that code point's own mapping entry.", "quantifier": "every mapping table and every code point", "why_tests_cant": "Binary search over all table sizes and all 2^32 code points.", "anchors": ["font.go: FontMapping.Utf8, Utf8WithCache", "builder/font_builder.go: Build (mapping)", "builder/font_builder_mapping.go"]}
{"id": "C22", "title": "Mapping group selection returns the group's glyphs", "statement": "Selecting choice i of a mapping group returns the i-th glyph of that group, both for groups stored as ranges and as lists, and the group size and animation flags are the stored ones.", "quantifier": "every encoded group and every choice below its size", "why_tests_cant": "The address arithmetic must be right for all group sizes, offsets and both representations.", "anchors": ["font.go: MappingGroup.Size, Select, AnimationFlags", "builder/font_builder_mapping.go: mappingGroup.AppendTo"]}
{"id": "C23", "title": "Mapping switches are a bijection between setting combinations and cases", "statement": "Evaluating a mapping switch over the current settings gives the mixed-radix index of the settings' values; different combinations give different cases, and every case below the number of cases is reached.", "quantifier": "every switch definition with at most 255 cases and every assignment of settings", "why_tests_cant": "Number of combinations is the product of arbitrary option counts.", "anchors": ["font.go: FontMapping.EvaluateSwitch, NumSwitchTypes", "builder/font_builder_mapping.go: AddSwitch, numCases"]}
{"id": "C24", "title": "Switch-dependent mappings select the group of the evaluated case", "statement": "For a code point mapped with a switch, the group that is returned is the group defined for the case that the switch evaluates to.", "quantifier": "every list of case groups (singles, lists and ranges) and every case", "why_tests_cant": "The walk over variable length groups must be correct for every mix of group kinds.", "anchors": ["font.go: FontMapping.Utf8, Utf8WithCache (staircase)", "builder/font_builder_mapping.go: mappingEntry.AppendTo, MapWithSwitch, MapWithSwitchSingles"]}
{"id": "C25", "title": "The mapping cache is transparent", "statement": "With drops requested after every settings change, a lookup through the mapping cache returns the same mapping group as a direct lookup, for every history of lookups, settings changes, drops and resets, whatever the cache size.", "quantifier": "every history of operations, every cache size, every font mapping", "why_tests_cant": "Stale entries only show for particular histories of evictions and settings changes.", "anchors": ["mapping_cache.go: MappingCache.Get, Drop, Reset, updateMRU", "settings_cache.go"]}
{"id": "C26", "title": "The mapping cache evicts the least recently used entry", "statement": "When the cache is full a miss evicts the code point that was used least recently, and every code point among the last N distinct ones used is a hit.", "quantifier": "every history of lookups and every cache size", "why_tests_cant": "Recency depends on the whole history.", "anchors": ["mapping_cache.go: NewMappingCache, Get, updateMRU"]}
{"id": "C27", "title": "The settings cache never returns stale values", "statement": "Cached switch cases and conditions are only ever reported as cached when they were stored after the last settings change, and then the reported value is the last one stored; settings themselves read back as last written.", "quantifier": "every history of Set, CacheMappingCase, CacheRewriteCondition and reads", "why_tests_cant": "Invalidation bugs depend on the interleaving of writes and reads.", "anchors": ["settings_cache.go: SettingsCache.Set, Get, GetMappingCase, CacheMappingCase, GetRewriteCondition, CacheRewriteCondition, UnsafeSlice"]}
{"id": "C28", "title": "Rewrite conditions evaluate to their boolean meaning", "statement": "Evaluating an encoded rewrite condition under any settings returns the truth value of the encoded boolean expression (comparisons combined with and/or/not groups), without panicking.", "quantifier": "every well-formed condition expression and every settings assignment", "why_tests_cant": "Expressions are an inductive (unbounded) family and short-circuit evaluation must skip exactly the unevaluated terms.", "anchors": ["font.go: FontRewrites.EvaluateCondition, evalConditionSubexpr, skipConditionSubexpr", "specification.md: conditions"]}
{"id": "C29", "title": "Rewrite rule accessors return the encoded rule", "statement": "For every encoded glyph or utf8 rewrite rule: condition, head/body/tail/output lengths are the encoded ones, and iterating its output visits exactly the encoded output elements in order.", "quantifier": "every encoded rule", "why_tests_cant": "Iteration bounds must be right for all output lengths.", "anchors": ["font.go: GlyphRewriteRule.EachOut, HeadLen, BodyLen, TailLen, OutLen, InLen", "font.go: Utf8RewriteRule.EachOut"]}
{"id": "C30", "title": "Rewrite set accessors return the encoded set", "statement": "Iterating the ranges and the list elements of an encoded glyph set or utf8 set visits exactly the encoded ranges and elements, in order.", "quantifier": "every encoded set", "why_tests_cant": "Offsets depend on counts; all counts must be covered.", "anchors": ["font.go: GlyphRewriteSet.EachRange, EachListGlyph", "font.go: Utf8RewriteSet.EachRange, EachListRune", "builder/font_builder_rewrite_sets.go: AppendTo"]}
{"id": "C31", "title": "Encoded rewrite rules scan back to the same elements", "statement": "Scanning the encoding that the builder produces for a rule yields exactly the head, body and tail elements (glyphs, runes or sets) in order, with their block, and then ends; malformed rules yield an error and never a panic.", "quantifier": "every rule with at most 255 input elements; every byte string for the safety part", "why_tests_cant": "Fragments group elements in runs of at most 15; all run structures must be covered.", "anchors": ["builder/font_builder_rewrite_rules.go: AppendTo and fragment encoding", "internal/rerules/glyphrule/rule_scanner.go: RuleScanner", "internal/rerules/utf8rule/rule_scanner.go"]}
{"id": "C32", "title": "The compiled decision tree recognises exactly the rules", "statement": "After compiling any collection of rules, running the tree over any input reports a rule exactly when one of the rules matches a prefix of the input: it reports the rule with the longest match (the first added among equal inputs).", "quantifier": "every collection of rules and every input sequence", "why_tests_cant": "The compiler copies, shares and frees automaton states; correctness is a statement about all rule collections.", "anchors": ["internal/rerules/glyphrule/decision_tree_compiler.go", "internal/rerules/glyphrule/decision_tree_state.go", "internal/rerules/glyphrule/decision_tree.go"]}
{"id": "C33", "title": "Rules with overlapping sets compile", "statement": "Rules whose sets overlap partially compile without panicking and each rule matches its own inputs.", "quantifier": "every pair of ranges in every relative position", "why_tests_cant": "Relative positions of ranges form a case split that tests only sampled with singletons.", "anchors": ["internal/rerules/glyphrule/decision_tree_state.go: AppendRange, confrontRanges, splitTransitionAt, splitTransitionBy"]}
{"id": "C34", "title": "A rule is only applied when its condition holds", "statement": "A rewrite rule with a condition is never applied while its condition evaluates to false for the current settings.", "quantifier": "every rule set, settings assignment and input", "why_tests_cant": "Depends on the settings, rule set and input.", "anchors": ["internal/rerules/glyphrule/tester.go: treesGetBestMatch, treesFeed, RefreshConditions", "internal/rerules/glyphrule/tester_tree_instance.go"]}
{"id": "C35", "title": "Streaming rewriting equals greedy batch rewriting", "statement": "Feeding a sequence element by element and finishing it produces exactly the output of the batch specification: scan left to right, at each position replace the best matching rule's body, otherwise emit the element unchanged; it does not depend on what is still to come beyond the lookahead and nothing is lost or duplicated.", "quantifier": "every compiled rule set (without tails), every input sequence", "why_tests_cant": "The streaming algorithm re-runs detection over a ring buffer; equality with the batch semantics is needed for all inputs.", "anchors": ["internal/rerules/glyphrule/tester.go: BeginSequence, Feed, Break, FinishSequence, rerunDetection, rewrite, popOldest", "rerules/glyph_tester.go"]}
{"id": "C36", "title": "Sequences are independent", "statement": "After a sequence has been finished (or the rules were replaced), a new sequence behaves as on a fresh tester: the output does not depend on previously processed sequences.", "quantifier": "every rule set and every pair of successive sequences", "why_tests_cant": "Left-over state only matters for particular endings of the previous sequence.", "anchors": ["internal/rerules/glyphrule/tester.go: FinishSequence, Break, BeginSequence, RemoveAllRules"]}
{"id": "C37", "title": "A failed rule compilation leaves everything usable", "statement": "If adding or compiling a malformed rule returns an error, the tester and all other testers remain usable: correcting the rules and starting again works.", "quantifier": "every rule set and every failure point", "why_tests_cant": "Failure paths leave shared pooled state behind; histories are unbounded.", "anchors": ["internal/rerules/glyphrule/tester.go: recompile, BeginSequence", "internal/rerules/glyphrule/decision_tree_compiler.go: Begin, Feed, Finish"]}
{"id": "C38", "title": "Without matching rules rewriting is the identity", "statement": "If no rule matches anywhere in the input, the output of a sequence is the input itself; in particular a tester without rules passes everything through.", "quantifier": "every rule set and every input in which no rule matches", "why_tests_cant": "Quantifies over all inputs and rule sets.", "anchors": ["internal/rerules/glyphrule/tester.go: Feed, Break, popOldest"]}
{"id": "C39", "title": "The builder's color table keeps its limits and names", "statement": "For every history of adding dyes and palettes, color indices assigned to sections are disjoint and contiguous from 255 downwards, the total never exceeds 255, names stay unique, and the built font reports the same dye names, palette names, counts and colors.", "quantifier": "every history of color operations", "why_tests_cant": "Budget accounting over unbounded histories.", "anchors": ["builder/font_builder_color.go", "font.go: FontColor"]}
{"id": "C40", "title": "Setting and option names read back", "statement": "For every builder settings table, the built font returns for every setting its name and number of options, and for every option the name that was given, whatever the iteration order of Go maps.", "quantifier": "every settings table and every map iteration order", "why_tests_cant": "Go map iteration order is random: a test sees one order per run.", "anchors": ["builder/font_builder_settings.go", "builder/font_builder.go: Build (settings, words), organizeWords", "font.go: FontSettings.GetOptionName, GetWord, GetNumOptions", "words.go"]}
{"id": "C41", "title": "Editing rewrite sets in the builder takes effect", "statement": "After removing a range or an element from a set (or a whole set), it is no longer in the set, everything else is unchanged, and Build still works.", "quantifier": "every set content and every removal", "why_tests_cant": "Quantifies over all set contents and edit histories.", "anchors": ["builder/font_builder_rewrite_sets.go: RemoveGlyphSetRange, RemoveGlyphSetListGlyph, RemoveGlyphSet, CreateRuneSet"]}
{"id": "C42", "title": "Entropy check of font identifiers", "statement": "The entropy estimate of a 64-bit identifier is always between 0 and 1, and it takes the whole identifier into account.", "quantifier": "every 64-bit identifier", "why_tests_cant": "2^64 inputs.", "anchors": ["internal/helpers.go: LazyEntropyUint64"]}
{"id": "C43", "title": "Byte to decimal conversion", "statement": "AppendByteDigits appends the decimal representation of the byte, without leading zeros, for every byte.", "quantifier": "every byte and every prefix", "why_tests_cant": "Cheap to test exhaustively for the byte, but not for all prefixes; included because names and conditions printed to users are built with it.", "anchors": ["internal/helpers.go: AppendByteDigits"]}
{"id": "C44", "title": "Glyph placements and masks read back", "statement": "For every list of glyphs added to a builder, the built font returns for each glyph index the advance (and vertical placement when enabled) and the mask that were added for that glyph, in order.", "quantifier": "every list of glyphs and every index", "why_tests_cant": "End offsets accumulate over all previous glyphs; all lists must be covered.", "anchors": ["builder/font_builder.go: Build (glyphs), AddGlyph", "font.go: FontGlyphs.Advance, Placement, RasterizeMask"]}
{"id": "C45", "title": "Parse accepts exactly the well-formed fonts", "statement": "Parse returns a font exactly when the (uncompressed) data is one well-formed font filling the data: each section where its counts and end offsets put it, with the counts and lengths that the parser checks; all other data is rejected with an error.", "quantifier": "every byte string up to the maximum size and every reader serving it", "why_tests_cant": "Quantifies over all byte strings; tests only try a few corruptions.", "anchors": ["parse.go: Parse", "internal/parsing_buffer.go"]}
{"id": "C46", "title": "Edition data files are loaded or rejected as a whole", "statement": "ParseEditionData loads exactly the files of the specified format that belong to the font: categories, kerning classes, classes of pairs and names of conditions are those of the file and nothing else changes. Any other data gives an error, which leaves the builder as it was but without edition data. It never panics.", "quantifier": "every builder reachable with the public methods, every byte string up to the maximum size and every reader serving it", "why_tests_cant": "Quantifies over all byte strings and builders; errors can happen after any number of changes to the builder.", "anchors": ["builder/font_builder.go: ParseEditionData, ClearEditionData", "specification.md: Edition data"]}
{"id": "C47", "title": "Build never panics on builders made with the public methods", "statement": "For every builder obtained from New by any sequence of calls of public methods (including loading edition data), Build returns a font or an error; it never panics with an invalid internal state, and a mistake that an error reports can be taken back with the methods that exist for it.", "quantifier": "every sequence of calls of public methods with all arguments, and all map orders and random values", "why_tests_cant": "Quantifies over all call sequences; the invalid states come from combinations of calls that are each accepted.", "anchors": ["builder/font_builder.go: Build", "builder/font_builder_*.go: all exported methods"]}
{"id": "C48", "title": "Build returns a font exactly for well made builders", "statement": "For every builder obtained with the public methods that satisfies the conditions under which Build does not panic: Build returns a font if and only if there is a glyph, the metrics are ordered, no two glyphs share a name, at most 255 option words are used, the glyph sets fit in 65535 bytes and their ranges are ordered and at most 256 glyphs long, unless the data is too large (which is reported); otherwise it returns an error. The errors for undefined glyphs and groups in sets and rules are never returned. A range that is reversed, a set that is too large or too many words are never forgotten by later calls.", "quantifier": "every sequence of calls of public methods with all arguments, all map orders and random values", "why_tests_cant": "Exactness over all reachable states: tests only show single accepted or refused builders.", "anchors": ["builder/font_builder.go: Build", "builder/font_builder_props.go: GetMetricsStatus", "builder/font_builder_rewrite_sets.go: AppendTo, RemoveGlyphSetRange, RemoveGlyphSetListGlyph", "builder/font_builder_settings.go: organizeWords", "builder/font_builder_rewrite_rules.go: AppendTo, AddGlyphRewriteRule"]}
{"id": "C49", "title": "Rewrite conditions are printed and compiled faithfully", "statement": "The text printed for a rewrite condition is the expression that it encodes, so that conditions with the same text have the same meaning. Compiling a definition either returns an error or the encoding of the expression of the documented grammar; it never panics and always ends; and what is printed for a condition compiles to a condition of the same meaning.", "quantifier": "every well-formed condition (any nesting), and every definition text", "why_tests_cant": "Recursion over arbitrary expressions and all texts; tests use single definitions (the repository has none).", "anchors": ["builder/font_builder_rewrite_condition.go: String, appendSubTerm, compileRewriteCondition, appendNextExpr, appendNextTerm", "builder/helpers.go: startsWith, trimSpaces", "internal/helpers.go: AppendByteDigits"]}
{"id": "C50", "title": "Validate accepts exactly the fonts that can be used", "statement": "Default validation accepts a font exactly when its header, metrics, glyph count and color counts are valid, and returns an error otherwise. All fonts returned by Parse or Build are accepted, all accepted fonts can be exported and parsed again, and strict validation accepts all fonts without mistakes.", "quantifier": "every font with data, every byte string and reader, every builder reachable with the public methods", "why_tests_cant": "Quantifies over all fonts; the repository has no tests of validation.", "anchors": ["font.go: Validate", "font.go: FontHeader.Validate, FontMetrics.Validate, FontColor.Validate, FontGlyphs.Validate", "builder/font_builder.go: Build", "parse.go: Parse"]}
{"id": "C51", "title": "The color palette of a font lists its colors by index", "statement": "GoColorPalette returns, for every font returned by Parse or Build, the transparent color for index zero, then the alphas of the dyes and then the colors of the palettes in order, each at the index by which masks refer to it; the builder reports the same indices; it never panics.", "quantifier": "every font with color data, every byte string and reader, every builder reachable with the public methods", "why_tests_cant": "Quantifies over all color sections; tests list no palettes.", "anchors": ["font.go: FontColor.GoColorPalette, EachDye, EachPalette and their sections", "builder/font_builder_colors.go: EachDyeAlpha", "specification.md: Color sections"]}
{"id": "C52", "title": "Dates and glyph ranges mean what they say", "statement": "The text of a date is DAY MonthName YEAR without the parts that are missing; different valid dates have different texts; invalid dates have a text too. A glyph range validates exactly when it contains a glyph and only glyphs of the font; new ranges contain exactly the glyphs between their ends.", "quantifier": "every date, every range and number of glyphs", "why_tests_cant": "Quantifies over all dates; injectivity is a statement on pairs.", "anchors": ["date.go: String, MonthName, HasDay, HasMonth, HasYear, IsComplete", "glyph.go: GlyphRange, Contains, Validate, NewRange"]}
{"id": "C53", "title": "What is put into a builder is read from the file", "statement": "When a builder obtained with the public methods is built, the font is exported and the file parsed, the font that is read returns what was put into the builder: name, versions, dates, metrics, all glyphs with their placements and masks in the order in which they were added, glyph names, kerning, dyes and palettes, settings and their options, switches, mapped code points and glyph sets.", "quantifier": "every sequence of calls of public methods with all arguments, all map orders and random values, every file that Export can write for the font", "why_tests_cant": "End to end over all builders: tests compare single fonts, and each stage could lose what only shows for some combination of sections.", "anchors": ["builder/font_builder.go: Build", "font.go: Export and all accessors", "parse.go: Parse", "builder/font_builder_*.go: all exported methods"]}
{"id": "C54", "title": "Replacements added to a builder are made in texts", "statement": "Rewrite rules added to a builder with the public methods, built, exported, parsed and added to a tester: what a sequence is turned into are its elements with the replacements of the builder applied from left to right, the longest input first, and the rule that was added first among equal inputs.", "quantifier": "every builder obtained with the public methods, every font read from its file, every sequence of elements and all values of the settings", "why_tests_cant": "Quantifies over all rules and all texts; the output has to be unique, which is a statement over pairs.", "anchors": ["builder/font_builder_rewrite_rules.go: AddSimpleUtf8RewriteRule, AddGlyphRewriteRule, AppendTo", "rerules/utf8_tester.go, rerules/glyph_tester.go: AddRule, BeginSequence, Feed, FinishSequence", "font.go: FontRewrites.GetUtf8Rule, GetGlyphRule"]}
{"id": "C55", "title": "The content of a font is what the calls say", "statement": "Every property of a builder has the value given by the latest call of a public method that sets it, or else its initial value; glyphs, colors, settings, switches, sets and rules are those that were added, in the order of the calls; a code point is mapped as the latest call for it says, and a kerning pair has the value set last. The font read from the exported file returns these values.", "quantifier": "every sequence of calls of public methods that succeeded, with all arguments and random values, in every order and interleaving", "why_tests_cant": "Quantifies over all sequences of calls: that a call changes nothing but its own property only shows in combination with all others.", "anchors": ["builder/font_builder.go: New, Build", "builder/font_builder_props.go, font_builder_color.go, font_builder_settings.go, font_builder_mapping.go, font_builder_rewrite_sets.go, font_builder_rewrite_rules.go, font_builder_edition.go: all exported methods"]}
{"id": "C56", "title": "Calls succeed exactly when their arguments are right", "statement": "A call of a public method of the builder succeeds exactly when its arguments respect the documented limits and refer to things that exist: valid dates and texts, masks inside the metrics of the font, well-formed and unused names, counts below the limits, glyphs, settings, switches and sets that were added, and as many groups as a switch has cases. Otherwise it returns an error; it never panics.", "quantifier": "every builder obtained with the public methods, every public method and all arguments", "why_tests_cant": "The limits meet in combinations (counts, lengths, contents of the builder) that tests only sample; that nothing else is refused can not be tested.", "anchors": ["builder/font_builder_props.go, font_builder_color.go, font_builder_settings.go, font_builder_mapping.go, font_builder_rewrite_sets.go, font_builder_rewrite_rules.go: all exported methods that return an error"]}
{"id": "C57", "title": "A font answers exactly the queries about what it contains", "statement": "Queries of a font by index (advance, placement, mask of a glyph, alphas of a dye, colors of a palette, options of a setting, value of a switch, glyph of a group, rules, sets) have an answer for every index below the corresponding count and panic for every other one. For fonts made with a builder the counts are those of what was put into the builder.", "quantifier": "every font returned by Parse, every query by index and all indices; every builder made with the public methods whose file is read back", "why_tests_cant": "Out-of-range accesses read whatever bytes follow; whether each accessor stops them for every font and index cannot be sampled.", "anchors": ["font.go:297-377 (colors)", "font.go:514-567 (glyphs)", "font.go:598-656 (words, settings)", "font.go:703-773 (groups, switches)", "font.go:1139-1284 (rules, sets)"]}
{"id": "C58", "title": "Building is reproducible", "statement": "Build changes nothing in the builder except that it adds the main dye when there are no colors, and calling it again gives the same font. The font does not depend on the order in which Go iterates the maps of the builder (glyphs, code points, sets, kerning pairs, words).", "quantifier": "every builder, all orders of iteration of all maps, every result of Build", "why_tests_cant": "Go randomises the order of iteration of maps: a test sees one order per run, and small maps often come out in the same order.", "anchors": ["builder/font_builder.go:179-671 (Build)", "builder/font_builder_settings.go:13-77 (words)", "builder/font_builder.go:447-490 (mapping)", "builder/font_builder.go:601-663 (kerning)"]}
{"id": "C59", "title": "Files of fonts are closed", "statement": "ParseFromPath and ParseFromFS return the font that Parse makes of the file, or the first error; in particular they read back every acceptable font made with a builder. Every file that was opened is closed exactly once, after reading it.", "quantifier": "all files, all results of opening, asking for the size, reading and closing them", "why_tests_cant": "Failures of the file system have to be provoked one by one; leaks of files are not visible in results.", "anchors": ["parse.go:14-44 (ParseFromFS, ParseFromPath)"]}
{"id": "C60", "title": "Fonts are what the format specification demands", "statement": "Everything that specification.md demands of the data of a font (format version, dates, limits of counts, order of tables of ends, of names, of code points and of kerning pairs, shape of names and words, references to settings, switches and conditions, shape of rewrite rules, vertical metrics without vertical layout, exact length) holds for all fonts accepted by Parse and for all fonts made by Build.", "quantifier": "all data accepted by Parse; all builders reachable through the API", "why_tests_cant": "The demands are scattered over the document, and files that break them have to be made by hand.", "anchors": ["specification.md:46-331", "parse.go:46-140 (Parse)", "builder/font_builder.go (Build)"]}
{"id": "C61", "title": "Export reports success exactly when everything was written", "statement": "Export of a font returns nil exactly when the writer took the six bytes of the signature, the compressor took all the data of the font and could be closed; what was written then is the signature and the data. Otherwise the error is that of the first step that failed, and nothing is written after it. Export of a builder does the same with the font of Build; it returns the errors of Build before writing anything, and a second export writes the same.", "quantifier": "every font, every builder and all results of the writer, of the compressor and of closing it", "why_tests_cant": "Failing and short writes have to be provoked at every step, and combinations of failures with all fonts cannot be enumerated.", "anchors": ["font.go:32-42 (Export)", "builder/font_builder.go:673-680 (Export)"]}
