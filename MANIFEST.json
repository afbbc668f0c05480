{
 "claims": [
  {
   "property": "C01",
   "status": "proved",
   "theorems": [
    "C01.decode_is_leValue",
    "C01.append8",
    "C01.append16",
    "C01.append24",
    "C01.append32",
    "C01.append64",
    "C01.roundtrip",
    "C01.encode_in_place",
    "C01.strings"
   ],
   "note": ""
  },
  {
   "property": "C02",
   "status": "proved",
   "theorems": [
    "C02.boolList_refines_list",
    "C02.size_after_push",
    "C02.raw_get",
    "C02.unset",
    "C02.getU8_unchecked"
   ],
   "note": ""
  },
  {
   "property": "C03",
   "status": "proved",
   "theorems": [
    "C03.search_correct",
    "C03.insert_correct",
    "C03.delete_correct"
   ],
   "note": ""
  },
  {
   "property": "C04",
   "status": "partial",
   "theorems": [
    "C04.queue_refines_partial",
    "C04.fifo",
    "C04.peek_slot",
    "C04.large_capacity_violated",
    "C04.pop_while_peeking_violated"
   ],
   "note": "Refinement to the ideal queue for all histories with capacities up to 32768 and no pops while peeking; the slot of each element is the index counted from the tail, wrapped (`peek_slot`); both excluded cases are violated, the first for every capacity above 32768."
  },
  {
   "property": "C05",
   "status": "partial",
   "theorems": [
    "C05.resize_keeps_contents_partial",
    "C05.resize_refused",
    "C05.resize_empty_partial",
    "C05.resize_empty_violated"
   ],
   "note": "Holds for capacities up to 32768 except for shrinking an emptied, used buffer to at most one bad capacity, for which it is violated (witnesses for all capacities)."
  },
  {
   "property": "C06",
   "status": "proved",
   "theorems": [
    "C06.mutual_exclusion",
    "C06.shared_available"
   ],
   "note": "Any interleaving of any number of goroutines, modelled as atomic steps."
  },
  {
   "property": "C07",
   "status": "partial",
   "theorems": [
    "C07.accepted_iff",
    "C07.grammar_accepted",
    "C07.accepted_iff_grammar_partial",
    "C07.accepted_outside_grammar_violated",
    "C07.spaced_accepted_iff"
   ],
   "note": "Exact characterisation of the accepted names; the documented grammar is violated (witness)."
  },
  {
   "property": "C08",
   "status": "partial",
   "theorems": [
    "C08.isValid_partial",
    "C08.isValid_violated",
    "C08.date_roundtrip"
   ],
   "note": "Exact, but for dates without month and day, for which the check panics (witness)."
  },
  {
   "property": "C09",
   "status": "proved",
   "theorems": [
    "C09.empty_of_sentinel",
    "C09.rasterize_commands",
    "C09.rasterize_error_iff",
    "C09.rasterize_total"
   ],
   "note": "For data under 16 MiB; memory exhaustion is not modelled."
  },
  {
   "property": "C10",
   "status": "proved",
   "theorems": [
    "C10.encode_rasterize",
    "C10.small_masks_encode",
    "C10.each_once",
    "C10.length_le",
    "C10.encoded_iff",
    "C10.far_masks"
   ],
   "note": "Also: every visible pixel is drawn exactly once and no other (each_once), at most 6 bytes per visible pixel (length_le), exactly which masks hit the documented limits (encoded_iff: distances between consecutive fragments and their sizes), masks that fit with the origin in a 128x128 square never do, those whose visible pixels are all more than 128 away always do."
  },
  {
   "property": "C11",
   "status": "proved",
   "theorems": [
    "C11.computeRect_tight",
    "C11.ordered"
   ],
   "note": ""
  },
  {
   "property": "C12",
   "status": "partial",
   "theorems": [
    "C12.reads_independent",
    "C12.advanceBytes_outcome",
    "C12.readUint8_outcome",
    "C12.readUint16_outcome",
    "C12.readUint24_outcome",
    "C12.readUint32_outcome",
    "C12.readUint64_outcome",
    "C12.readInt32_outcome",
    "C12.readInt8_outcome",
    "C12.readBool_outcome",
    "C12.readShortStr_outcome",
    "C12.readString_outcome",
    "C12.advanceShortSlice_outcome",
    "C12.body_independent",
    "C12.parse_independent_violated",
    "C12.parse_error_independent_partial",
    "C12.parse_font_independent_partial"
   ],
   "note": "Same outcome for every reader that makes progress: all primitives and the whole body of Parse; the final EnsureEOF reports data after the end depending on chunking (witness)."
  },
  {
   "property": "C13",
   "status": "partial",
   "theorems": [
    "C13.tiny_whole",
    "C13.trailing_violated",
    "C13.trailing_never_rejected",
    "C13.truncated_violated",
    "C13.truncated_partial",
    "C13.broken_rejected"
   ],
   "note": "Both halves are violated (witnesses); every proper prefix cut before the kerning counts is rejected. Compressed streams that end with an error instead of the end of the file are never accepted (broken_rejected)."
  },
  {
   "property": "C14",
   "status": "partial",
   "theorems": [
    "C14.body_never_panics",
    "C14.never_panics_violated",
    "C14.never_panics_partial",
    "C14.whole_never_panics"
   ],
   "note": "The body never panics on any reader; the final EnsureEOF panics when the data ends exactly with the buffer (witness)."
  },
  {
   "property": "C15",
   "status": "partial",
   "theorems": [
    "C15.layout",
    "C15.kerning_layout_partial",
    "C15.ordered_partial",
    "C15.ordered_violated",
    "C15.rich_accepted",
    "C15.accessors_violated",
    "C15.kerning_violated",
    "C15.metrics_read",
    "C15.counts_read",
    "C15.glyphs_read_partial",
    "C15.glyphNames_read_partial",
    "C15.dyes_read_partial",
    "C15.palettes_read_partial",
    "C15.words_read_partial",
    "C15.settings_read_partial",
    "C15.rewrites_read_partial"
   ],
   "note": "Layout and order proved for every accepted font; inner end offsets are not validated (panic witnesses). With them in order all accessors return the documented bytes."
  },
  {
   "property": "C16",
   "status": "partial",
   "theorems": [
    "C16.fixed_fields",
    "C16.family_partial",
    "C16.author_partial",
    "C16.about_partial",
    "C16.family_violated",
    "C16.author_violated",
    "C16.about_violated",
    "C16.built",
    "C16.built_violated",
    "C16.built_read_partial"
   ],
   "note": "Fixed fields exact. Strings exact up to exact bounds (225/224/222 bytes); beyond them the accessors index with wrapped uint8 offsets (violations with witnesses, also through Build)."
  },
  {
   "property": "C17",
   "status": "proved",
   "theorems": [
    "C17.metrics_read",
    "C17.setters",
    "C17.vertical_setters",
    "C17.status"
   ],
   "note": "Read back through Build; every setter writes its own metric only."
  },
  {
   "property": "C18",
   "status": "partial",
   "theorems": [
    "C18.parse_built_partial",
    "C18.parse_exact",
    "C18.exported",
    "C18.name_rejected",
    "C18.vertInterspacing_rejected",
    "C18.dyeAlphas_rejected",
    "C18.dyeNames_rejected",
    "C18.paletteColors_rejected",
    "C18.paletteNames_rejected",
    "C18.masks_rejected",
    "C18.options_rejected",
    "C18.switches_rejected",
    "C18.glyphSets_rejected",
    "C18.utf8Rules_rejected",
    "C18.glyphRules_rejected",
    "C18.mapping_rejected",
    "C18.mapping_accepted",
    "C18.parse_built_violated",
    "C18.misread",
    "C18.misread_violated"
   ],
   "note": "For all builders reachable with the public methods, environments and readers: Parse returns the built font exactly when its data fits the end offsets (SizesFit) and the thirteen conditions of Acceptable hold; if only the latter fail it returns an error. Each condition can fail (reachable witnesses); the stated property is violated. Worse, Parse can return without error another font than the one that was built: adding a dye with a long name to any builder without colors gives data that is read as the font of another builder, with a palette that was never added (misread)."
  },
  {
   "property": "C19",
   "status": "partial",
   "theorems": [
    "C19.lookup_sound",
    "C19.lookup_missing",
    "C19.lookup_complete_partial",
    "C19.built_sound",
    "C19.built_unique",
    "C19.built_complete_partial",
    "C19.lookup_exactly",
    "C19.same_length_violated",
    "C19.built_same_length_violated",
    "C19.complete_violated"
   ],
   "note": "Soundness for all tables; exactly which names of any table without repetitions are found (the comparison is right wherever the bisection looks). Violated: of names of equal length only the first is found, for all tables and all built fonts; other witnesses."
  },
  {
   "property": "C20",
   "status": "partial",
   "theorems": [
    "C20.horz_read",
    "C20.vert_read_partial",
    "C20.vert_exact",
    "C20.vert_read_iff",
    "C20.vert_violated",
    "C20.unknown_glyph_violated",
    "C20.horz_section_ok",
    "C20.history",
    "C20.fresh_ok",
    "C20.addGlyph_ok"
   ],
   "note": "Horizontal pairs read back exactly. Vertical values are looked up in the horizontal table: what is read is given exactly, and it is the vertical kerning if and only if both are equal (`vert_exact`, `vert_read_iff`). Pairs of unknown glyphs make Build panic (witnesses)."
  },
  {
   "property": "C21",
   "status": "partial",
   "theorems": [
    "C21.lookup",
    "C21.unmapped",
    "C21.glyph_partial",
    "C21.group_partial",
    "C21.entry_partial",
    "C21.entries_exact",
    "C21.large_panics",
    "C21.large_violated",
    "C21.map_exact",
    "C21.mapGroup_exact"
   ],
   "note": "Any sorted table; through Build, code points that are not mapped always, and all mapped ones exactly when the entries take less than 16 MiB. Beyond, the 24-bit end offsets wrap: a reachable builder with 32500 code points is shown whose lookup panics for a mapped code point."
  },
  {
   "property": "C22",
   "status": "partial",
   "theorems": [
    "C22.size_exact",
    "C22.select_outside",
    "C22.select_partial",
    "C22.select_list",
    "C22.select_violated",
    "C22.flags_partial",
    "C22.flags_wrong",
    "C22.flags_violated",
    "C22.order_violated"
   ],
   "note": "Size and out-of-range panics for all groups; selection exact for single glyphs and ranges. Lists and animation flags are violated (witnesses, and what they return instead)."
  },
  {
   "property": "C23",
   "status": "partial",
   "theorems": [
    "C23.evaluate",
    "C23.evaluate_partial",
    "C23.injective_partial",
    "C23.surjective_partial",
    "C23.numCases",
    "C23.numCases_partial",
    "C23.numCases_violated",
    "C23.addSwitch_exact",
    "C23.injective_violated",
    "C23.surjective_violated"
   ],
   "note": "Mixed radix value modulo 256 always; bijection for switches with up to 256 combinations; violated beyond (witnesses). The number of groups asked for is the number of combinations modulo 2^64: a switch on 64 settings with two options asks for none (witness)."
  },
  {
   "property": "C24",
   "status": "partial",
   "theorems": [
    "C24.case_partial",
    "C24.singles_partial",
    "C24.mapWithSwitchSingles_ok",
    "C24.case_violated",
    "C24.overflow_violated",
    "C24.mapWithSwitch_violated"
   ],
   "note": "Right whenever the groups of earlier cases are single glyphs or lists under 128 glyphs, exact for MapWithSwitchSingles; violated after a range (witness), and for a switch with 2^64 combinations, where no glyphs are asked for and data of another code point is read (witness, parsed back)."
  },
  {
   "property": "C25",
   "status": "partial",
   "theorems": [
    "C25.transparent_partial",
    "C25.new_sizes",
    "C25.transparent_violated",
    "C25.switchType_violated"
   ],
   "note": "All histories with fewer than 2^32 drops, all sizes and fonts; violated at 2^32 drops and for the switch type of cached groups (witnesses)."
  },
  {
   "property": "C26",
   "status": "partial",
   "theorems": [
    "C26.capacity",
    "C26.evicts_one_partial",
    "C26.size_one_partial",
    "C26.lru_violated",
    "C26.free_entry_violated"
   ],
   "note": "Capacity, hit on the code point used last, at most one eviction per miss, exact for one entry; violated for every font and every size from 2 on."
  },
  {
   "property": "C27",
   "status": "proved",
   "theorems": [
    "C27.refines",
    "C27.forgotten",
    "C27.remembered"
   ],
   "note": "Exact refinement for all histories."
  },
  {
   "property": "C28",
   "status": "partial",
   "theorems": [
    "C28.evaluate_violated",
    "C28.evaluate_exact",
    "C28.evaluate_partial",
    "C28.fuel_enough",
    "C28.skip_exact",
    "C28.eval_quiet_partial",
    "C28.comparison_violated",
    "C28.settings_violated",
    "C28.comparison_witness",
    "C28.short_circuit_violated",
    "C28.later_violated",
    "C28.offsets_violated"
   ],
   "note": "Violated for every well-formed first condition of every font, and for the others: even ones always, odd ones unless 1024 bytes follow. With one byte after the condition the outcome is exact: a value if and only if no group is decided early, right for quick comparisons; skipping is exact; the other defects have witnesses."
  },
  {
   "property": "C29",
   "status": "partial",
   "theorems": [
    "C29.glyph_parts",
    "C29.utf8_parts",
    "C29.in_len",
    "C29.glyph_out",
    "C29.glyph_out_iff",
    "C29.glyph_out_partial",
    "C29.utf8_out",
    "C29.utf8_out_iff",
    "C29.utf8_out_partial",
    "C29.equals_iff",
    "C29.built_glyph_rule",
    "C29.built_utf8_rule"
   ],
   "note": "Condition and lengths for all encoded and all built rules; output iteration right exactly up to one element (both kinds), with what it visits otherwise."
  },
  {
   "property": "C30",
   "status": "partial",
   "theorems": [
    "C30.glyph_ranges",
    "C30.glyph_list",
    "C30.utf8_list",
    "C30.utf8_ranges",
    "C30.utf8_ranges_iff",
    "C30.utf8_ranges_partial",
    "C30.utf8_ranges_violated",
    "C30.built_set"
   ],
   "note": "Glyph sets exact, also through Build; code point lists exact; code point ranges right exactly for single code points."
  },
  {
   "property": "C31",
   "status": "partial",
   "theorems": [
    "C31.scan_glyph",
    "C31.scan_utf8",
    "C31.scan_glyph_refused",
    "C31.scan_utf8_refused",
    "C31.added_glyph",
    "C31.added_utf8",
    "C31.built_glyph_partial",
    "C31.built_utf8_partial",
    "C31.output_violated",
    "C31.rune_error_violated",
    "C31.start_violated",
    "C31.control_violated",
    "C31.trailing_violated",
    "C31.truncated_violated",
    "C31.empty_violated",
    "C31.next_panics_partial",
    "C31.short_refused",
    "C31.end_checked",
    "C31.scan_ends"
   ],
   "note": "Round trip for every rule (both kinds) and refusal of every rule with an invalid element, through the builder for all rules it accepts and through Build for at most one output; scanning always ends. Safety on malformed rules is violated (witnesses); Next panics exactly when no element remains in the fragment."
  },
  {
   "property": "C32",
   "status": "partial",
   "theorems": [
    "C32.tree_glyph_partial",
    "C32.tree_utf8_partial",
    "C32.apart_glyph_partial",
    "C32.apart_utf8_partial",
    "C32.parted_glyph_partial",
    "C32.parted_utf8_partial",
    "C32.sharing_violated",
    "C32.stale_violated",
    "C32.empty_set_violated",
    "C32.empty_set_utf8_violated",
    "C32.no_rules_violated"
   ],
   "note": "For all collections of rules without sets, or with sets of listed elements as last elements, for all collections of rules with sets anywhere of which no two start with the same element, and for all collections that mix both sorts and share single elements before they part (both kinds), and every reallocation of slices: never a panic, a tree unless there are more than 253 input elements, and the tree reports exactly the longest match, first added among equals. Violated with other sets (shared states, stale pointer, empty set) and without rules: witnesses."
  },
  {
   "property": "C33",
   "status": "partial",
   "theorems": [
    "C33.positions",
    "C33.ranges_glyph_partial",
    "C33.ranges_utf8_partial",
    "C33.split_glyph_violated",
    "C33.split_utf8_violated",
    "C33.taken_glyph_violated",
    "C33.split_never",
    "C33.inside_glyph_violated",
    "C33.inside_utf8_violated",
    "C33.inside_any_glyph_violated",
    "C33.inside_any_utf8_violated"
   ],
   "note": "Exact outcome for every pair of ranges: right in four kinds of positions, always a panic in three, always a wrong match in one (both kinds). Whatever was compiled before, a transition is never split: ranges that begin inside one cannot be added (split_never), so that no rule can follow a set with one range if it begins with a single element of the range (inside_glyph_violated), nor any rules that start apart, if it begins inside a range with which one of them begins (inside_any_glyph_violated)."
  },
  {
   "property": "C34",
   "status": "partial",
   "theorems": [
    "C34.refresh_partial",
    "C34.compiled_partial",
    "C34.ignored_violated",
    "C34.false_violated"
   ],
   "note": "The values of the conditions are computed and stored right, for all testers and histories; but no code reads them: the output of every sequence is the same for all settings (general theorem and witness)."
  },
  {
   "property": "C35",
   "status": "partial",
   "theorems": [
    "C35.batch_unique",
    "C35.accepted_elements",
    "C35.other_elements",
    "C35.actual_glyph",
    "C35.actual_utf8",
    "C35.sequence_glyph_partial",
    "C35.sequence_utf8_partial",
    "C35.stream_glyph_partial",
    "C35.stream_utf8_partial",
    "C35.more_outputs_violated",
    "C35.more_runes_violated",
    "C35.outputs_violated",
    "C35.tails_violated",
    "C35.inside_violated",
    "C35.inside_runes_violated",
    "C35.empty_set_violated",
    "C35.empty_set_runes_violated",
    "C35.refused_violated",
    "C35.refused_runes_violated",
    "C35.outputs_refused_violated"
   ],
   "note": "For all histories of rules (both kinds) of up to 254 rules, with sets only as last elements, or with sets anywhere when no two rules of a condition may start with the same element (at most 253 elements or ranges for each condition), without tails (or tails of one element, when there are no heads), the output is the unique greedy rewriting in which only the first half of the outputs is put out (`actual_*`), also for what has been emitted before the end: the right one with one output element, violated by every rule with more (general theorems and witness). No sequence can be processed with a rule that has an element or outputs refused by the scanner, or when a rule begins inside a range with which an earlier one begins, or the first one with an empty set and more elements (inside_violated, empty_set_violated)."
  },
  {
   "property": "C36",
   "status": "partial",
   "theorems": [
    "C36.histories_glyph_partial",
    "C36.histories_utf8_partial",
    "C36.tail_violated"
   ],
   "note": "For all histories of added and removed rules and sequences the output depends only on the current rules and the sequence, when no rule that occurs has a tail (or one of one element, when there are no heads), with any number of outputs and with sets as in C35; violated with other tails (witness)."
  },
  {
   "property": "C37",
   "status": "partial",
   "theorems": [
    "C37.refused_partial",
    "C37.refused_iff",
    "C37.begin_violated",
    "C37.resync_violated",
    "C37.stuck_violated",
    "C37.limits_violated"
   ],
   "note": "A refused rule changes nothing, with exactly when they are refused; every error of the compiler leaves the shared compiler unusable for all testers and the tester blocked (general theorems and witness)."
  },
  {
   "property": "C38",
   "status": "partial",
   "theorems": [
    "C38.identity_glyph_partial",
    "C38.identity_utf8_partial",
    "C38.no_rules_violated"
   ],
   "note": "Identity for all histories in which no rule matches (both kinds, sets as in C35); a tester without rules panics (witness)."
  },
  {
   "property": "C39",
   "status": "partial",
   "theorems": [
    "C39.history",
    "C39.addDye_exact",
    "C39.addPalette_exact",
    "C39.built_partial",
    "C39.built_violated",
    "C39.eachDyeAlpha_calls",
    "C39.eachDyeAlpha_violated",
    "C39.eachPaletteColor_violated"
   ],
   "note": "Limits and unique names for all histories, exact success conditions, colors read back from built fonts without empty sections or names (witnesses for these); builder iteration always returns an error (proved)."
  },
  {
   "property": "C40",
   "status": "partial",
   "theorems": [
    "C40.names_and_numbers",
    "C40.added",
    "C40.added_first",
    "C40.options_partial",
    "C40.real_words",
    "C40.good_order",
    "C40.order_violated",
    "C40.swapped_violated",
    "C40.no_options_violated"
   ],
   "note": "For all settings tables and all map orders: names of settings and numbers of options, and option names when at most one option is not a predefined word. With two of them some order always reads an option back wrong (general theorem, and witness with the real words); settings without options make GetNumOptions panic."
  },
  {
   "property": "C41",
   "status": "partial",
   "theorems": [
    "C41.range_unchanged",
    "C41.range_violated",
    "C41.range_partial",
    "C41.glyph_unchanged",
    "C41.glyph_violated",
    "C41.glyph_partial",
    "C41.set_removed_partial",
    "C41.set_violated",
    "C41.order_kept",
    "C41.range_added",
    "C41.glyph_added",
    "C41.rune_set_violated",
    "C41.rune_set_witness",
    "C41.rune_range_unchanged",
    "C41.rune_unchanged",
    "C41.rune_set_removed",
    "C41.rune_sets_none",
    "C41.removal_witness"
   ],
   "note": "Additions exact. Removing ranges, glyphs or code points never changes anything, removing a set of glyphs makes every Build fail, code point sets cannot be created, so that in reachable builders every call on them finds none."
  },
  {
   "property": "C42",
   "status": "partial",
   "theorems": [
    "C42.entropy_range",
    "C42.entropy_low_bits",
    "C42.whole_identifier_violated",
    "C42.random_value"
   ],
   "note": "Range proved; only the low bits are used, so the whole-identifier claim is violated (witness). Random identifiers: eight bytes give every 64-bit value exactly once."
  },
  {
   "property": "C43",
   "status": "proved",
   "theorems": [
    "C43.digits_nil",
    "C43.digits_prefix",
    "C43.appendByteDigits_decimal"
   ],
   "note": ""
  },
  {
   "property": "C44",
   "status": "partial",
   "theorems": [
    "C44.glyphs_read_partial",
    "C44.masks_exact",
    "C44.masks_violated",
    "C44.addGlyph_stores",
    "C44.setGlyphPlacement_stores"
   ],
   "note": "Holds exactly when the data of the glyphs has up to 16 MiB: 24-bit end offsets wrap silently beyond, shown by a reachable builder with 56000 glyphs."
  },
  {
   "property": "C45",
   "status": "partial",
   "theorems": [
    "C45.wellFormed_accepted",
    "C45.checks_needed",
    "C45.rejected_iff_partial",
    "C45.accepted_partial",
    "C45.tolerated",
    "C45.signature",
    "C45.accepts_exactly_violated"
   ],
   "note": "For all data and readers: well-formed fonts are accepted with the offsets of their sections; an error is returned exactly when the data is not Tolerated (a font whose kerning tables may be missing, and which anything may follow); what is accepted is Tolerated. The stated property is violated by tolerated data that is not well-formed (witness)."
  },
  {
   "property": "C46",
   "status": "partial",
   "theorems": [
    "C46.loaded_partial",
    "C46.only_valid_partial",
    "C46.other_files",
    "C46.broken_rejected",
    "C46.failed_partial",
    "C46.panics_partial",
    "C46.rejected_iff_partial",
    "C46.public_named",
    "C46.never_panics_violated",
    "C46.specified_format_violated",
    "C46.conforming_violated",
    "C46.end_violated",
    "C46.unchanged_violated"
   ],
   "note": "For all builders, data and readers: data of the format that the code reads is loaded, with exactly the contents; no other data is; errors and panics characterised exactly; after an error no edition data is left; broken streams always give an error. Violated (witnesses): the format of the specification is not accepted, sizes and classes are not checked, data after the end is accepted or a panic, every builder has data that makes it panic, pairs read before an error stay."
  },
  {
   "property": "C47",
   "status": "partial",
   "theorems": [
    "C47.encodable_no_panic",
    "C47.no_panic_partial",
    "C47.orderly_of_built",
    "C47.spoiled_forever",
    "C47.removed_forever",
    "C47.sizes_violated",
    "C47.dyes_violated",
    "C47.mapping_violated",
    "C47.group_violated",
    "C47.removed_violated",
    "C47.ranges_violated",
    "C47.list_violated",
    "C47.body_violated",
    "C47.output_violated",
    "C47.kerning_violated",
    "C47.vertical_violated",
    "C47.class_violated",
    "C47.mask_violated"
   ],
   "note": "For all reachable builders: no panic when the tables have the sizes and the references exist that Build expects (Orderly) and all masks can be encoded (small ones always can, exact condition in C10); all of these are also necessary for a font; builders with too many dyes or rules, rules without body or with long output, or a removed set never give a font again whatever is called. Violated (witnesses, each reached with public calls): 256 dyes, mappings to missing glyphs, groups of 129 glyphs, removed sets, sets of 255 ranges or glyphs, rules without body or with 256 outputs, kerning for missing glyphs, vertical kerning, missing classes, masks far from the origin."
  },
  {
   "property": "C48",
   "status": "proved",
   "theorems": [
    "C48.wellMade_of_built",
    "C48.built_or_large",
    "C48.built_exactly",
    "C48.built_iff",
    "C48.size",
    "C48.glyph_size",
    "C48.too_large",
    "C48.refused",
    "C48.no_glyphs",
    "C48.bad_metrics",
    "C48.same_names",
    "C48.references",
    "C48.doomed_forever",
    "C48.removed_range_violated"
   ],
   "note": "For all reachable builders: a font exactly when Orderly (C47), WellMade, all masks can be encoded and the data fits (exact size of the data and of the rules; for all built fonts the data has exactly this size); an error about the size or another one otherwise; exact messages for missing glyphs, metrics and equal names; references of sets and rules always exist; Doomed builders (reversed or long ranges, too many words, too large sets) never give a font again, whatever is called. Finding (removed_range_violated): RemoveGlyphSetRange reports success and removes nothing, so that the mistake can not be taken back."
  },
  {
   "property": "C49",
   "status": "partial",
   "theorems": [
    "C49.printed",
    "C49.printed_meaning",
    "C49.compiled_iff",
    "C49.compiled_partial",
    "C49.compiled_violated",
    "C49.quick_round_trip",
    "C49.group_violated",
    "C49.unending_violated",
    "C49.panic_violated",
    "C49.otherwise",
    "C49.looked_for"
   ],
   "note": "Printing proved for all conditions, and equal texts have equal meanings. Compiling: exact outcome for every text. Exactly single comparisons compile; short forms completely, with round trip. Violated (exact characterisations): other comparisons lack their last byte and cannot be printed, no group compiles, a parenthesis never ends, numbers over 64 bits panic."
  },
  {
   "property": "C50",
   "status": "partial",
   "theorems": [
    "C50.default_exact",
    "C50.parsed",
    "C50.built_partial",
    "C50.built_violated",
    "C50.accepted_violated",
    "C50.strict_partial",
    "C50.strict_violated"
   ],
   "note": "For all fonts whose fields are inside their data: validation exact, never panics. All parsed fonts are valid; built fonts exactly when they have a name and no misplaced interspacing. Violated (witnesses): Build returns invalid fonts, valid fonts are rejected by Parse, strict validation never succeeds (panics)."
  },
  {
   "property": "C51",
   "status": "partial",
   "theorems": [
    "C51.palette_exact",
    "C51.palette_length",
    "C51.parsed_partial",
    "C51.built_partial",
    "C51.parsed_violated",
    "C51.index_violated"
   ],
   "note": "For all fonts with their color data: exactly the table of colors, or a panic when a section is empty; parsed fonts always have their color data; built fonts give back all colors added, or panic exactly when a section is empty. Violated (witnesses): Parse accepts fonts with empty sections; the builder reports other indices for the alphas of its dyes."
  },
  {
   "property": "C52",
   "status": "partial",
   "theorems": [
    "C52.text_partial",
    "C52.valid_text",
    "C52.distinct",
    "C52.missing_violated",
    "C52.never_panics",
    "C52.parts",
    "C52.range_validate",
    "C52.newRange_exact"
   ],
   "note": "Texts of all dates with a right month (and of all valid dates), different for different valid dates; no panic for any date; ranges exact. Violated: with a day, a missing month is not left out."
  },
  {
   "property": "C53",
   "status": "partial",
   "theorems": [
    "C53.same",
    "C53.readable",
    "C53.header_partial",
    "C53.metrics",
    "C53.glyphs",
    "C53.glyphNames_partial",
    "C53.kerning_partial",
    "C53.kerning_vert",
    "C53.colors_partial",
    "C53.settings_partial",
    "C53.switches_partial",
    "C53.mapping",
    "C53.switched_partial",
    "C53.glyphSets"
   ],
   "note": "For all builders made with the public methods, all exported files: metrics, glyphs with placements and masks, mapped code points and glyph sets are read back without further conditions; header texts, names, kerning, colors, settings and switches under the conditions stated in each theorem (outside them the code does not return what was put in: violations in C16, C19, C20, C23, C24, C39, C40)."
  },
  {
   "property": "C54",
   "status": "partial",
   "theorems": [
    "C54.determined",
    "C54.added_text",
    "C54.added_glyphs",
    "C54.added_one",
    "C54.text_partial",
    "C54.glyphs_actual",
    "C54.glyphs_partial",
    "C54.text_calls_partial",
    "C54.glyphs_calls_partial",
    "C54.ligatures_read",
    "C54.setAtEnd_read",
    "C54.setsInside_read",
    "C54.outputs_violated",
    "C54.refused_violated",
    "C54.refused_calls_violated",
    "C54.outputs_refused_violated",
    "C54.outputs_refused_calls_violated",
    "C54.inside_violated"
   ],
   "note": "For all builders made with the public methods, the files and all texts: the output is the unique rewriting by the replacements of the builder, for rules with sets of single glyphs as last elements and at most 253 elements over all rules, or with sets anywhere when no two rules may start with the same glyph and there are at most 253 ranges, with one output, without tails (or with tails of one element when there are no heads). With more outputs it is the one with the first half of each (`glyphs_actual`). Violated for two outputs. With histories of calls (C55), the replacements are those that the calls ask for (`text_calls_partial`, `glyphs_calls_partial`, the latter without sets). A font whose rules share a first glyph through a set cannot be used for any sequence (inside_violated), nor can any font with a replacement of U+FFFD, which builders take (refused_violated, refused_calls_violated), or with a replacement of glyphs without output or with more outputs than its body (outputs_refused_violated, outputs_refused_calls_violated)."
  },
  {
   "property": "C55",
   "status": "partial",
   "theorems": [
    "C55.complete",
    "C55.header",
    "C55.metrics",
    "C55.glyphs",
    "C55.kerning",
    "C55.kerning_all",
    "C55.lists",
    "C55.mapping",
    "C55.sets",
    "C55.rules",
    "C55.read_header_partial",
    "C55.read_metrics",
    "C55.read_masks_partial",
    "C55.kerning_loaded",
    "C55.kerning_unloaded",
    "C55.read_kern",
    "C55.read_kerning",
    "C55.read_kerning_loaded",
    "C55.read_kerning_unloaded",
    "C55.read_vert",
    "C55.read_vert_loaded",
    "C55.read_placements_partial",
    "C55.read_colors_partial",
    "C55.read_settings_partial",
    "C55.read_sets",
    "C55.read_mapping",
    "C55.read_names_partial",
    "C55.read_switched_partial"
   ],
   "note": "For all histories of successful calls (every builder has one): header, metrics, glyphs with masks, names and placements, colors, settings, switches, mapping, sets and rules of the builder are what the calls say, and so are header, metrics, masks, placements, names that are found, kerning, colors, settings, sets and mapped code points (with or without switches) of the font read from the file. Kerning: pairs without class have the value set last; when the latest edition data was loaded (ParseEditionData of the bytes of valid contents), `kerning_loaded` and `read_kerning_loaded` give the value of every pair from the contents and the calls before and since; when it was removed or could not be loaded, it is the value set last. Removing ranges or glyphs from sets has no effect (C41), which is what `setOf` says."
  },
  {
   "property": "C56",
   "status": "partial",
   "theorems": [
    "C56.accepted",
    "C56.refused_partial",
    "C56.refused_violated"
   ],
   "note": "For all reachable builders, all methods but Build and ParseEditionData (C46 to C48) and all arguments (masks with a byte for every pixel): success, error and panic characterised exactly. Violated (witnesses): panics for dates without month and day, for every new set of code points, for switch numbers over 253, switches with settings without options, groups of one glyph or none in MapWithSwitch."
  },
  {
   "property": "C57",
   "status": "partial",
   "theorems": [
    "C57.outside",
    "C57.exact_partial",
    "C57.switches_exact",
    "C57.choices",
    "C57.built",
    "C57.built_exact_partial",
    "C57.masks_violated",
    "C57.empty_violated"
   ],
   "note": "For all fonts returned by Parse: every query outside panics (settings have no options, other words are predefined). With end offsets in order: an answer exactly inside, switches exactly when there is a value for each of their settings. For fonts of builders: the counts are those of the builder, and the end offsets are in order if and only if no dye, palette or setting is empty. Violated (witnesses): RasterizeMask does not look at the number of glyphs; empty dyes panic."
  },
  {
   "property": "C58",
   "status": "partial",
   "theorems": [
    "C58.unchanged",
    "C58.again",
    "C58.maps",
    "C58.orders_partial",
    "C58.orders_violated"
   ],
   "note": "For all builders: Build adds at most the main dye; building again gives the same builder and font; maps of glyphs, code points, sets and kerning pairs in any order give the same font; orders of the words do not matter with at most one option that is not a predefined word. Violated (for every builder with two such options): two orders give different fonts."
  },
  {
   "property": "C59",
   "status": "partial",
   "theorems": [
    "C59.path_font",
    "C59.fs_font",
    "C59.path_error",
    "C59.fs_error",
    "C59.built",
    "C59.path_closes_partial",
    "C59.fs_closes_partial",
    "C59.leak_violated",
    "C59.panics_violated"
   ],
   "note": "For all files: the result is that of Parse, errors included, and acceptable fonts made with a builder are returned. Files are closed exactly once if Parse does not panic and, with ParseFromFS, the size is known and below the limit. Violated: ParseFromFS never closes files that are too large or whose size is not known; a panic of Parse leaves the file open."
  },
  {
   "property": "C60",
   "status": "partial",
   "theorems": [
    "C60.parse_enforces_partial",
    "C60.parse_violated",
    "C60.parse_exact",
    "C60.full_met",
    "C60.build_keeps_partial",
    "C60.build_dates",
    "C60.build_violated"
   ],
   "note": "For all accepted data: exactly eight of the 55 demands (name, vertical layout flag, ascent, vertical interspacing, numbers of color sections and of colors, number of switches, size) are enforced by Parse. Violated: each of the others by a font that Parse accepts. For all reachable builders, all Build environments and sizes that the tables of ends can express: built fonts meet all demands but twelve (and dates, if those of the builder are fine). Violated: each of the twelve (format version, name, three vertical metrics, names of glyphs, words and settings, options, cases of switches, output of glyph rules, vertical kerning) by a built font."
  },
  {
   "property": "C61",
   "status": "proved",
   "theorems": [
    "C61.export_ok",
    "C61.export_written",
    "C61.export_error",
    "C61.contract",
    "C61.builder_ok",
    "C61.builder_error",
    "C61.builder_panics",
    "C61.builder_again"
   ],
   "note": "For all fonts, builders and behaviours of the writer, the compressor and closing: success exactly when everything was taken, then signature and data were handed over; the error is that of the first failed step; builders as fonts, errors of Build before any write; repeated exports hand over the same."
  }
 ]
}
