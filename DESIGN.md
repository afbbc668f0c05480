# Machine-checked model of tinne26/ggfnt

Lean 4.33.0 (+ Mathlib, imported module by module). Lake project in `lean/`,
modules under `lean/Verif/`. Nothing of `/repo` is run; the Go source was read
as text and modelled by hand, function by function. Every model definition
cites the Go file and lines it follows.

## Layout

* `Verif/Go.lean`: the small Go semantics shared by all models (results that
  distinguish value / error / panic, fixed-width wrap-around, checked indexing
  and slicing).
* `Verif/Model/*.lean`: executable models of the Go functions.
* `Verif/Spec/*.lean`: specifications written without the model's helpers.
* `Verif/Lemmas/*.lean`: proofs about models (helper lemmas).
* `Verif/Props/Cxx.lean`: the property theorems, one file per property, with a
  concrete `example` beside each theorem that shows its hypotheses are met by a
  non-trivial case.

## Conventions of the models

* Go `panic` (explicit, index out of range, nil map write) is the constructor
  `Res.panic`; a returned `error` is `Res.err`; so "never panics" is a provable
  statement and not an artefact of total functions.
* Unsigned integers are `Nat` with the wrap-around written out (`% 256`,
  `% 65536`, ...) at every operation that can wrap in Go; bytes in buffers are
  `UInt8`. Go `int` (64 bits) is `Nat`/`Int` unless stated otherwise.
* Slices are lists: aliasing of backing arrays and capacity beyond the length
  are not modelled (a slice expression up to the capacity is treated as a
  panic when it exceeds the length). In particular the builder stores slices
  and masks that it is given without copying them; statements are about
  callers that do not change them afterwards.
* Go map iteration order, `sort.Slice` results on ties, goroutine schedules and
  reader chunking are universally quantified parameters.
* Loops are structural recursion, or recursion on explicit fuel that is shown
  to be enough.

## Trusted base

The Lean kernel; the axioms `propext`, `Classical.choice`, `Quot.sound` (no
others; no `sorry`, `native_decide`, `bv_decide`, own axioms); that the model
files transcribe the cited Go lines; the Go memory model facts stated above.
Not modelled: gzip (the parser is modelled on the decompressed stream),
`crypto/rand`, `time`, floating point formatting, the file system (its results
are parameters in C59),
debug printing. `fmt.Sprintf` is trusted for `%s`, `%d` and `%04d` on unsigned
numbers (`Model/DateText.lean`).

### Parser model

* `Parse` runs on the decompressed stream. A reader is a list of events
  (bytes, status) that it hands out one per `Read`, each at most as long as the
  1024 byte chunk asked for; `Reader.Serves r D` says it delivers `D`, ends with
  EOF and does not stall (three empty reads in a row make `readMore` give up).
* Memory beyond the filled part of the buffer is a parameter (`junk`); proofs
  hold for all values.
* The size limit (32 MiB) is modelled. Statements about accepted fonts assume
  data within it: beyond it the error depends on the chunks, and the kerning
  sections ignore it.
* Offsets are uint32 in Go; data within the limit keeps all sums below 2^32,
  so the accessors are modelled without wrap-around.
* The signature is one `Read` of 6 bytes, its result is a parameter of `parse`.

### Builder model

* Maps keyed by identifiers are `GoMap` (association lists); every `range` over
  a map takes its order from the environment `Env` (one order per loop), and
  the sorts of raster fragments are an arbitrary permutation.
* `crypto/rand` values are a parameter: the list of identifiers rolled.
* Go `sort.Slice` on names is an insertion sort; names are checked for
  duplicates afterwards, so accepted tables have one sorted order.
* The font a builder returns is the raw `Font` (data and offsets). `Export` is
  modelled up to the two writers it hands bytes to; gzip is trusted to give back
  what was written (`FileWith`).
* `Spec/Reachable.lean` lists every public method that changes a builder. The
  edition data (`ParseEditionData`, `ClearEditionData`) is in `Model/Edition.lean`:
  a program over the parsing buffer that carries the builder along, also through
  errors. `ExportEditionData` and `ValidateEditionData` are not implemented in
  the repository.

### Tester model

* `Model/Tester.lean` has one model for `glyphrule` and `utf8rule`, whose testers differ in names and in how
  elements are filtered (`Kind`, `Variant`).
* The pool of compilers hands out the compiler that was released last: the compiler is passed from one
  operation to the next (`World`). `defer` releases it also after an error.
* The tree slots that are reused when conditions are added are an arbitrary tree (`Env.old`); the memory of
  a new buffer is arbitrary (`Env.junk`). `DeleteElementAt` and the swaps keep slots apart, so that no two
  trees share states.
* A Go `rune` is an `int32`; the model keeps the `uint32` it is read from. The theorems about `utf8rule` ask for
  elements below 2^31 - 1, where both orders agree and `Last + 1` does not overflow. (The scanner accepts any
  value but U+FFFD; for larger ones nothing is claimed.)
* After an error of the compiler the states of the tree that failed are unspecified in the code, which had
  begun to overwrite them; the model keeps the old ones. No theorem looks at them.

## Properties: what is modelled and how it is proved

Where the code violates a property, the negation is proved with a concrete
witness (`..._violated`) and the part that does hold is proved as
`..._partial`.

| Id | Model | Proof |
|----|-------|-------|
| C01 | encode/decode functions on byte lists with shifts and ors | for all values, algebra of shifts |
| C02 | packed bytes + size | refinement to `List Bool`, induction over op lists |
| C03 | binary search loop, insert | loop invariant on sorted lists |
| C04 | ring buffer with uint16 arithmetic | refinement to an abstract deque; violated above capacity 32768 (last-index overflow) and for pops while peeking |
| C05 | SetCapacity with slice copies | refinement; violated for an empty buffer whose head equals the new capacity |
| C06 | transition system, one CAS per step | inductive invariant over all schedules |
| C07 | byte loop | characterisation of the accepted language; violated (leading digits, double hyphens accepted) |
| C08 | Date functions | calendar spec; violated (panic for month 0) |
| C09 | both raster passes as functions on byte lists | induction on the remaining bytes |
| C10 | encoder passes on pixel arrays, sort as arbitrary permutation, decoder | invariant "drawn + remaining = mask", fragments without common pixels (`EncInv.gone`, `apart`); decode of encode; the loop succeeds exactly when each fragment is within reach of the one before (`Spec.Steps`) |
| C11 | ComputeRect loops | bounding box spec |
| C12 | ParsingBuffer over chunk schedules; parsers as programs (free monad over the reads) | simulation with a flat cursor (`FInv`, `exec_flat`), induction on programs; violated by `EnsureEOF` |
| C13 | Parse, EnsureEOF | violated with witnesses; partial: truncation before the kerning counts (`Strict` programs fail on short data); readers that never report the end of the file (invariant over all runs of a program) |
| C14 | Parse | weakest preconditions along the program; panic witness for EnsureEOF; partial |
| C15 | Parse, Font accessors | `Layout` postcondition of the program; accessors under `InnerOk`; violated without it |
| C16 | header accessors with uint8 offsets | exact when lengths sum below the wrap; violated beyond |
| C17 | metrics section encode / accessors | round trip through `Build` |
| C18 | Build, Export, Parse | invariant over all public methods (`Call`, `Edits`, `Inv`), layout of built data, `Checks` of Parse ↔ `Acceptable`; each condition violated by a reachable builder; the built font comes back exactly when its data fits the end offsets (`SizesFit`) and is `Acceptable`; a dye name of 65540 bytes makes Parse return another font without an error (`misread`: the sections that do not depend on the colors are compared one by one) |
| C19 | FindIndexByName, bytesSmallerThanStr | soundness for all tables; exact condition for a name to be found (`Guided`: the comparison is right at the positions a bisection looks at); completeness violated, for names of equal length in all tables |
| C20 | kerning section, binary search | horizontal round trip for all histories; vertical table violated: what is read of it exactly, and when it is right (`vert_read_iff`) |
| C21 | mapping section, binary search | any sorted table; round trip through `Build` for every kind of entry, exactly when the entries fit the 24-bit end offsets; a reachable builder with 16.8 MB of entries whose lookup panics |
| C22 | MappingGroup methods over a spec of stored groups (`Stored`) | sizes, single glyphs, ranges proved; lists violated (`choice << 2`), animation flags violated (read one byte too far) |
| C23 | EvaluateSwitch | mixed radix modulo 256 through `Build`; bijection up to 256 combinations, violated beyond; the number of combinations wraps at 64 bits in the builder (`numCases`, violated by 64 settings with two options) |
| C24 | staircase walk | induction over the skipped groups; single glyph cases proved end to end; violated after ranges; MapWithSwitch violated for single glyph groups; violated by an entry without cases (64 bit overflow) |
| C25 | caches as state machines | refinement for all histories under 2^32 drops; violated by the wrapped counter |
| C26 | same | violated for every size from 2 on (invariants of filling a fresh cache); capacity and one eviction per miss proved |
| C27 | SettingsCache | exact refinement for all histories |
| C28 | EvaluateCondition over an inductive spec of expressions (`Cond`) | violated for every well-formed first condition; value right for quick comparisons when a byte follows (`_partial`); skipping exact |
| C29 | rule accessors over encoded rules (`EncRule`) | lengths proved, also through `Build`; output iteration right iff at most one output |
| C30 | set accessors over encoded sets (`EncSet`) | glyph sets proved, also through `Build`; code point ranges right iff all have one code point |
| C31 | fragment encoder + scanner, both kinds through one parameterised model (`Kind`) | round trip by induction over the blocks for all rules with valid elements, and refusal of all others by comparison with a kind that takes every element; malformed rules can panic, be accepted when truncated or with trailing bytes (witnesses) |
| C32 | compiler of decision trees and the tree, statement by statement; a pointer to a state that goes stale when the slice of states moves is modelled (`View`), and when slices move is an arbitrary sequence | for rules without sets, or with a set of single elements as last element (`SetsLast`, `Known`): the states in use form a tree with use counts of one (`Inv`), and a rule stands for one input per element of the set (`RuleCode.inputs`); what they recognise is tracked through linking, copying and freeing (`Walk`, `FeedInv`), for all rule collections; for rules with sets anywhere that start with different elements (`Laid`, `starts`): every rule gets a chain of states of its own, to which all the ranges of an element lead (`Neat`, `Leads`), whatever the ranges; for rules of both sorts that share single elements and then part (`Branching`, `Parted`): the states reached by single elements form a tree with use counts of one, the other states are reached only through the entries of the rule they belong to (`Bush`, `TreeOf`, `EntryOf`); with other sets: witnesses for shared states that are freed while in use, for the stale pointer, and for empty sets |
| C33 | the same, `AppendRange` with its splits | symbolic evaluation for all pairs of ranges; the check after a split compares the wrong way round and always panics, for all states (`splitAt_never`: the second part is inserted after the first); after rules that start apart the transitions of the root are their first ranges (`Laden`, C32), so that nothing can begin inside one of them |
| C34 | tester, settings cache | values of the conditions over histories; they are never used: outputs do not depend on them (general, and witness) |
| C35 | tester over accumulator buffer, trees and compiler | what the trees of each condition need is `Tidy` (sets last, sets anywhere when rules start apart, or rules that share single elements and then part, from C32), then an invariant of the accumulator against the relational spec `Batch`, parameterised by the elements of the sets, which is total and unique, in general with the first half of the outputs (`BatchOf glyphVisits`); violated by every rule with two outputs or more; `sequence_needs`: a sequence is only processed if the rules of each condition compile, hence never with the rules of `C33.inside_any_glyph_violated` or `C32.empty_set_violated`, nor with a rule that the scanner refuses (`refused_violated`) |
| C36 | the same, histories of operations (`World.run`) | invariant `Fine` over histories; tails of one element are taken out at once when no rule has a head (`Late`); violated with witness for other tails |
| C37 | tester, compiler shared between testers | exact refusals; every compiler error leaves compiler and tester stuck |
| C38 | tester | corollary of C35; violated for no rules |
| C39 | color builder ops, read back | invariant over histories, exact success, round trip; empty sections and EachDyeAlpha / EachPaletteColor violated |
| C40 | settings/words sections, words.go | map orders are parameters; invariant of `organizeWords` (indices of own words, builtin words moved out of their way), then the bytes; violated for some order whenever two own words occur, and for settings without options |
| C41 | set editing | removals violated for all builders; additions exact |
| C42 | LazyEntropyUint64 as integer distance; CryptoRandUint64 with the random bytes as argument | bound proved; "whole identifier" violated; random identifiers are the little endian value of the bytes |
| C43 | AppendByteDigits | finite byte domain, arbitrary prefix |
| C44 | glyph sections | round trip through `Build` and the mask encoder, exactly up to the 24-bit limit (violated beyond, by a reachable builder) |
| C45 | Parse | `parseBody_iff`: the parser as a program over the whole data succeeds exactly on `Tolerated` data; well-formed ⇒ accepted; missing kerning tables and trailing data are accepted (violation witness) |
| C46 | ParseEditionData | `editionBody_runs`/`editionBody_panics`: exact runs of the method as a program over the data (`Ed.Runs`, `Ed.Panics`), `exec_plain` to readers; what steps keep (`parseEditionData_keeps`) for errors. Violations: `specified_format_violated` (32-bit counts), `conforming_violated`, `end_violated`, `never_panics_violated` (for every builder), `unchanged_violated` |
| C47 | builder methods, Build | `Calls`: a second invariant of the public methods (shapes of mapping entries and rules, sizes, names) proved over `Call`/`Edits`; every section of `Build` is `Calm` (no panic) for reachable `Orderly` builders whose masks can be encoded (`build_calm`); success implies `Orderly` (`build_needs`); `Grows`: what no method takes back. Violations: one reachable witness per condition |
| C48 | Build, builder methods | `Errs P x`: the errors of `x` satisfy `P`, carried through every section (`build_errs`: only `TooLarge` errors for `WellMade` builders); `Refs`: a third invariant of the public methods (references in sets and rules exist); `Steady`: settings and elements of sets are never removed (`slices.Delete(s, i, i)` removes nothing), hence `Doomed` builders stay so; `Spec.Size.fontSize` counts the bytes of all sections, each section of Build has this length (Lemmas/Size.lean) |
| C49 | printer and recursive compiler of conditions (fuel; running out for every fuel is non-termination), the regular expression as a scanner | induction over conditions for printing; unique reading of printed text (`sub_inj`); decomposition of every definition into spaces, comparison and rest |
| C50 | Validate and its parts | `validate_iff`: the checks of the sections are those of `Spec.Valid`; `valid_of_tolerated` from C45, `Built.valid_iff` from the bytes of built sections |
| C51 | GoColorPalette over EachDye/EachPalette | loops over sections whose ends rise append exactly `colorTable`; a first section that does not rise panics; built sections from C39 |
| C52 | Date.String, GlyphRange | digits by induction on the value; `text_inj`: first byte and spaces tell the four forms apart, month names are distinct and digits give back their value |
| C53 | builder → Build → Export → Parse → accessors | `same`: the font that is read is the one that was built (C18); then the theorems on built fonts, with their hypotheses from the invariants of reachable builders |
| C54 | builder → file → tester → output | rules of reachable builders are patterns with a history (`Reachable.madeRules`); their bytes are the codes of C35, whose `Batch` is a `Rewritten` by one replacement for each choice of glyphs of the sets (`meant`, read from the file by `glyphSets`); `SetsUsable` is `Tidy` in terms of the builder; `determined`: the rewriting is unique; from histories of calls (`History.replacements`: without sets, the inputs of rules are glyphs); `built_utf8_wide`: the codes of all rules over code points, hence `refused_violated` from C35; `built_glyph_wide` and `unscanned_never`: the same for outputs that the scanner refuses |
| C55 | methods as data (`Spec.Method`), a history is the list of successful calls | `Method.effect`: what each call changes; induction over the history for fields, lists, mapping, sets, kerning and glyphs; `complete`: histories and reachable builders are the same; reading back by C53; kerning after edition data was loaded: histories determine builders (`History.unique`), so that C46 applies to the builder at the time of loading, and the calls since then keep classes and pairs (`KernKept`) |
| C56 | outcome of every method as a condition (`Spec.Method.Accepts`, `Method.Panics`) | `Outcome`: conditions of checks in sequence; C07, C08, C11 for names, dates and masks; invariants of reachable builders for references |
| C57 | queries with an answer (`Spec.Answers`) | C15 for the inside, the first check of each accessor for the outside; `Built.inner_iff`: end offsets of built fonts, section by section |
| C58 | Build with other orders of the Go maps (`Spec.SameContent`, `Env`) | sections depend on maps through `get`, sizes and sorted keys (`Built.withMaps`); with one word that is not predefined no index is reassigned, so that the map of words is the same list (`settingWords_one`); C40 for two words |
| C59 | files: results of `Open`, `Stat`, `Close` and the reads are arbitrary (`ParseFile.File`); runs keep the calls | by cases on the results; `built` is C18 |
| C60 | `Spec.Demand.Holds` reads the demands of `specification.md` off the data of the font, with the readers of Spec/Format.lean and Spec/Sections.lean | `accepted_tolerated` (Parse accepts only tolerated data) gives the enforced demands; a font with two of everything, changed in one byte each, breaks the others. For Build: Lemmas/DocumentBuilt.lean reads every section of a built font back (`Built.*_demands`), with the invariants of reachable builders (`Kept`, `Calls`, `MadeRules`); a reachable builder for each of the twelve demands that fail |
| C61 | Writers are functions from bytes to what a call of `Write` returns (`Written`), `Takes` says that all was taken; the result of closing is a parameter | by cases on the results of each step; `C58.again` for repeated exports |

## Seeded changes

`seeded/LOG.jsonl` has one line for each wrong program that was tried: an edit of one definition of the model, and the
declarations that stopped compiling (`failed`). Read it with this limit in mind.

- A run stops soon after its first error, so `failed` names what broke first, which need not be the property theorem.
- In about four of five entries (737 of 942 when counted) this is a helper lemma under the properties in
  `property_modules`. These show that the edit does not go through unnoticed. They do not by themselves show that a
  property theorem became false: the script of the lemma may have depended on the text of the definition.
- In 198 entries a theorem or an example in `Props/` failed itself; also there the failure is that of a proof.
- Where this was checked by repairing the script of the helper, the entry has a note (the two of `glyphKind` in C31).
- Nine of the entries that stop at a helper, drawn at random from those of the modules that build quickly, were tried
  again with the failing helpers left unproved in a scratch copy. In three an example in `Props/`, checked by computation,
  then failed (`Tree.feed`, `clearFrom`, `ascent`). In five the module built, which is inconclusive, as the helpers are
  assumed; reading them, the helper itself is false after the edit (`validateColor`, `parseSwitches`, `staircase`,
  `operatorText`, `Buf.clear`). One was not settled (`evaluateSwitch`: only the first of its three modules was tried).
  The other entries of this sort were not tried again. Examples were then added to C49 and C50 for two of the five. With
  the one in C49 the edit of `operatorText`, tried in the same way, fails in `Props/`; the one in C50 was not retried.
- `tightened` names theorems that were added for an edit. Edits that survived and are equivalent are kept with a note.

<!-- findings -->
## Disagreements between code and properties

Each is proved with a concrete witness (or for all inputs, as stated); the `_partial` theorems of the same file say
what holds instead.

- `C04.large_capacity_violated`: Disagreement 1, for every capacity above 32768 that the `uint16` capacity allows (so the bound in the theorems above is the best possible): after the head has moved to the last slot, of `65538 - cap` ones pushed only the first `65537 - cap` come out again; the last is lost and the old content of an unused slot is returned instead. (`unsafeLastElemIndex` is off by one when the sum of head and size overflows.) The elements fit.
- `C04.pop_while_peeking_violated`: Disagreement 2: removing elements while peeks are outstanding. After peeking twice past the head of `1 2 3` and popping the tail, the next peek reports that there is a further element and returns the head again.
- `C05.resize_empty_violated`: Disagreement, for all capacities: shrinking an emptied buffer whose head sits at the new capacity leaves the head outside the buffer. `Push` still works but `Head` panics.
- `C07.accepted_outside_grammar_violated`: C07 is violated : `"1a"` and `"a--b"` are accepted although they are not in the grammar.
- `C08.isValid_violated`: C08 is violated. `IsValid` panics on the year-only date 2020 and on the undefined date, which are valid: `monthDays[self.Month - 1]` is evaluated with `Month == 0`.
- `C12.parse_independent_violated`: The same bytes are accepted from one reader and make `Parse` panic from another.
- `C13.trailing_violated`: A font with a byte after its end is accepted.
- `C13.truncated_violated`: A font cut short is accepted.
- `C14.never_panics_violated`: `Parse` panics on a font followed by one more byte.
- `C15.ordered_violated`: Two offsets can be equal.
- `C15.accessors_violated`: `Advance` of an existing glyph of an accepted font panics (the end offset of glyph 0 was replaced by the largest one).
- `C15.kerning_violated`: The kerning accessors of an accepted font panic when it was cut off.
- `C16.family_violated`: The bound of `family_partial` is exact: whatever the other fields, with a longer name there is a family name that is not read back.
- `C16.author_violated`: The bound of `author_partial` is exact.
- `C16.about_violated`: The bound of `about_partial` is exact (with 223 or 224 bytes the accessor panics).
- `C16.built_violated`: A builder with a name of 226 bytes, all set with the public functions: the built font has another family name.
- `C18.parse_built_violated`: The statement does not hold.
- `C18.misread_violated`: A font is read as another one.
- `C19.same_length_violated`: When all names have the same length, only the first is found.
- `C19.built_same_length_violated`: In every built font whose glyph names have the same length, only the smallest name is found.
- `C19.complete_violated`: In a font with the glyph names `a` and `b`, the name `b` is not found. With `az` and `baz`, the name `baz` is not found.
- `C20.vert_violated`: In general vertical kerning does not read back: `Build` panics for a vertical pair without horizontal pair, and otherwise stores the horizontal value.
- `C20.unknown_glyph_violated`: `SetKerningPair` does not check the glyphs; `Build` panics for a pair of an unknown glyph.
- `C21.large_violated`: A builder with 32500 code points whose entries take 517 bytes each: `Build` returns a font, in which the lookup of a mapped code point panics whatever the settings.
- `C22.select_violated`: The second glyph of the list for F, which is 1, cannot be selected: choice 1 gives the third glyph and choice 2 is read from the section that follows.
- `C22.flags_violated`: The flags of the range for E are 9, those returned are 0.
- `C22.order_violated`: The order in which glyphs are given to `MapGroup` is not kept: the glyphs 1003, 1002, 1001 have indices 2, 1, 0 and are stored as a range from 0.
- `C23.numCases_violated`: A switch on 64 settings with two options each: no groups are asked for.
- `C23.injective_violated`: Two settings with 17 options: the combinations (0, 0) and (15, 1) have the same case.
- `C23.surjective_violated`: And the cases from 256 on are not reached by any settings, although 289 groups are required.
- `C24.case_violated`: A range before the evaluated case: the second group for C is the range 2, 3. The lookup gives a place inside of other data, from which selection reads glyph 511.
- `C24.overflow_violated`: With 2^64 combinations, no glyphs are asked for, and none is accepted for A. The font is parsed back, and has four glyphs. The lookup of A finds data of another code point, from which selection reads the glyphs 9 and 10.
- `C24.mapWithSwitch_violated`: `MapWithSwitch` with single glyphs among the groups: flags are collected for groups of two and more glyphs only, but taken with the index of the group. Correct calls panic.
- `C25.transparent_violated`: A setting is changed and 2^32 drops are requested in all: the next lookup has the old glyph.
- `C25.switchType_violated`: The second lookup of a code point has lost the switch type.
- `C26.lru_violated`: For every font and every size from 2 on: look up one more code point than fit, all different. The code point before the last one has been evicted, although all others were used before it.
- `C26.free_entry_violated`: A cache that is not full also evicts: after A, B, A with three entries, C replaces B.
- `C28.evaluate_violated`: Every evaluation of a well-formed first condition panics, whatever the font and the settings.
- `C28.comparison_violated`: General comparisons compare the index of the setting, not its value.
- `C28.settings_violated`: The same when two settings are compared.
- `C28.short_circuit_violated`: A group that is decided by its first term goes past the term after the group.
- `C28.later_violated`: The offsets of the other conditions are not read right. The third, fifth, ... condition always panics, as long as all conditions take fewer than 256 bytes; the second, fourth, ... one unless 1024 bytes or more follow.
- `C28.offsets_violated`: The second of two conditions is not found, even with the additional byte.
- `C30.utf8_ranges_violated`: The digits are reported as the digit zero.
- `C31.output_violated`: The builder takes rules without output elements and rules with more of them than the body, which the scanner refuses.
- `C31.rune_error_violated`: The builder takes the code point U+FFFD, which the scanner refuses.
- `C31.start_violated`: A rule that ends before its first control byte: `Start` panics.
- `C31.control_violated`: A control byte zero where elements are due: the error is dropped by `Start` and `Next` panics.
- `C31.trailing_violated`: Bytes after the end of the rule: `Next` panics.
- `C31.truncated_violated`: A rule cut off after the control byte of its tail is accepted, with the tail missing.
- `C31.empty_violated`: A rule without input elements is accepted although its body has two.
- `C32.sharing_violated`: A state shared by the elements of a set is freed when one of them is relinked: the rule with index 0, a set with 1 and 5 followed by 2 3, matches 5 2 3 on its own; after adding the rules 1 2 4 and 9 2 7 it no longer does, and 5 2 2 7 matches the last rule.
- `C32.stale_violated`: The pointer to the state is stale after its slice was reallocated: the rule with index 1, a set with 1 to 10 followed by 3, does not match 7 3 when the slice moves, and it does when the slice stays.
- `C32.empty_set_violated`: A set without elements at the start of the first rule panics, if the rule has more elements, whatever these and the other rules are.
- `C32.empty_set_utf8_violated`: The same for code points.
- `C32.no_rules_violated`: A tree compiled from no rules panics on any input.
- `C33.split_glyph_violated`: In the positions of `Split`, compiling always panics.
- `C33.taken_glyph_violated`: In the positions of `Taken`, the tree compiles and the second rule always takes the first input of the first one, which was added before.
- `C33.inside_glyph_violated`: After a rule that is one set with one range of several glyphs, no rule can be added that begins with a single glyph of the range, however it goes on and whatever rules come later.
- `C33.inside_utf8_violated`: The same for code points.
- `C33.inside_any_glyph_violated`: More generally, after any rules that start apart (those of `C32.apart_glyph_partial`), no rule can be added that begins with a single glyph of a range of several glyphs with which one of them begins, however both go on and whatever rules come later.
- `C33.inside_any_utf8_violated`: The same for code points.
- `C34.ignored_violated`: The output of a sequence is the same for any two assignments of the settings, whatever the conditions of the rules say.
- `C34.false_violated`: The rule that replaces 3 by 9 when the setting is 1 is applied when it is 0 too.
- `C35.more_outputs_violated`: A tester with one glyph rule with more than one output element, given an input of that rule: never the output of the rule.
- `C35.more_runes_violated`: The same for code points.
- `C35.outputs_violated`: The rule that replaces 1 2 by 6 7 only gives out the 6, for glyphs and for code points.
- `C35.tails_violated`: Longer tails, and heads that begin in tails. The rule that replaces 1 1 2, before 3 4, by 9 works with 1 1 2 3 4; with 1 1 1 2 3 4 it panics. With the rules that replace 1 2, before 3, by 9, and 4, after 3, by 8, the last element of 1 2 3 4 is both replaced and put out.
- `C35.inside_violated`: No sequence at all can be processed when a rule begins with a glyph of a range (of several glyphs) with which an earlier rule of the same condition begins, even if the rules before it start apart: whatever the other rules, the growth of slices, the shared compiler, the settings and the sequence.
- `C35.inside_runes_violated`: The same for code points.
- `C35.empty_set_violated`: Nor can one be processed when the first rule of a condition begins with a set without elements and has more elements.
- `C35.empty_set_runes_violated`: The same for code points.
- `C35.refused_violated`: Nor can one be processed with a rule that has a word that is no glyph, wherever and whatever the other rules: adding the rule is no error.
- `C35.refused_runes_violated`: The same for the code point U+FFFD, which builders take (`C31.rune_error_violated`).
- `C35.outputs_refused_violated`: Nor with a rule without output, or with more outputs than elements in its body, for glyphs and for code points.
- `C36.tail_violated`: With the rules that replace 1 2, before 1, by 9, and 2, after 1, by 8, the sequence 1 2 gives 1 8. After the sequence 1 2 1 it gives 8 1 8, and the sequence 1 2 1 itself panics.
- `C37.begin_violated`: After any error when a sequence begins, the compiler is left in the middle of a compilation and the tester in the middle of a sequence: rules can not be removed or added.
- `C37.resync_violated`: The same compiler after an error of `Resync`.
- `C37.stuck_violated`: With such a compiler, every tester that has to compile panics, whatever its rules, when it begins a sequence.
- `C37.limits_violated`: A rule that takes any element of a set of 255 glyphs or more, listed or as ranges of one, is accepted but can't be compiled. From then on other fresh testers with rules panic when they begin a sequence, with the same compiler.
- `C38.no_rules_violated`: Without rules, the first element that is not ignored or refused panics, whatever the variant.
- `C39.built_violated`: The builder accepts dyes without alphas and empty names; the accessors of the built font panic.
- `C39.eachDyeAlpha_violated`: But it always returns an error, also for the dyes that it found.
- `C39.eachPaletteColor_violated`: `EachPaletteColor` of the builder counts the colors of dyes instead of those of palettes. With dyes of 1 and 3 alphas and palettes of 2, 1 and 1 colors, the third palette gets 247 instead of 248, and the first two make it panic for there is no third dye. Without dyes it panics.
- `C40.order_violated`: With two different options that are not predefined some order of iteration makes `Build` succeed with a font in which an option has the name of another one.
- `C40.swapped_violated`: With the real words: the same builder and two orders.
- `C40.no_options_violated`: The number of options of a setting without options can't be asked for.
- `C41.range_violated`: Removing a range that is in the set never works.
- `C41.set_violated`: But `Build` fails from then on, whatever else the builder has. (Both lists have the same length in every builder before the first removal, see `order_kept`.)
- `C41.rune_set_violated`: No set of code points can be created: there is an error or a panic.
- `C42.whole_identifier_violated`: C42, violated part. "The estimate takes the whole identifier into account" is false: the pattern loop shifts by one bit per iteration (`value >>= 1`) but only runs 32 times, so for every identifier the upper 31 bits can be replaced by anything (in particular by zeros) without changing the estimate.
- `C44.masks_violated`: A builder with 56000 glyphs that take 304 bytes each: `Build` returns a font, but some of the masks are lost.
- `C45.accepts_exactly_violated`: Data that is no font is accepted: its kerning tables are missing.
- `C46.never_panics_violated`: For every builder with up to 65535 glyphs there is data that makes the method panic.
- `C46.specified_format_violated`: A file of the specified format is rejected: the code reads 32-bit counts.
- `C46.conforming_violated`: Data that contradicts the specification is loaded: a category is larger than the font, and the class of a pair does not exist.
- `C46.end_violated`: Data after the contents is not noticed when it arrives with them, and is a panic when it arrives later.
- `C46.unchanged_violated`: A pair that was read before the error stays.
- `C47.sizes_violated`: The conditions on sizes do not come for free.
- `C47.dyes_violated`: 256 dyes.
- `C47.mapping_violated`: A glyph that does not exist in a mapping.
- `C47.group_violated`: A group of 129 glyphs.
- `C47.removed_violated`: A set that has been removed.
- `C47.ranges_violated`: A set of 255 ranges.
- `C47.list_violated`: A set of 255 glyphs.
- `C47.body_violated`: A rewrite rule without body.
- `C47.output_violated`: A rewrite rule with 256 glyphs as output.
- `C47.kerning_violated`: Kerning for a glyph that does not exist.
- `C47.vertical_violated`: A vertical pair that is no horizontal pair, from edition data.
- `C47.class_violated`: A class that does not exist, from edition data.
- `C47.mask_violated`: A mask far from the origin.
- `C48.removed_range_violated`: A range that has been removed, according to the method, is still there, and keeps `Build` from working.
- `C49.compiled_violated`: The other forms lack their last byte: they are no condition, and cannot be printed.
- `C49.group_violated`: No group survives: what is printed for it does not compile.
- `C49.unending_violated`: Compiling does not end (and overflows the stack) exactly for definitions that begin with a parenthesis.
- `C49.panic_violated`: Compiling panics exactly when a number does not fit 64 bits.
- `C50.built_violated`: `Build` returns fonts that are not valid.
- `C50.accepted_violated`: Valid fonts can be exported, but not all of them can be parsed again: here a dye has no alphas.
- `C50.strict_violated`: No font at all passes strict validation.
- `C51.parsed_violated`: `Parse` accepts a font whose second dye has no alphas; its colors cannot be listed.
- `C51.index_violated`: The indices that the builder reports for the alphas of its dyes are not those of the colors of the font.
- `C52.missing_violated`: A missing month is not left out when there is a day (the date is invalid, but has no text either).
- `C54.outputs_violated`: A replacement of two glyphs by two glyphs, added with the public methods and read from the file: only the first one of the two is put out.
- `C54.refused_violated`: With a replacement of a text with U+FFFD, which builders take, no text at all can be processed with the rules of the font read from the file, whatever the other ones, the settings and the state of the compiler.
- `C54.refused_calls_violated`: The same from the calls.
- `C54.outputs_refused_violated`: With a replacement of glyphs without output, or with more outputs than elements in its body, which builders take, no sequence of glyphs at all can be processed.
- `C54.outputs_refused_calls_violated`: The same from the calls.
- `C54.inside_violated`: Three replacements, added with the public methods and read from the file: two that may not start with the same glyph, as above, and one of a glyph of the set with which the first one begins. With all of them no sequence of glyphs can be processed, whatever the settings and the state of the compiler.
- `C56.refused_violated`: Every kind of panic occurs, for every builder or for one made with the public methods: a date without month and day, which is a right one (`C08`); a set of code points, whatever the builder; a switch that does not exist when its number is over 253; a switch with a setting without options; a group of one glyph among the groups of a switch, for which `MapWithSwitch` expects no animation flags; an empty group.
- `C57.masks_violated`: `RasterizeMask` returns a mask for glyph 4 of a font with three glyphs, none of which has pixels: it takes the placements for end offsets and for raster operations.
- `C57.empty_violated`: The second dye of this builder has no alphas, but it can't be asked for its number of alphas.
- `C58.orders_violated`: With two options that are not predefined words, the same builder always gives different fonts for some orders: in one of them an option has the name of another one.
- `C59.leak_violated`: Files that are too large, or whose size can't be told, are never closed by `ParseFromFS`.
- `C59.panics_violated`: No function closes the file when `Parse` panics.
- `C60.parse_violated`: All others are violated by fonts that `Parse` accepts.
- `C60.build_violated`: The demands of `broken` are violated by fonts that are built.
<!-- /findings -->
