# Formal model of npillmayer/uax in Lean 4

This file says what is modelled, how each property of `properties.jsonl` is
proved, what the model found out about the code, and what has to be trusted. It
is updated together with the model.

## Method

* The Go code in `/repo` is read as text and transcribed, function by function,
  into total computable Lean functions. Each definition cites file and lines and
  says what it simplifies.
* Go `int` is `Int` or `Nat` (no overflow), slices are `List`, a mutated pointer
  receiver becomes a returned value, `panic` is an explicit outcome (`none`, or
  `Run.panics`). A loop that need not end gets a number of rounds and the outcome
  `Run.running` if these are used up; "returns" means: for some number of rounds.
* External inputs (Unicode range tables, `unicode.IsSpace`, `x/text` lookups,
  readers, schedules of goroutines) are parameters: theorems hold for all of them.
* Specifications live in separate files (`Spec*.lean`) and do not use helpers of
  the model; where a standard is meant, its rules are written down again from the
  text of the standard. Property theorems live in `Verif/Props/*.lean`, with
  examples which meet their hypotheses.
* A property that the code violates has a theorem `Cnn_..violated` with a concrete
  input, and a theorem `Cnn_.._partial` for all inputs for which it does hold. The
  comment of a partial theorem says what is missing.
* `decide +kernel` is used only for closed finite tables as a whole (rule tables,
  combinations of classes) and for examples and counterexamples.

## Modules

| Part of /repo | model | lemmas | specification | properties |
|---|---|---|---|---|
| `segment/deque.go` | `Deque` | `DequeProofs`, `DequeCap` | `SpecDeque` | `Props/Deque` |
| `prioq.go`, `automata.go` | `Publisher`, `Recognizer` | `PublisherProofs`, `Bank` | `SpecPublisher` | `Props/Publisher` |
| `segment/segment.go` | `Segmenter` | `Segment*`, `CutAfter`, `Decide` | `SpecSegment` | `Props/Segment`, `SegmentCalls`, `SegmentExamples`, `SegmentBuffer`, `SegmentRest`, `SegmentMixed`, `SegmentBytes` |
| `segment/simplewordbreak.go` | `SimpleWord` | `SimpleWordProofs` | `SpecSegment` | `Props/SimpleWord` |
| `grapheme/grapheme.go` | `Grapheme` | `Grapheme*` | `SpecGrapheme` | `Props/Grapheme` |
| `uax29/uax29.go` | `Word` | `Word*` | `SpecWord` | `Props/Word` |
| `uax14/uax14.go`, `rules.go` | `Line` | `Line*` | `SpecLine` | `Props/Line` |
| graphemes, words and lines of a text, line by line and group by group | | `ByLine`, `Regroup`, `RegroupLine` | `SpecByLine` | `Props/ByLine`, `Props/Regroup` |
| two breakers in one Segmenter (`segment/segment.go`) | `both` in `TwoBreakers` | `TwoBreakers` | `BothCuts`, `groups` in `Props/TwoBreakers` | `Props/TwoBreakers`, `Props/TwoSimple` |
| graphemes within words and lines | | `Inside`, `InsideLine` | `SpecInside`, `SpecInsideLine` | `Props/Inside`, `Props/InsideLine` |
| `grapheme/string.go`, `uax.go` | `GString`, `Utf8` | `GStringProofs`, `Utf8Proofs` | `SpecGString` | `Props/GString` |
| `uax11/width.go`, `emoji/emoji.go` | `Width` | | | `Props/Width` |
| `grapheme/graphemeclasses.go`, `uax29/uax29classes.go`, `emoji/emojiclasses.go` | `TablesGrapheme`, `TablesWord`, `TablesEmoji`, `ClassTables` | `RangeTable` | | `Props/ClassTables` |
| the same, for ASCII texts | | | | `Props/Ascii`, `Props/AsciiWidth` |
| `SetupGraphemeClasses`, `SetupUAX29Classes`, `SetupClasses`, `SetupEmojisClasses`, look-ups of classes, as concurrent goroutines | `Setup` | | | `Props/Setup` |
| `internal/ucdparse` (`Parse`, `Token`, line buffer, test files), callbacks of `internal/tablegen/main.go` and `bidi/internal/gen/brackgen.go`, loops of the class generators | `Ucd`, `TablesBracketFile` | `UcdLines`, `UcdProofs`, `UcdTests` | `SpecUcd` | `Props/Ucd` |
| `shaping/*tables.go`, `internal/ucdparse/gentables.go` | `TablesArabic`, `TablesPositional`, `TablesSyllabic`, `TableGen` | `RangeTable` | | `Props/Shaping` |
| `bidi/trie/hashtrie.go`, `bidi/uaxrules.go` | `BidiTrie` | `BidiTrieProofs`, `TrieInv`, `TrieWords` | | `Props/BidiRules`, `Trie` |
| `bidi/scrap.go` | `Bidi` | | | |
| `bidi/brackets.go`, `bracketpairs.go` | `BidiBrackets` | `BidiBD16`, `BidiLookup`, `BidiHouse`, `BidiHouseSim`, `BidiSequences`, `BidiN0Scan`, `BidiN0`, `BidiPaint`, `BidiPairs`, `BidiPairsResolve` | `SpecBrackets`, `SpecN0` | `Props/BidiBrackets`, `Props/BidiSequences`, `Props/BidiN0`, `Props/BidiPairs`, `Props/BidiPairsVisual` |
| `bidi/scanner.go` | `BidiScanner`, `BidiOptions` | `BidiScanProofs`, `BidiScan`, `BidiText`, `BidiChars`, `BidiMarkup`, `Malformed`, `Invisible`, `BidiLetters` | `SpecBidi`, `SpecBidiText`, `SpecBidiMarkup`, `SpecMalformed`, `SpecInvisible` | `Props/BidiScan`, `Props/BidiMarkup`, `Props/Malformed`, `Props/BidiLetters`, `Props/Invisible` |
| `bidi/resolver.go`, `actions.go` | `BidiParser` | `BidiParserProofs`, `BidiPass*`, `BidiWhole`, `BidiTile`, `BidiResolve`, `BidiSame`, `BidiEndless`, `BidiGoroutine`, `BidiKeeps`, `BidiConform`, `BidiDirections`, `BidiVisual`, `BidiLtr`, `BidiRtl`, `BidiSim`, `BidiIso*`, `BidiNest*`, `BidiUnlike`, `BidiHeaded`, `BidiReturns`, `BidiTwin*` | `SpecBidi`, `SpecBidiText`, `SpecBlocks`, `SpecVisual`, `SpecIsolates`, `SpecNested`, `SpecIsoVisual` | `Props/BidiResolve`, `Props/BidiIsolates`, `Props/BidiNested`, `Props/BidiOwn`, `Props/BidiDirections`, `Props/BidiSeparators`, `Props/BidiVisual`, `Props/BidiIsoVisual`, `Props/BidiOneDirection` |
| `String` methods of classes, kinds of tokens, `ResolvedLevels`, `Run` | `Names` | | | `Props/Names` |
| `bidi/reordering.go` | `BidiReorder` | `BidiReorderProofs`, `BidiOrderProofs`, `BidiSplitProofs`, `BidiRunsProofs`, `BidiSplitLines` | `SpecBidi`, `SpecSplit` | `Props/BidiReorder`, `Props/BidiSplit` |

The modules `Tables*` are written by `tools/gentables.py` from the Go literals in `/repo`; nothing else is
generated. That script has to be trusted: it copies runes and ranges (joining neighbouring runes of the
`rangetable.New` literals). `RangeTable` models `unicode.Is` for the literals of `shaping`; for the tables made by
`rangetable.New`, lookups are taken as membership.

Not modelled: tracing and the `String` methods used by it only; the text which the code generators in `internal/tablegen` and
`*/internal` write, beyond the tables it denotes; the class tables of `uax14`, which are not in `/repo` (parameters); the
libraries `golang.org/x/text` and `go-commons-pool` (parameters, and assumptions about
the pool stated in `Recognizer.lean`). Theorems about breakers hold for all tables of classes; those of `Props/ClassTables`
are about the tables in `/repo`.

## How the proofs go

* Segmenter (C01–C13, C45, C46). A state machine for arbitrary breakers. For C01, C03,
  C05, C11: the runes handed out, followed by those queued, are the runes read, by
  induction over calls. For C02, C04, C13, C45: penalties are accumulated per position;
  `SegmentBatch` shows that calls of `Next` equal cutting the queue eagerly, `SegmentClosed`
  and `SegmentSteady` give the closed form: cut where the sums are feasible. For C06, C07,
  C08: simulation between two segmenters.
* Queue (C14, C15): abstraction of the ring buffer to a list, a commuting square for every
  operation, lifted to sequences of operations.
* Publisher (C16–C20): the queue's invariant "not done before the gap, done after";
  delivery treats the queue in reverse exactly once.
* Set-up (C60): goroutines interleave between any two accesses of shared memory. Invariants: the tables of a
  package are those assigned so far by the one goroutine inside of its `Once`; a goroutine in a loop over
  classes has seen no match before, if set-up is done. A measure bounds the moves of a call.
* ASCII (C58, C59): the closed forms of the breakers' segments, with the classes of 127 characters computed by the kernel.
* Breakers (C21–C29): `Bank` shows that recognizers do not interfere; so the active
  recognizers are a function of the classes read (an automaton). The sums of penalties
  are computed for all combinations of classes and compared with the rules of the standard.
* Grapheme strings (C30–C33): UTF-8 decoding and encoding are inverse to each other;
  composition with the segmenter and C22.
* Two breakers (C77): what a Segmenter with two breakers hears is, at each rune, the pair of what two Segmenters with one breaker each hear (`verdicts_both`). So each of the sums of penalties is that of
  one of the breakers, and a position is decided when both of them have no match open there. The lemmas about single breakers say when that is, and what the sums are then.
* Words, lines and graphemes (C75, C76): wherever the rules of UAX#29 forbid a boundary of graphemes, those for words (lines) forbid one of words (lines), if the classes of the two
  tables go together (covering of tables, checked as a whole); a cut at fewer places gives groups of the finer segments.
* Malformed text (C78, C80): a relation says how bytes are read (`ReadsAs`); it is total and a function, and the tokens of the bidi scanner and the runes of a reader are those of the text it gives.
* Invisible characters (C79): a text of one direction is one run, so what is displayed is the text or its reverse, and taking characters out commutes with that.
* Letters (C81): a byte of a letter is in a scrap of class L or R when the scanner sends it; the rules of pass 1 do not touch such scraps and those of pass 2 join them only with scraps of their class. The scraps stay in order, even where they do not tile the text, so DirectionAt finds this scrap.
* Numbers (C82): a byte of a European number is in a scrap of class EN when the scanner sends it; every rule of pass 1 which takes such a scrap makes a scrap of class EN or L that covers it. After pass 1 there is no class EN, so the scrap is left-to-right text, and the argument for letters goes on from there.
* Width (C34–C36): case analysis. Names (C74): the tables of names as a whole, other numbers by the decimal notation being injective.
* Tables (C53–C57): intervals are sorted lists; membership, disjointness and intersection are computed by
  verified functions on intervals, evaluated by the kernel for the tables as a whole; the generator is an induction over rows.
* Rule lookup (C40): the trie is computed by the kernel from the rule table; lookups are
  proved for all sequences.
* Hash trie (C66): an invariant of the three tables (`TrieInv`): links lead from a node to the header of its children and
  back, siblings form a ring of exactly the children. A family that moves is an isomorphic copy.
* Resolver (C37, C41–C43, C50, C51): the scanner is a machine that runs concurrently with the
  parser under an arbitrary schedule; `BidiScanProofs` shows that its stream of scraps is a
  function of the text. Without isolates the parser's stack and the unread scraps together
  are one list (`BidiPass1`, `BidiPass2`), on which the passes are rewriting; invariants of single
  steps are parameters of the termination proofs (`BidiPass1Total`, `BidiPass2`). With isolates (`BidiIso*`) the scraps have an outline, in which each
  isolate is one neutral scrap with its run nested in it; the parser turns the scraps into the outline while it reads, and a run of
  the parser on the scraps is simulated by one on the outline. `BidiNest` does this by induction on the nesting, with a bound on how far the parser has read ahead at each level (`Far`). `BidiNestOut` and `BidiNestSeq` carry the classes of the bytes outside of the isolates through both passes and compare them with the rules for the isolating run sequence; `BidiNestBody` and `BidiNestDirections` do the same for the text of each isolate. `BidiUnlike` shows that no two neighbours left by the second pass have the same direction, `BidiHeaded` that nothing neutral is left, and `BidiReturns` what reordering makes of such scraps. That an isolate is resolved like a paragraph (C69) is shown by two runs in
  lockstep, on scraps that differ in their positions only (`BidiTwin`).
  For brackets in isolates (C37) the handlers at the end are a function of the text (`BidiHouse`), and an invariant ties each handler to
  one isolating run sequence (`BidiHouseSim`). For the directions of pairs (C71) the contexts which the scanner attaches to brackets are
  computed from the letters of the text (`BidiN0Scan`); an invariant of pass 2 follows one pair and the state of its handler through its
  three phases, before, between and after its brackets (`BidiN0`). For the directions of whole texts with brackets (C52) the scraps are
  those of a text without brackets, in which each bracket is painted with its direction beforehand; both passes on the scraps and on the
  painted ones go together (`BidiPaint`).
* Markup (C67): the scanner with a markup function and the scanner of the text with delimiters are related by a simulation (`BidiMarkup`);
  `BidiSim` shows that surroundings of the parser that answer alike lead to the same result.
* Reordering (C38, C39, C44, C47–C49, C72): structural induction over scraps and nested runs; for lines (C72) what Split keeps of scraps of alternating directions is again such a list, perhaps with an empty scrap at its end. For the visual order of texts with isolates (C63) both sides, rule L2 for the levels of all characters (`BidiIsoVisual`) and the runs which flattening makes of the scraps (`BidiIsoShown`), are shown to be one order given by the scraps; `BidiIsoPlace` and `BidiIsoLevels` show that the scraps of a resolved text have the places and levels this needs.

## Properties

Status and theorems (all in namespace `Uax`). The last column gives the axioms: p = propext,
q = Quot.sound, c = Classical.choice.

| id | property | status | theorems | axioms |
|---|---|---|---|---|
| C01 | Segments are consecutive pieces of the input | proved | `C01_segments_are_consecutive`<br>`C01_next_delivers_prefix`<br>`C01_mark_can_be_delivered` | cpq<br>cpq<br>p |
| C02 | Segmentation cuts exactly at the feasible positions | proved | `C02_steady_breakers`<br>`C02_cuts_exactly_at_feasible_positions`<br>`C02_slice_cuts_exactly_at_feasible_positions` | cpq<br>cpq<br>cpq |
| C03 | Complete consumption of the text | proved | `C03_withheld_after_last_feasible`<br>`C03_all_text_delivered` | cpq<br>cpq |
| C04 | Reported penalties are the aggregates at the break | proved | `C04_penalties_are_sums` | cpq |
| C05 | Progress and termination of Next | proved | `C05_terminates`<br>`C05_false_is_final` | cpq<br>cpq |
| C06 | Slice input and reader input agree | proved | `C06_slice_and_reader_agree`<br>`C06_needs_polite_breakers` | cpq<br>p |
| C07 | Re-initialising a Segmenter forgets the previous text | proved | `C07_init_forgets`<br>`C07_slice_init_forgets`<br>`C07_err_is_not_forgotten` | cpq<br>cpq<br>p |
| C08 | Read errors stop segmentation and are reported | proved | `C08_read_errors_are_reported`<br>`C08_eof_is_not_an_error` | cpq<br>p |
| C09 | A segment is never silently truncated | partial | `C09_truncated_silently`<br>`C09_violated`<br>`C09_short_segments_complete_partial` | cpq<br>cpq<br>cpq |
| C10 | BoundedNext does not hand out text beyond the bound | partial | `C10_violated`<br>`C10_bound_respected_partial`<br>`C10_empty_segments_for_ever` | p<br>cpq<br>pq |
| C11 | Mixed histories of Next and BoundedNext lose no text | proved | `C11_no_text_is_lost` | cpq |
| C12 | Using a Segmenter before Init is reported, not fatal | partial | `C12_violated`<br>`C12_bounded_next_before_init_partial` | p<br>pq |
| C13 | Feasibility of penalties | partial | `C13_last_setting`<br>`C13_feasible`<br>`C13_next_breaks_at_feasible`<br>`C13_after_bounded_partial`<br>`C13_after_bounded_violated` | cpq<br>cpq<br>cpq<br>cpq<br>p |
| C14 | The rune queue behaves as an ideal double-ended sequence | proved | `C14_deque_refines_list`<br>`C14_lastRune`<br>`C14_panics_only_when_empty_or_out_of_range` | cpq<br>cpq<br>cpq |
| C15 | Queue capacity discipline | proved | `C15_capacity_power_of_two`<br>`C15_capacity_at_most_four_times`<br>`C15_clear_keeps_buffer` | cpq<br>cpq<br>cpq |
| C16 | Every subscriber sees every rune event exactly once | proved | `C16_each_subscriber_exactly_once`<br>`C16_history`<br>`C16_needs_stay_done` | cpq<br>cpq<br>p |
| C17 | Published penalties are index-wise sums and the longest match is exact | proved | `C17_penalties_are_sums`<br>`C17_order_independent` | cpq<br>cpq |
| C18 | Finished subscribers are unsubscribed, active ones are kept | proved | `C18_done_are_unsubscribed`<br>`C18_no_panic` | cpq<br>cpq |
| C19 | Top and PopDone of the publisher queue | proved | `C19_top_done`<br>`C19_popDone`<br>`C19_fix`<br>`C19_pop` | cpq<br>cpq<br>cpq<br>pq |
| C20 | Pooled recognizers behave like new ones | proved | `C20_pooled_like_new`<br>`C20_behaves_like_new` | p<br>pq |
| C21 | The simple word breaker cuts at whitespace changes | proved | `C21_reader_gives_runs`<br>`C21_slice_gives_runs`<br>`C21_runs_cover_text`<br>`C21_reuse`<br>`C21_needs_nul_free` | cpq<br>cpq<br>pq<br>cpq<br>p |
| C22 | Grapheme segmentation follows UAX#29 | partial | `C22_classes`<br>`C22_never_panics`<br>`C22_clusters_without_GB9b_partial`<br>`C22_slice_clusters_without_GB9b_partial`<br>`C22_clusters_no_prepend_partial`<br>`C22_slice_clusters_no_prepend_partial`<br>`C22_violated`<br>`C22_needs_nul_free`<br>`C22_clusters_cover_text` | pq<br>pq<br>cpq<br>cpq<br>cpq<br>cpq<br>p<br>p<br>cpq |
| C23 | CR LF is one grapheme and controls stand alone | proved | `C23_newlines_and_controls` | cpq |
| C24 | Flags are paired | proved | `C24_graphemes_flags_paired`<br>`C24_lines_flags_paired`<br>`C24_words_flags_paired` | cpq<br>cpq<br>cpq |
| C25 | Breakers can be reused for a new text after end of text | proved | `C25_grapheme_breaker_like_new`<br>`C25_grapheme_reuse`<br>`C25_line_breaker_like_new`<br>`C25_line_reuse`<br>`C25_word_breaker_like_new`<br>`C25_word_reuse` | pq<br>cpq<br>cpq<br>cpq<br>cpq<br>cpq |
| C26 | Word segmentation follows UAX#29 | partial | `C26_classes`<br>`C26_never_panics`<br>`C26_words_near_partial`<br>`C26_slice_words_near_partial`<br>`C26_words_partial`<br>`C26_slice_words_partial`<br>`C26_words_cover_text`<br>`C26_violated`<br>`C26_needs_break_on_zero_off` | pq<br>cpq<br>cpq<br>cpq<br>cpq<br>cpq<br>cpq<br>p<br>p |
| C27 | Mandatory line breaks | partial | `C27_mandatory_breaks_partial`<br>`C27_reader_mandatory_breaks_partial`<br>`C27_penalties_partial`<br>`C27_violated` | cpq<br>cpq<br>cpq<br>p |
| C28 | Prohibited line breaks | proved | `C28_prohibited_breaks`<br>`C28_reader_prohibited_breaks` | cpq<br>cpq |
| C29 | Line segmentation follows UAX#14 | partial | `C29_never_panics`<br>`C29_classes`<br>`C29_lines_near_partial`<br>`C29_slice_lines_near_partial`<br>`C29_lines_partial`<br>`C29_slice_lines_partial`<br>`C29_lines_cover_text`<br>`C29_violated` | cpq<br>pq<br>cpq<br>cpq<br>cpq<br>cpq<br>cpq<br>p |
| C30 | A grapheme string is the concatenation of its graphemes | partial | `C30_graphemes_partial`<br>`C30_legal_prefix_partial`<br>`C30_violated` | cpq<br>cpq<br>cpq |
| C31 | Break offsets never overflow | partial | `C31_no_overflow`<br>`C31_offsets_partial`<br>`C31_limit`<br>`C31_nth_range` | cpq<br>cpq<br>cpq<br>cpq |
| C32 | StringFromString is total on small inputs | partial | `C32_outcome_partial`<br>`C32_violated` | cpq<br>cpq |
| C33 | PositionOfFirstLegalRune finds the first legal rune | partial | `C33_legal_start_partial`<br>`C33_position_partial`<br>`C33_violated` | cpq<br>cpq<br>cpq |
| C34 | Grapheme widths are 0, 1 or 2 | partial | `C34_legal`<br>`C34_zero_partial`<br>`C34_east_asian_not_smaller`<br>`C34_violated` | cpq<br>cpq<br>cpq<br>cpq |
| C35 | String width is additive | proved | `C35_additive`<br>`C35_bounds`<br>`C35_text` | cpq<br>cpq<br>cpq |
| C36 | Context resolution | proved | `C36_resolution`<br>`C36_widths`<br>`C36_fixed_by_first_use`<br>`C36_environment` | p<br>cpq<br>cpq<br>p |
| C37 | Bracket pairing follows BD16 | partial | `C37_pairs_partial`<br>`C37_pairs_exactly`<br>`C37_overflow_violated`<br>`C37_canonical_violated`<br>`C37_isolates_partial`<br>`C37_isolates_exactly`<br>`C37_last_violated`<br>`C37_first_violated`<br>`C37_pdi_violated` | cpq<br>cpq<br>cpq<br>cpq<br>cpq<br>cpq<br>cpq<br>cpq<br>cpq |
| C38 | Reordering only permutes | proved | `C38_reverse`<br>`C38_reverse_twice`<br>`C38_reorder_permutes`<br>`C38_ltr_unchanged` | pq<br>pq<br>pq<br>pq |
| C39 | Splitting resolved levels at a position | partial | `C39_split_partial`<br>`C39_shift_partial`<br>`C39_violated`<br>`C39_shift_violated` | cpq<br>cpq<br>pq<br>pq |
| C40 | Rule lookup finds exactly the applicable rules | partial | `C40_at_most_one`<br>`C40_lookup_partial`<br>`C40_found_applies`<br>`C40_violated` | pq<br>cpq<br>cpq<br>cpq |
| C41 | Resolution terminates | partial | `C41_isolate_violated`<br>`C41_isolates_partial`<br>`C41_nested_partial`<br>`C41_violated`<br>`C41_ends_partial` | cpq<br>cpq<br>cpq<br>cpq<br>cpq |
| C42 | Resolved scraps tile the paragraph | partial | `C42_isolate_violated`<br>`C42_isolates_partial`<br>`C42_nested_violated`<br>`C42_fsi_violated`<br>`C42_nested_partial`<br>`C42_violated`<br>`C42_pdi_violated`<br>`C42_tiles_partial` | cpq<br>cpq<br>cpq<br>pq<br>cpq<br>cpq<br>cpq<br>cpq |
| C43 | Weak type resolution W1-W3 during scanning | partial | `C43_scanned_partial`<br>`C43_violated`<br>`C43_number_violated`<br>`C43_mark_violated` | cpq<br>pq<br>pq<br>pq |
| C44 | Visual runs of flattened levels | partial | `C44_runs_partial`<br>`C44_lengths_partial`<br>`C44_nested_partial`<br>`C44_violated` | pq<br>pq<br>cpq<br>pq |
| C45 | Multiple breakers | proved | `C45_multiple_breakers` | cpq |
| C46 | A bounded call does not cost the rest of the text | partial | `C46_bounded_next_loses_rest`<br>`C46_nothing`<br>`C46_rest_partial`<br>`C46_all_partial` | pq<br>cpq<br>cpq<br>cpq |
| C47 | Visual order follows rule L2 | partial | `C47_ltr_partial`<br>`C47_rtl`<br>`C47_violated`<br>`C47_isolates_partial`<br>`C47_nested_violated` | pq<br>pq<br>pq<br>cpq<br>pq |
| C48 | Reorder returns, and returns the same again | partial | `C48_nested_partial`<br>`C48_violated`<br>`C48_fsi_violated`<br>`C48_again_violated`<br>`C48_reorder_partial`<br>`C48_flat_partial` | cpq<br>pq<br>pq<br>pq<br>pq<br>pq |
| C49 | Segments of a run | proved | `C49_segments`<br>`C49_done`<br>`C49_eof`<br>`C49_violated` | cpq<br>cpq<br>cpq<br>p |
| C50 | Resolution does not depend on the schedule | partial | `C50_brackets_partial`<br>`C50_nested_partial`<br>`C50_violated`<br>`C50_same_partial` | cpq<br>cpq<br>pq<br>cpq |
| C51 | No goroutine is left behind | partial | `C51_isolates_partial`<br>`C51_nested_partial`<br>`C51_violated`<br>`C51_pdi_violated`<br>`C51_ended_partial` | cpq<br>cpq<br>cpq<br>cpq<br>cpq |
| C52 | Directions of UAX#9 | partial | `C52_directions_partial`<br>`C52_violated`<br>`C52_number_violated`<br>`C52_isolate_violated`<br>`C52_nested_violated`<br>`C52_outside_partial`<br>`C52_embedding_violated`<br>`C52_brackets_partial`<br>`C52_bracket_violated`<br>`C52_separators_violated` | cpq<br>cpq<br>cpq<br>cpq<br>cpq<br>cpq<br>cpq<br>cpq<br>cpq<br>cpq |
| C53 | One shaping category per character | partial | `C53_lookup_exact`<br>`C53_one_value_partial`<br>`C53_violated` | cpq<br>cpq<br>cpq |
| C54 | Generated tables contain what the UCD lists | partial | `C54_generated_partial`<br>`C54_violated`<br>`C54_joiner_violated`<br>`C54_published`<br>`C54_wellformed_partial`<br>`C54_wellformed_violated`<br>`C54_latin_partial`<br>`C54_latin_violated` | cpq<br>cpq<br>cpq<br>cpq<br>cpq<br>pq<br>cpq<br>- |
| C55 | Break class of a character | partial | `C55_grapheme_classes`<br>`C55_word_classes`<br>`C55_grapheme_pictographs`<br>`C55_word_pictographs_partial`<br>`C55_violated` | pq<br>pq<br>pq<br>cpq<br>pq |
| C56 | Break classes defined by rules of the standard | partial | `C56_hangul_syllables`<br>`C56_hangul_syllables_only`<br>`C56_jamo`<br>`C56_special`<br>`C56_ascii_graphemes`<br>`C56_ascii_words`<br>`C56_violated` | pq<br>cpq<br>pq<br>cpq<br>cpq<br>cpq<br>p |
| C57 | Emoji classes | partial | `C57_sound`<br>`C57_complete`<br>`C57_violated` | pq<br>pq<br>cpq |
| C58 | Graphemes and words of ASCII texts | proved | `C58_graphemes`<br>`C58_words`<br>`C58_runs`<br>`C58_strings` | cpq<br>cpq<br>cpq<br>cpq |
| C59 | Width of ASCII strings | partial | `C59_character_partial`<br>`C59_string_partial`<br>`C59_violated`<br>`C59_joiner_violated` | cpq<br>cpq<br>cpq<br>cpq |
| C60 | Set-up is safe for concurrent use | proved | `C60_after_setup`<br>`C60_real_classes`<br>`C60_once`<br>`C60_no_deadlock`<br>`C60_bounded`<br>`C60_setup_needed` | cpq<br>pq<br>cpq<br>cpq<br>cpq<br>p |
| C61 | UCD files are read completely | partial | `C61_document_partial`<br>`C61_no_data`<br>`C61_returns`<br>`C61_lines`<br>`C61_file_partial`<br>`C61_tables_partial`<br>`C61_brackets_partial`<br>`C61_bracket_file`<br>`C61_classes_partial`<br>`C61_indented_violated`<br>`C61_empty_field_violated`<br>`C61_last_digit_violated`<br>`C61_comment_violated`<br>`C61_reader_error_violated`<br>`C61_reader_panic_violated`<br>`C61_field_violated`<br>`C61_classes_violated` | cpq<br>cpq<br>cpq<br>cpq<br>cpq<br>cpq<br>cpq<br>cpq<br>cpq<br>cpq<br>cpq<br>cpq<br>cpq<br>cpq<br>p<br>cpq<br>cpq |
| C62 | Test files are read completely | partial | `C62_cases_partial`<br>`C62_segments_partial`<br>`C62_blank_violated`<br>`C62_end_violated` | cpq<br>cpq<br>cpq<br>cpq |
| C63 | Resolving and reordering give the visual order of a text | partial | `C63_isolates_partial`<br>`C63_isolate_violated`<br>`C63_nested_violated`<br>`C63_brackets_partial`<br>`C63_visual_partial`<br>`C63_runs_partial`<br>`C63_violated` | cpq<br>cpq<br>cpq<br>cpq<br>cpq<br>cpq<br>cpq |
| C64 | A text of one direction keeps it | partial | `C64_rtl_letters_partial`<br>`C64_ltr`<br>`C64_ltr_run_partial`<br>`C64_rtl_run_partial`<br>`C64_rtl_partial`<br>`C64_mark_violated`<br>`C64_rtl_violated`<br>`C64_joiner_violated` | cpq<br>cpq<br>cpq<br>cpq<br>cpq<br>pq<br>cpq<br>pq |
| C65 | RuneBuffer keeps its contract | partial | `C65_largest_segment`<br>`C65_no_allocation`<br>`C65_panics`<br>`C65_default_violated`<br>`C65_empty_violated` | cpq<br>pq<br>pq<br>cpq<br>cpq |
| C66 | The hash trie is a dictionary | partial | `C66_found_partial`<br>`C66_distinct`<br>`C66_position_partial`<br>`C66_frozen`<br>`C66_position_violated`<br>`C66_one_letter_violated`<br>`C66_thawed_violated`<br>`C66_alias_violated`<br>`C66_full_violated`<br>`C66_empty_violated` | cpq<br>cpq<br>cpq<br>cpq<br>cpq<br>cpq<br>p<br>p<br>p<br>p |
| C67 | Out-of-line markup acts as delimiters in the text | partial | `C67_delimiters_partial`<br>`C67_silent`<br>`C67_start_violated`<br>`C67_class_violated` | cpq<br>cpq<br>pq<br>cpq |
| C68 | Options of ResolveParagraph | partial | `C68_options_partial`<br>`C68_off_violated`<br>`C68_legacy` | p<br>-<br>p |
| C69 | The text of an isolate is resolved on its own | partial | `C69_violated`<br>`C69_fsi_violated`<br>`C69_own_partial`<br>`C69_directions_partial`<br>`C69_nested_partial`<br>`C69_embedding_violated` | pq<br>pq<br>cpq<br>cpq<br>cpq<br>cpq |
| C70 | A text may be segmented line by line | proved | `C70_graphemes`<br>`C70_words`<br>`C70_lines`<br>`C70_needs_crlf`<br>`C70_simple_breaker_differs` | cpq<br>cpq<br>cpq<br>p<br>p |
| C71 | Bracket pairs get the direction of rule N0 | partial | `C71_rule`<br>`C71_pairs_partial`<br>`C71_bracket_violated`<br>`C71_nested_violated`<br>`C71_beginning_violated`<br>`C71_arabic_violated`<br>`C71_number_violated`<br>`C71_empty_violated`<br>`C71_mark_violated` | cpq<br>cpq<br>cpq<br>cpq<br>cpq<br>cpq<br>cpq<br>cpq<br>pq |
| C72 | A paragraph may be split into lines | partial | `C72_brackets_partial`<br>`C72_lines_partial`<br>`C72_receiver_exactly`<br>`C72_receiver_violated`<br>`C72_end_violated`<br>`C72_embedding_violated` | cpq<br>cpq<br>cpq<br>pq<br>pq<br>pq |
| C73 | Segments stand for themselves | partial | `C73_graphemes`<br>`C73_lines`<br>`C73_words_partial`<br>`C73_words_violated`<br>`C73_simple`<br>`C73_grapheme_alone`<br>`C73_line_alone` | cpq<br>cpq<br>cpq<br>p<br>cpq<br>cpq<br>cpq |
| C74 | Printed classes, levels and runs can be read back | proved | `C74_grapheme`<br>`C74_word`<br>`C74_emoji`<br>`C74_token`<br>`C74_distinct`<br>`C74_levels`<br>`C74_run`<br>`C74_levels_distinct`<br>`C74_run_distinct` | cpq<br>cpq<br>cpq<br>cpq<br>cpq<br>cpq<br>cpq<br>cpq<br>cpq |
| C75 | Words are made of graphemes | partial | `C75_words_partial`<br>`C75_vowel_violated`<br>`C75_joined_violated`<br>`C75_flags_violated` | cpq<br>p<br>p<br>p |
| C76 | Lines are wrapped between graphemes | partial | `C76_lines_partial`<br>`C76_joined_violated`<br>`C76_space_violated`<br>`C76_flags_violated` | cpq<br>p<br>p<br>p |
| C77 | Two breakers in one Segmenter | partial | `C77_words_partial`<br>`C77_words_second_partial`<br>`C77_together_partial`<br>`C77_lines_partial`<br>`C77_lines_second_partial`<br>`C77_wrapped_partial`<br>`C77_lines_words_partial`<br>`C77_words_lines_partial`<br>`C77_simple_partial`<br>`C77_simple_second_partial`<br>`C77_simple_words_partial`<br>`C77_simple_words_second_partial`<br>`C77_simple_lines_partial`<br>`C77_simple_lines_second_partial`<br>`C77_simple_lines_violated`<br>`C77_three_violated` | cpq<br>cpq<br>cpq<br>cpq<br>cpq<br>cpq<br>cpq<br>cpq<br>cpq<br>cpq<br>cpq<br>cpq<br>cpq<br>cpq<br>p<br>p |
| C78 | Texts which are not UTF-8 can be resolved | partial | `C78_reads`<br>`C78_replaced`<br>`C78_positions_partial`<br>`C78_wellformed`<br>`C78_positions_violated` | cpq<br>cpq<br>cpq<br>cpq<br>cpq |
| C79 | Invisible characters do not change the order of a text | partial | `C79_letters_partial`<br>`C79_ltr_partial`<br>`C79_rtl_partial`<br>`C79_violated`<br>`C79_space_violated` | cpq<br>cpq<br>cpq<br>pq<br>pq |
| C80 | The bytes of the segments are the bytes of the text | partial | `C80_history`<br>`C80_graphemes_partial`<br>`C80_words_partial`<br>`C80_lines_partial`<br>`C80_runs_partial`<br>`C80_wellformed`<br>`C80_malformed_violated` | cpq<br>cpq<br>cpq<br>cpq<br>cpq<br>cpq<br>p |
| C81 | Letters keep their direction | partial | `C81_letters_partial`<br>`C81_isolate_violated` | cpq<br>cpq |
| C82 | European numbers are read from left to right | partial | `C82_digits_partial`<br>`C82_isolate_violated` | cpq<br>cpq |

### Notes

* C01: For any breakers the segments are a prefix of text plus end mark; the mark itself is excluded iff breakers are polite, C01_mark_can_be_delivered shows why.
* C06: Politeness at end of text is needed: C06_needs_polite_breakers.
* C07: Everything observable except Err(), which is sticky (C07_err_is_not_forgotten).
* C09: Violated by the code: C09_violated. Exact behaviour for all lengths in C09_truncated_silently.
* C10: Violated by the code: C10_violated. The partial theorem gives the bound b, or b+1 once the end of text is read.
* C12: Violated by the code: Next() before Init panics; only BoundedNext(b) with b<=0 behaves as documented.
* C13: Feasibility of penalties and BreakOnZero are proved as stated. Next() breaks at feasible positions only: proved for histories of Next() calls (C13_next_breaks_at_feasible), and after any history of calls for each Next() which comes after a Next() (C13_after_bounded_partial). Violated for the first Next() after a BoundedNext (C13_after_bounded_violated).
* C15: Second half excludes Clear, which keeps the buffer (C15_clear_keeps_buffer).
* C16: Needs that a subscriber already done before the event stays done; C16_needs_stay_done shows the hypothesis is necessary. Recognizers satisfy it (recognizer_stays_done).
* C20: UserData is left over from the earlier life; behaviour theorem assumes state functions do not read it.
* C21: Also after reuse of the segmenter (C21_reuse). NUL-freeness is needed (C21_needs_nul_free).
* C22: Violated by the code for GB9b (C22_violated). Proved exactly for the rule set without GB9b for all NUL-free texts, hence for UAX#29 where no Prepend is followed by something GB9b applies to.
* C24: One theorem for each breaker. For words and lines the run must not directly follow a mark or ignorable character, which UAX#29 and UAX#14 attach to an earlier flag.
* C25: For each breaker: equal reactions to everything that follows, and segmenting the next text.
* C26: Violated by the code (C26_violated): WB7b with ignorable characters after the quote, WB3c with pictographic characters that have a word break property. Exact behaviour for all NUL-free texts in C26_words_near_partial; all other texts are cut as UAX#29 wants it (C26_words_partial). BreakOnZero must be off for the primary breaker.
* C27: Where to break is proved for all NUL-free texts. The size of the penalty is violated by the code (C27_violated); C27_penalties_partial gives bounds by the following class.
* C28: For all NUL-free texts, slices and readers.
* C29: Violated by the code (C29_violated): LB8a, and marks after flags, brackets and hyphens. Exact behaviour for all NUL-free texts in C29_lines_near_partial; all other texts are cut as UAX#14 wants it (C29_lines_partial).
* C30: Clusters are those of C22 (UAX#29 without GB9b). Violated for clusters of more than 4096 runes, whose tail is lost: C30_violated. C30_legal_prefix_partial covers malformed input and NUL.
* C31: No overflow for any input (C31_no_overflow), panic limit and Nth range proved. The offsets are the true cluster boundaries unless a cluster has more than 4096 runes (C30_violated).
* C32: Violated by the code (C32_violated); C32_outcome_partial says exactly what happens for every byte string.
* C33: Violated by the code (C33_violated).
* C34: Proved where the call returns and the emoji tables are set up. C34_violated: zero width runes have width 1, digits 2, a leading continuation byte loops forever, a call before SetupEmojisClasses panics.
* C35: C35_additive for graphemes with a legal start; C35_text shows that texts (C30) are of this kind.
* C37: Violated for more than 63 open brackets (C37_overflow_violated), for U+2329/U+232A against U+3008/U+3009 (C37_canonical_violated), in the isolate which begins last (C37_last_violated), for an isolate at the start of the text (C37_first_violated) and after a PDI without initiator (C37_pdi_violated). Proved for all other texts, with isolates nested to any depth, but for first-strong isolates; C37_pairs_exactly and C37_isolates_exactly say what happens with too many open brackets.
* C38: Nested runs are covered: nodes lists every scrap with its place.
* C39: Violated by the code for cuts between nested runs of one scrap (C39_violated) and for nested runs with shift0 (C39_shift_violated); proved for all other cuts.
* C40: Violated: four rules of N1 are never found (C40_violated). Proved for the other 19 rules and all sequences of classes.
* C41: Violated (C41_violated: "A 1 2" never ends; C41_isolate_violated: nor do two initiators). Proved for texts with European numbers in left-to-right context, without isolates or with isolates that are closed, begin with text, have no brackets inside and are followed by text, nested to any depth (C41_isolates_partial, C41_nested_partial).
* C42: Violated (C42_violated: the number in "A 1" is lost; C42_pdi_violated: the text after an unmatched PDI is lost; C42_isolate_violated: the PDI of an empty isolate at the end is in two scraps; C42_nested_violated: so is the text of a nested isolate without text after it). Proved for texts without Arabic numbers and leading marks, with European numbers in left-to-right context, without isolates or with isolates that are closed, begin with text, have no brackets inside and are followed by text, nested to any depth; there the nested runs cover the isolates, one for each, level by level, each run going from the initiator to the PDI, without neutrals and without two neighbours that could be merged (C42_isolates_partial, C42_nested_partial). Violated: isolates with FSI that begin with a nonspacing mark (C42_fsi_violated).
* C43: Violated (C43_violated: EN directly after AL stays EN; C43_number_violated: EN after L becomes AN; C43_mark_violated: a leading mark is lost). Proved for texts without isolates, without a leading mark and without AL before EN.
* C44: Violated when an isolate follows text of its own direction (C44_violated); proved without nested runs and for nested runs after text of another direction.
* C46: Violated by the code when a bounded call has already read the end of the text (C46_bounded_next_loses_rest). What happens after any history of calls, for all breakers: if the end of the text has not been read, or if Next() still returns a segment, Next() calls hand out everything up to the last position at which the breakers allow a break (C46_rest_partial), and the whole rest if they allow one at the end of the text (C46_all_partial); otherwise nothing is returned ever again (C46_nothing).
* C47: Violated for neighbouring numbers in left-to-right runs (C47_violated) and for an isolate within an isolate (C47_nested_violated); proved for all right-to-left runs, for left-to-right runs without such numbers, and for runs with isolates that contain no isolates.
* C48: Violated (C48_violated, C48_fsi_violated, C48_again_violated); returning is proved for levels without nested runs, and for texts with nested isolates (as in C42): there Reorder panics exactly when the paragraph begins with an LRI (C48_nested_partial).
* C49: C49_violated: the iterator in reverse order turns the run around for later iterators.
* C50: Violated for brackets in isolates (C50_violated); proved for all texts without isolates, for all texts without brackets (with isolates and out-of-line markup), and for texts with brackets outside of closed isolates as in C41, nested to any depth (C50_nested_partial).
* C51: Violated for empty paragraphs (C51_violated) and unmatched PDI (C51_pdi_violated). Proved for all other texts with European numbers in left-to-right context, without isolates or with closed, separated isolates as in C41, nested to any depth.
* C52: Violated (C52_violated: "A +B" with R for upper case letters; C52_separators_violated: W4 for several separators; C52_number_violated: "1 a" in a right-to-left paragraph; C52_isolate_violated: white space before an isolate; C52_nested_violated: DirectionAt does not look into isolates; C52_bracket_violated: the space in "A (B)"; C52_embedding_violated: an isolate between letters of different directions in a right-to-left paragraph). Proved for texts of letters, European numbers in left-to-right context with separators and terminators, marks and neutrals, where a remaining separator comes directly after a neutral or a separator of another kind only if the next other character is a neutral too, or the direction there is the one of the paragraph. With brackets (C52_brackets_partial): also for texts whose brackets are all in pairs with letters inside, which get the embedding direction from inside or are decided by a letter before them, without marks after brackets, where neutrals directly before brackets have the direction of the paragraph. With isolates nested to any depth (C52_outside_partial): for all characters outside of the isolates, the initiators and the PDIs, in left-to-right paragraphs with letters, numbers, marks and neutrals outside, where a neutral stands directly before an isolate only if the direction there is the one of the paragraph. Missing: other brackets, the text in isolates, Arabic numbers, and the texts of the violations.
* C53: Violated for U+0000 (C53_violated); proved for all other runes.
* C54: Violated for every category (C54_violated, C54_joiner_violated), for U+10000 (C54_wellformed_violated) and for LatinOffset of tables in Latin-1 (C54_latin_violated). Proved: what exactly is generated, that the published tables are such tables, and that they are well-formed otherwise, with LatinOffset the number of ranges in Latin-1.
* C55: Violated for six pictographs which are letters (C55_violated); proved for all other code points.
* C56: Violated for U+FFFD (C56_violated); proved for Hangul, jamo, line ends, ZWJ, regional indicators and ASCII.
* C57: Violated: three classes are never reported (C57_violated). Soundness and completeness are proved for all runes.
* C58: With the tables of /repo, for all texts of ASCII characters but NUL.
* C59: Violated for digits, # and * (C59_violated), and the zero width joiner has width 2 (C59_joiner_violated); the exact width of all printable ASCII strings is proved.
* C60: Interleavings of memory accesses; sync.Once as documented. C60_setup_needed shows that a look-up without set-up panics or is wrong.
* C61: Proved for all lines of an error-free reader and all rows whose first field is not empty if there are several (C61_document_partial and its corollaries for files in pieces, tables and brackets); the _violated theorems show what gets lost otherwise.
* C62: Proved for all files without blank lines whose tests end with a division mark; violated otherwise (C62_blank_violated, C62_end_violated).
* C63: Violated (C63_violated: "A +B" with R for upper case letters; C63_isolate_violated: an isolate next to text from right to left; C63_nested_violated: an isolate in an isolate). Proved for the texts of C52_directions_partial (C63_visual_partial, C63_runs_partial), for texts with bracket pairs as in C52_brackets_partial (C63_brackets_partial), all schedules and both directions, and for left-to-right texts with isolates among text from left to right (C63_isolates_partial).
* C64: C64_ltr is the full statement for DirectionAt of left-to-right texts. Violated for a leading nonspacing mark (C64_mark_violated) and for DirectionAt of brackets and invisible characters in right-to-left paragraphs (C64_rtl_violated, C64_joiner_violated). Runs are proved for all texts that do not begin with a mark; DirectionAt of right-to-left texts for letters, marks, separators, terminators and neutrals. C64_rtl_letters_partial: letters and their marks are right-to-left for DirectionAt in all right-to-left texts.
* C65: Size, no allocation and panics are proved for all histories and non-empty buffers. Violated: default size (C65_default_violated), empty buffers (C65_empty_violated).
* C66: Proved for all sequences of words that can be stored: exactly the prefixes of stored words are found (two letters or more), different words at different positions, the last word at its position, lookup by AllocPositionForWord. Violated: positions of earlier words go stale (C66_position_violated), one-letter words (C66_one_letter_violated), lookup before Freeze (C66_thawed_violated), a category taken for 0 (C66_alias_violated), panics (C66_full_violated, C66_empty_violated).
* C67: Proved for all texts, schedules and markup functions which do not ask for anything at position 0, by a bisimulation of the two scanners. Violated at position 0 (C67_start_violated) and for classes instead of constants (C67_class_violated).
* C68: Proved: an option is in effect iff one of the calls switched it on, in any order; RecognizeLegacy has no effect. Violated: switching off (C68_off_violated).
* C69: Proved for every text with isolates that are matched, not nested, not empty and without brackets inside, with text between them, and numbers in left-to-right context: the nested run is that of the isolate's text as a paragraph of its own, moved, whatever is around it, and for every two schedules (C69_own_partial); and its directions are those of rules W1-N2 (C69_directions_partial; without Arabic numbers, and separators as in C52). For isolates nested to any depth (C69_nested_partial): at every level, the nested run gives the directions of the standard for the sequence of the isolate with the initiators and PDIs inside it, in left-to-right isolates or isolates with none inside, with letters, European numbers, marks and neutrals, and neutrals before inner isolates as in C52_outside_partial. Missing: FSI, isolates beginning with a nonspacing mark. Violated: numbers after an Arabic letter outside (C69_violated). Violated: direction of isolates with FSI (C69_fsi_violated). Violated: an isolate between letters of different directions in a right-to-left isolate (C69_embedding_violated).
* C70: For all three breakers and all divisions into lines, by showing that no rule of the exact specifications of C22, C26 and C29 looks over a line end. CR LF must not be separated (C70_needs_crlf). The simple word breaker takes line ends for white space and is not part of the property (C70_simple_breaker_differs).
* C71: Proved for texts without isolates, Arabic letters and Arabic numbers, with European numbers after letters of left-to-right scripts: every pair with a letter inside gets its direction from rule N0, if the direction comes from inside the pair or from a letter before it. Violated for pairs whose direction comes from another bracket (C71_bracket_violated, C71_nested_violated) or from the beginning of a right-to-left text (C71_beginning_violated), after Arabic letters (C71_arabic_violated), for pairs without strong characters (C71_empty_violated), for pairs with a number but no letter inside (C71_number_violated) and for marks after brackets (C71_mark_violated). C71_rule says that the rule determines the directions. Missing: Arabic numbers and isolates; texts of 65536 bytes or more (distances in the code are capped).
* C72: Proved for the texts of C63 (letters of both directions, marks, neutrals, numbers that are resolved as letters, bracket pairs as in C52_brackets_partial) and all divisions into lines. Violated for the receiver of Split (C72_receiver_violated; C72_receiver_exactly says for all contiguous levels what happens to it), for a split at the end of the text (C72_end_violated) and for numbers in right-to-left paragraphs (C72_embedding_violated). Missing: lines of texts with isolates, see C39.
* C73: Proved for graphemes, line wraps and the simple word breaker without conditions on the text other than that it has no NUL; for words it is proved for texts in which no double quote is followed by an ignorable character, and C73_words_violated shows a text of that kind with a word that is two words by itself (the reason is the defect of WB7b, see C26).
* C75: Proved for the tables of /repo and all texts without NUL, but for three exceptions, which have witnesses: the vowel signs U+0E33 and U+0EB3, which attach to a letter as graphemes only (by UAX#29 itself); the six pictographs which are also letters, after a joiner (a defect of the word breaker, see C55); two regional indicators with only ignorable characters between them (by UAX#29 itself).
* C76: Proved for all tables of line break classes (they are not in /repo) and all texts without NUL, the characters of which have classes that go together, without pictographs after a joiner (C76_joined_violated, a defect: LB8a is missing), without marks after spaces (C76_space_violated, by UAX#14 itself) and without marks between regional indicators (C76_flags_violated).
* C77: Proved for any two of words, line wraps, graphemes and runs of white space, each in both orders (C77_words_partial, C77_lines_partial, C77_lines_words_partial, C77_simple_partial, C77_simple_words_partial, C77_simple_lines_partial and their counterparts), for all tables which agree on carriage returns, all texts without NUL and all settings for penalties of 0 (off for the simple word breaker), with the boundaries of C22, C26 and C29 (that is, without GB9b, with the near rules for words, and the exceptions of C29 for lines). Violated for line wraps and the simple word breaker, if a line feed is followed by a carriage return (C77_simple_lines_violated); proved for other texts. C77_together_partial and C77_wrapped_partial: for texts of which the words (lines) are made of graphemes, the segments are the graphemes. With three breakers the penalties of the second and the third are added, so breaks are lost and cannot be told apart (C77_three_violated). Missing: texts with NUL.
* C78: Proved for all bytes: they are read as exactly one text (C78_reads), and resolved as that text, whatever the schedule (C78_replaced); so all theorems about texts cover all readers. Positions are right up to the first malformed byte, and behind it larger by 2 for each one (C78_positions_partial); violated after that (C78_positions_violated).
* C79: Violated: a right-to-left word with a non-joiner is torn apart in a left-to-right paragraph (C79_violated), and neutrals next to an invisible character lose the direction of the letters around them (C79_space_violated). Proved for texts of one direction in a paragraph of this direction which do not begin with a mark, for all schedules (C79_ltr_partial; C79_rtl_partial without numbers). Letters have the same direction with and without the invisible characters in all texts of C81 (C79_letters_partial).
* C80: Proved for all bytes, breakers and histories of calls (C80_history: a prefix of the text with U+FFFD for each malformed byte, for texts that fit into the buffer), and for graphemes, words, lines and runs of white space: all of the text (C80_graphemes_partial, C80_words_partial, C80_lines_partial, C80_runs_partial). For UTF-8 these are the bytes of the input (C80_wellformed); violated for malformed bytes (C80_malformed_violated).
* C81: Violated for letters in isolates (C81_isolate_violated). Proved for all texts without isolates whose European numbers stand in left-to-right context, the texts for which resolution is proved to end (C41); no restriction on brackets, separators, Arabic numbers, invisible characters and marks.
* C82: Violated for numbers in isolates (C82_isolate_violated), and after right-to-left letters resolution need not end (C41_violated). Proved for texts without isolates and Arabic numbers which do not begin with a mark and whose European numbers stand in left-to-right context, in paragraphs of both directions.

## What the model found out about the code

Theorems with `violated` in their names prove the following.

* Segmenter: segments of more than 4096 runes lose their tails silently when text is read
  from a reader (C09); `Next` before `Init` panics (C12); the end-of-text mark counts for the
  bound of `BoundedNext` (C10); a bounded call which has read the end of the text ends
  later calls of `Next` (C46); the first `Next` after a bounded call may break where it is forbidden, because the position was chosen for the bound (C13); `Err` is sticky (C07); NUL is taken for the end of the text by the
  simple word breaker (C21).
* Graphemes: rule GB9b is not applied (C22). Words: WB7b fails with ignorable characters after the
  quote, WB3c for pictographic characters with a word break property (C26). Lines: LB8a is never
  applied, marks after flags, brackets and hyphens count twice (C29); penalties of mandatory breaks
  can be above −9000 (C27).
* Segment buffers: the documented default maximum of 64 K runes is never used, it is 4096; `RuneBuffer` ignores an empty buffer together with
  the maximum (C65).
* Grapheme strings: the empty string and an illegal first code point panic, a leading continuation
  byte loops for ever, text after an invalid byte is dropped (C32, C33); long clusters lose their tail
  (C30).
* Width: zero width runes have width 1 or 2, ASCII digits 2; panic before
  `SetupEmojisClasses`; endless loop for a leading continuation byte (C34).
* Hash trie: AllocPositionForWord moves words stored before, whose positions the caller keeps; this is what loses the
  rules of C40. It panics ("abort find") with more than half of the table free; a lookup before Freeze stores (C66).
* Bidi rules: N1_5, N1_6, N1_8 and N1_9 can never be found in the trie (C40). "A 1 2" is never
  resolved, nor is a text of two isolate initiators (C41); numbers after right-to-left text get lost, and so does all text after an
  unmatched PDI (C42); W2 is wrong for EN directly after AL, and after L (C43); brackets
  in isolates depend on the schedule (C50); empty paragraphs leak a goroutine (C51); more than 63
  open brackets do not stop BD16, canonical equivalents are not matched, pairs in the last isolate and after an isolate that follows an unmatched PDI are not found, brackets within and after a leading isolate are made pairs (C37); separators after a neutral
  are not resolved together with it, numbers at the beginning of a right-to-left paragraph become L, neutrals before an isolate are not resolved together with it, an isolate in a right-to-left paragraph counts as embedded from left to right, neutrals before a bracket get the direction of the paragraph before that of the bracket is known, `DirectionAt` does not look into isolates (C52); an empty isolate at the
  end is in two scraps, and so is the text of a nested isolate with no text after it, and the PDI of an isolate with FSI that begins with a nonspacing mark (C42); isolates with FSI have the direction of the text around them (C69);
  an opening bracket without a partner is left-to-right for `DirectionAt`, even in a right-to-left paragraph, and a nonspacing mark at the beginning
  of a text is in no run (C64). The direction of a pair of brackets is looked up in the letters before it, never in brackets before it, an Arabic letter
  sticks as context, the beginning of a right-to-left text counts as L, marks after brackets are neutral, and a pair with
  a number but no letter inside does not get its direction from the number (C71).
* Bidi reordering: neighbouring numbers are exchanged in left-to-right runs, an isolate in an isolate
  is listed in the wrong order (C47); `Reorder` panics for a leading LRI and for FSI and changes its
  receiver (C48); `Split` leaves nested runs on the wrong side (C39), shortens a scrap of its receiver, so that a second call panics, and forgets the direction of the paragraph (C72); run lengths do not add up (C44).

* Markup and options: the markup function is not asked for position 0, and answering with the classes LRI and RLI, as its
  documentation says, inserts a PDI (C67). An option that has been switched on cannot be switched off again (C68).

* Tables: `LatinOffset` is 0 for tables with ranges in Latin-1 only (C54). The generator loses the last block of every category and adds U+0000 to it, so that e.g. `UISC_Joiner`
  lacks its only member (C53, C54); U+FFFD is a control for graphemes, because surrogates were written as '\ufffd' (C56); six
  pictographs are letters for words (C55); three emoji classes are never reported (C57).

* ASCII: digits, `#` and `*` are two cells wide, so "A4" has width 3 (C59). `NewBreaker` of package grapheme does not set up its
  tables, unlike the other constructors: a forgotten `SetupGraphemeClasses` is a panic at the first look-up (C60).

* UCD files: an empty first field is dropped, so that later fields move ("0041;;Foo"); a code point at the end of a line loses its last
  digit; an indented first row is skipped; a comment ends at a second `#`. When the reader fails, `Parse` does not return the error: it
  panics or calls the callback for ever with the same line. `tablegen -f 1` panics; the class generators
  write a table without a name, for the token of the file itself (C61). The pairs of brackets in package bidi are those of `BidiBrackets.txt`. In a test file, a blank line repeats
  the test before it (C62).

* Isolates leak: the position of the last Arabic letter is one for the whole text, so that numbers inside of an isolate are resolved as Arabic ones because of a letter
  outside, and the other way round (C69). As in right-to-left paragraphs (C52), an isolate between letters of different directions inside of a right-to-left isolate gets the direction left to right (C69). 
* Reordering does not know levels of isolates: in a left-to-right paragraph an isolate within text from right to left splits this text, and its parts are shown in the wrong order ("A>b=C", C63);
  the text of an isolate in an isolate is merged with text next to it, and shown on the wrong side of it ("a>D<E== f", C63).
* Words cut graphemes: U+0E33 and U+0EB3 after a letter, and U+2139 and five other pictographs after a joiner (C75). Lines may be wrapped within emoji with joiners (C76).
* The penalties of the line breaker for the position between LF and CR allow a break for the moment of the CR only. Together with the simple word breaker, which keeps its match open over both of them,
  the mandatory break is lost (C77).
* With three breakers in one Segmenter, the penalties of the second and the third are added. "No" from one (20000) outweighs "yes" from the other (-10), and a weak "no" (10000) does not: breaks are lost, and
  cannot be told apart (C77).
* W4 is applied to repeated separators ("A1,,2", C52), because the scanner merges them. A malformed byte counts as three bytes, so positions after it are wrong (C78); `Bytes()` of a Segmenter returns U+FFFD for it (C80).
* Boundary neutrals are not ignored: a right-to-left word with a zero width non-joiner, as in Persian, is torn apart in a left-to-right paragraph, and its parts are displayed in the wrong order (C79).

Seen while modelling, not stated as theorems: N1_3, N1_4, N1_7 and N1_10 drop or duplicate scraps.

## Wrong programs

`seeded/LOG.jsonl` lists edits of the model which a realistic bug would correspond to, with the
theorems that failed. Edits that first survived led to tighter theorems (field `tightened`).

## Trusted base

* Lean's kernel (4.33.0). No theorem depends on other axioms than `propext`, `Quot.sound` and
  `Classical.choice`; the table above says which. No `sorry`, no `native_decide`, no `bv_decide`, no axioms of
  our own.
* The reading of the Go code documented at every definition of the model, including: no overflow of `int`
  (and of `uint32` text positions), no aliasing of slices other than described, the Go memory model (the
  goroutines of the bidi resolver take turns at the steps described in `BidiScanner.lean`; data races inside a step are
  not modelled).
* The specifications `Spec*.lean`, as statements of what the standards say.
* The behaviour of Go's `unicode/utf8` (`Utf8.lean`).
