{"claims": [
{"property": "C01", "status": "proved", "theorems": ["Uax.C01_segments_are_consecutive", "Uax.C01_next_delivers_prefix", "Uax.C01_mark_can_be_delivered"], "note": "For any breakers the segments are a prefix of text plus end mark; the mark itself is excluded iff breakers are polite, C01_mark_can_be_delivered shows why."},
{"property": "C02", "status": "proved", "theorems": ["Uax.C02_steady_breakers", "Uax.C02_cuts_exactly_at_feasible_positions", "Uax.C02_slice_cuts_exactly_at_feasible_positions"], "note": ""},
{"property": "C03", "status": "proved", "theorems": ["Uax.C03_withheld_after_last_feasible", "Uax.C03_all_text_delivered"], "note": ""},
{"property": "C04", "status": "proved", "theorems": ["Uax.C04_penalties_are_sums"], "note": ""},
{"property": "C05", "status": "proved", "theorems": ["Uax.C05_terminates", "Uax.C05_false_is_final"], "note": ""},
{"property": "C06", "status": "proved", "theorems": ["Uax.C06_slice_and_reader_agree", "Uax.C06_needs_polite_breakers"], "note": "Politeness at end of text is needed: C06_needs_polite_breakers."},
{"property": "C07", "status": "proved", "theorems": ["Uax.C07_init_forgets", "Uax.C07_slice_init_forgets", "Uax.C07_err_is_not_forgotten"], "note": "Everything observable except Err(), which is sticky (C07_err_is_not_forgotten)."},
{"property": "C08", "status": "proved", "theorems": ["Uax.C08_read_errors_are_reported", "Uax.C08_eof_is_not_an_error"], "note": ""},
{"property": "C09", "status": "partial", "theorems": ["Uax.C09_truncated_silently", "Uax.C09_violated", "Uax.C09_short_segments_complete_partial"], "note": "Violated by the code: C09_violated. Exact behaviour for all lengths in C09_truncated_silently."},
{"property": "C10", "status": "partial", "theorems": ["Uax.C10_violated", "Uax.C10_bound_respected_partial", "Uax.C10_empty_segments_for_ever"], "note": "Violated by the code: C10_violated. The partial theorem gives the bound b, or b+1 once the end of text is read."},
{"property": "C11", "status": "proved", "theorems": ["Uax.C11_no_text_is_lost"], "note": ""},
{"property": "C12", "status": "partial", "theorems": ["Uax.C12_violated", "Uax.C12_bounded_next_before_init_partial"], "note": "Violated by the code: Next() before Init panics; only BoundedNext(b) with b<=0 behaves as documented."},
{"property": "C13", "status": "partial", "theorems": ["Uax.C13_last_setting", "Uax.C13_feasible", "Uax.C13_next_breaks_at_feasible", "Uax.C13_after_bounded_partial", "Uax.C13_after_bounded_violated"], "note": "Feasibility of penalties and BreakOnZero are proved as stated. Next() breaks at feasible positions only: proved for histories of Next() calls (C13_next_breaks_at_feasible), and after any history of calls for each Next() which comes after a Next() (C13_after_bounded_partial). Violated for the first Next() after a BoundedNext (C13_after_bounded_violated)."},
{"property": "C14", "status": "proved", "theorems": ["Uax.C14_deque_refines_list", "Uax.C14_lastRune", "Uax.C14_panics_only_when_empty_or_out_of_range"], "note": ""},
{"property": "C15", "status": "proved", "theorems": ["Uax.C15_capacity_power_of_two", "Uax.C15_capacity_at_most_four_times", "Uax.C15_clear_keeps_buffer"], "note": "Second half excludes Clear, which keeps the buffer (C15_clear_keeps_buffer)."},
{"property": "C16", "status": "proved", "theorems": ["Uax.C16_each_subscriber_exactly_once", "Uax.C16_history", "Uax.C16_needs_stay_done"], "note": "Needs that a subscriber already done before the event stays done; C16_needs_stay_done shows the hypothesis is necessary. Recognizers satisfy it (recognizer_stays_done)."},
{"property": "C17", "status": "proved", "theorems": ["Uax.C17_penalties_are_sums", "Uax.C17_order_independent"], "note": ""},
{"property": "C18", "status": "proved", "theorems": ["Uax.C18_done_are_unsubscribed", "Uax.C18_no_panic"], "note": ""},
{"property": "C19", "status": "proved", "theorems": ["Uax.C19_top_done", "Uax.C19_popDone", "Uax.C19_fix", "Uax.C19_pop"], "note": ""},
{"property": "C20", "status": "proved", "theorems": ["Uax.C20_pooled_like_new", "Uax.C20_behaves_like_new"], "note": "UserData is left over from the earlier life; behaviour theorem assumes state functions do not read it."},
{"property": "C21", "status": "proved", "theorems": ["Uax.C21_reader_gives_runs", "Uax.C21_slice_gives_runs", "Uax.C21_runs_cover_text", "Uax.C21_reuse", "Uax.C21_needs_nul_free"], "note": "Also after reuse of the segmenter (C21_reuse). NUL-freeness is needed (C21_needs_nul_free)."},
{"property": "C22", "status": "partial", "theorems": ["Uax.C22_classes", "Uax.C22_never_panics", "Uax.C22_clusters_without_GB9b_partial", "Uax.C22_slice_clusters_without_GB9b_partial", "Uax.C22_clusters_no_prepend_partial", "Uax.C22_slice_clusters_no_prepend_partial", "Uax.C22_violated", "Uax.C22_needs_nul_free", "Uax.C22_clusters_cover_text"], "note": "Violated by the code for GB9b (C22_violated). Proved exactly for the rule set without GB9b for all NUL-free texts, hence for UAX#29 where no Prepend is followed by something GB9b applies to."},
{"property": "C23", "status": "proved", "theorems": ["Uax.C23_newlines_and_controls"], "note": ""},
{"property": "C24", "status": "proved", "theorems": ["Uax.C24_graphemes_flags_paired", "Uax.C24_lines_flags_paired", "Uax.C24_words_flags_paired"], "note": "One theorem for each breaker. For words and lines the run must not directly follow a mark or ignorable character, which UAX#29 and UAX#14 attach to an earlier flag."},
{"property": "C25", "status": "proved", "theorems": ["Uax.C25_grapheme_breaker_like_new", "Uax.C25_grapheme_reuse", "Uax.C25_line_breaker_like_new", "Uax.C25_line_reuse", "Uax.C25_word_breaker_like_new", "Uax.C25_word_reuse"], "note": "For each breaker: equal reactions to everything that follows, and segmenting the next text."},
{"property": "C26", "status": "partial", "theorems": ["Uax.C26_classes", "Uax.C26_never_panics", "Uax.C26_words_near_partial", "Uax.C26_slice_words_near_partial", "Uax.C26_words_partial", "Uax.C26_slice_words_partial", "Uax.C26_words_cover_text", "Uax.C26_violated", "Uax.C26_needs_break_on_zero_off"], "note": "Violated by the code (C26_violated): WB7b with ignorable characters after the quote, WB3c with pictographic characters that have a word break property. Exact behaviour for all NUL-free texts in C26_words_near_partial; all other texts are cut as UAX#29 wants it (C26_words_partial). BreakOnZero must be off for the primary breaker."},
{"property": "C27", "status": "partial", "theorems": ["Uax.C27_mandatory_breaks_partial", "Uax.C27_reader_mandatory_breaks_partial", "Uax.C27_penalties_partial", "Uax.C27_violated"], "note": "Where to break is proved for all NUL-free texts. The size of the penalty is violated by the code (C27_violated); C27_penalties_partial gives bounds by the following class."},
{"property": "C28", "status": "proved", "theorems": ["Uax.C28_prohibited_breaks", "Uax.C28_reader_prohibited_breaks"], "note": "For all NUL-free texts, slices and readers."},
{"property": "C29", "status": "partial", "theorems": ["Uax.C29_never_panics", "Uax.C29_classes", "Uax.C29_lines_near_partial", "Uax.C29_slice_lines_near_partial", "Uax.C29_lines_partial", "Uax.C29_slice_lines_partial", "Uax.C29_lines_cover_text", "Uax.C29_violated"], "note": "Violated by the code (C29_violated): LB8a, and marks after flags, brackets and hyphens. Exact behaviour for all NUL-free texts in C29_lines_near_partial; all other texts are cut as UAX#14 wants it (C29_lines_partial)."},
{"property": "C30", "status": "partial", "theorems": ["Uax.C30_graphemes_partial", "Uax.C30_legal_prefix_partial", "Uax.C30_violated"], "note": "Clusters are those of C22 (UAX#29 without GB9b). Violated for clusters of more than 4096 runes, whose tail is lost: C30_violated. C30_legal_prefix_partial covers malformed input and NUL."},
{"property": "C31", "status": "partial", "theorems": ["Uax.C31_no_overflow", "Uax.C31_offsets_partial", "Uax.C31_limit", "Uax.C31_nth_range"], "note": "No overflow for any input (C31_no_overflow), panic limit and Nth range proved. The offsets are the true cluster boundaries unless a cluster has more than 4096 runes (C30_violated)."},
{"property": "C32", "status": "partial", "theorems": ["Uax.C32_outcome_partial", "Uax.C32_violated"], "note": "Violated by the code (C32_violated); C32_outcome_partial says exactly what happens for every byte string."},
{"property": "C33", "status": "partial", "theorems": ["Uax.C33_legal_start_partial", "Uax.C33_position_partial", "Uax.C33_violated"], "note": "Violated by the code (C33_violated)."},
{"property": "C34", "status": "partial", "theorems": ["Uax.C34_legal", "Uax.C34_zero_partial", "Uax.C34_east_asian_not_smaller", "Uax.C34_violated"], "note": "Proved where the call returns and the emoji tables are set up. C34_violated: zero width runes have width 1, digits 2, a leading continuation byte loops forever, a call before SetupEmojisClasses panics."},
{"property": "C35", "status": "proved", "theorems": ["Uax.C35_additive", "Uax.C35_bounds", "Uax.C35_text"], "note": "C35_additive for graphemes with a legal start; C35_text shows that texts (C30) are of this kind."},
{"property": "C36", "status": "proved", "theorems": ["Uax.C36_resolution", "Uax.C36_widths", "Uax.C36_fixed_by_first_use", "Uax.C36_environment"], "note": ""},
{"property": "C37", "status": "partial", "theorems": ["Uax.C37_pairs_partial", "Uax.C37_pairs_exactly", "Uax.C37_overflow_violated", "Uax.C37_canonical_violated", "Uax.C37_isolates_partial", "Uax.C37_isolates_exactly", "Uax.C37_last_violated", "Uax.C37_first_violated", "Uax.C37_pdi_violated"], "note": "Violated for more than 63 open brackets (C37_overflow_violated), for U+2329/U+232A against U+3008/U+3009 (C37_canonical_violated), in the isolate which begins last (C37_last_violated), for an isolate at the start of the text (C37_first_violated) and after a PDI without initiator (C37_pdi_violated). Proved for all other texts, with isolates nested to any depth, but for first-strong isolates; C37_pairs_exactly and C37_isolates_exactly say what happens with too many open brackets."},
{"property": "C38", "status": "proved", "theorems": ["Uax.C38_reverse", "Uax.C38_reverse_twice", "Uax.C38_reorder_permutes", "Uax.C38_ltr_unchanged"], "note": "Nested runs are covered: nodes lists every scrap with its place."},
{"property": "C39", "status": "partial", "theorems": ["Uax.C39_split_partial", "Uax.C39_shift_partial", "Uax.C39_violated", "Uax.C39_shift_violated"], "note": "Violated by the code for cuts between nested runs of one scrap (C39_violated) and for nested runs with shift0 (C39_shift_violated); proved for all other cuts."},
{"property": "C40", "status": "partial", "theorems": ["Uax.C40_at_most_one", "Uax.C40_lookup_partial", "Uax.C40_found_applies", "Uax.C40_violated"], "note": "Violated: four rules of N1 are never found (C40_violated). Proved for the other 19 rules and all sequences of classes."},
{"property": "C41", "status": "partial", "theorems": ["Uax.C41_isolate_violated", "Uax.C41_isolates_partial", "Uax.C41_nested_partial", "Uax.C41_violated", "Uax.C41_ends_partial"], "note": "Violated (C41_violated: \"A 1 2\" never ends; C41_isolate_violated: nor do two initiators). Proved for texts with European numbers in left-to-right context, without isolates or with isolates that are closed, begin with text, have no brackets inside and are followed by text, nested to any depth (C41_isolates_partial, C41_nested_partial)."},
{"property": "C42", "status": "partial", "theorems": ["Uax.C42_isolate_violated", "Uax.C42_isolates_partial", "Uax.C42_nested_violated", "Uax.C42_fsi_violated", "Uax.C42_nested_partial", "Uax.C42_violated", "Uax.C42_pdi_violated", "Uax.C42_tiles_partial"], "note": "Violated (C42_violated: the number in \"A 1\" is lost; C42_pdi_violated: the text after an unmatched PDI is lost; C42_isolate_violated: the PDI of an empty isolate at the end is in two scraps; C42_nested_violated: so is the text of a nested isolate without text after it). Proved for texts without Arabic numbers and leading marks, with European numbers in left-to-right context, without isolates or with isolates that are closed, begin with text, have no brackets inside and are followed by text, nested to any depth; there the nested runs cover the isolates, one for each, level by level, each run going from the initiator to the PDI, without neutrals and without two neighbours that could be merged (C42_isolates_partial, C42_nested_partial). Violated: isolates with FSI that begin with a nonspacing mark (C42_fsi_violated)."},
{"property": "C43", "status": "partial", "theorems": ["Uax.C43_scanned_partial", "Uax.C43_violated", "Uax.C43_number_violated", "Uax.C43_mark_violated"], "note": "Violated (C43_violated: EN directly after AL stays EN; C43_number_violated: EN after L becomes AN; C43_mark_violated: a leading mark is lost). Proved for texts without isolates, without a leading mark and without AL before EN."},
{"property": "C44", "status": "partial", "theorems": ["Uax.C44_runs_partial", "Uax.C44_lengths_partial", "Uax.C44_nested_partial", "Uax.C44_violated"], "note": "Violated when an isolate follows text of its own direction (C44_violated); proved without nested runs and for nested runs after text of another direction."},
{"property": "C45", "status": "proved", "theorems": ["Uax.C45_multiple_breakers"], "note": ""},
{"property": "C46", "status": "partial", "theorems": ["Uax.C46_bounded_next_loses_rest", "Uax.C46_nothing", "Uax.C46_rest_partial", "Uax.C46_all_partial"], "note": "Violated by the code when a bounded call has already read the end of the text (C46_bounded_next_loses_rest). What happens after any history of calls, for all breakers: if the end of the text has not been read, or if Next() still returns a segment, Next() calls hand out everything up to the last position at which the breakers allow a break (C46_rest_partial), and the whole rest if they allow one at the end of the text (C46_all_partial); otherwise nothing is returned ever again (C46_nothing)."},
{"property": "C47", "status": "partial", "theorems": ["Uax.C47_ltr_partial", "Uax.C47_rtl", "Uax.C47_violated", "Uax.C47_isolates_partial", "Uax.C47_nested_violated"], "note": "Violated for neighbouring numbers in left-to-right runs (C47_violated) and for an isolate within an isolate (C47_nested_violated); proved for all right-to-left runs, for left-to-right runs without such numbers, and for runs with isolates that contain no isolates."},
{"property": "C48", "status": "partial", "theorems": ["Uax.C48_nested_partial", "Uax.C48_violated", "Uax.C48_fsi_violated", "Uax.C48_again_violated", "Uax.C48_reorder_partial", "Uax.C48_flat_partial"], "note": "Violated (C48_violated, C48_fsi_violated, C48_again_violated); returning is proved for levels without nested runs, and for texts with nested isolates (as in C42): there Reorder panics exactly when the paragraph begins with an LRI (C48_nested_partial)."},
{"property": "C49", "status": "proved", "theorems": ["Uax.C49_segments", "Uax.C49_done", "Uax.C49_eof", "Uax.C49_violated"], "note": "C49_violated: the iterator in reverse order turns the run around for later iterators."},
{"property": "C50", "status": "partial", "theorems": ["Uax.C50_brackets_partial", "Uax.C50_nested_partial", "Uax.C50_violated", "Uax.C50_same_partial"], "note": "Violated for brackets in isolates (C50_violated); proved for all texts without isolates, for all texts without brackets (with isolates and out-of-line markup), and for texts with brackets outside of closed isolates as in C41, nested to any depth (C50_nested_partial)."},
{"property": "C51", "status": "partial", "theorems": ["Uax.C51_isolates_partial", "Uax.C51_nested_partial", "Uax.C51_violated", "Uax.C51_pdi_violated", "Uax.C51_ended_partial"], "note": "Violated for empty paragraphs (C51_violated) and unmatched PDI (C51_pdi_violated). Proved for all other texts with European numbers in left-to-right context, without isolates or with closed, separated isolates as in C41, nested to any depth."},
{"property": "C52", "status": "partial", "theorems": ["Uax.C52_directions_partial", "Uax.C52_violated", "Uax.C52_number_violated", "Uax.C52_isolate_violated", "Uax.C52_nested_violated", "Uax.C52_outside_partial", "Uax.C52_embedding_violated", "Uax.C52_brackets_partial", "Uax.C52_bracket_violated", "Uax.C52_separators_violated"], "note": "Violated (C52_violated: \"A +B\" with R for upper case letters; C52_separators_violated: W4 for several separators; C52_number_violated: \"1 a\" in a right-to-left paragraph; C52_isolate_violated: white space before an isolate; C52_nested_violated: DirectionAt does not look into isolates; C52_bracket_violated: the space in \"A (B)\"; C52_embedding_violated: an isolate between letters of different directions in a right-to-left paragraph). Proved for texts of letters, European numbers in left-to-right context with separators and terminators, marks and neutrals, where a remaining separator comes directly after a neutral or a separator of another kind only if the next other character is a neutral too, or the direction there is the one of the paragraph. With brackets (C52_brackets_partial): also for texts whose brackets are all in pairs with letters inside, which get the embedding direction from inside or are decided by a letter before them, without marks after brackets, where neutrals directly before brackets have the direction of the paragraph. With isolates nested to any depth (C52_outside_partial): for all characters outside of the isolates, the initiators and the PDIs, in left-to-right paragraphs with letters, numbers, marks and neutrals outside, where a neutral stands directly before an isolate only if the direction there is the one of the paragraph. Missing: other brackets, the text in isolates, Arabic numbers, and the texts of the violations."},
{"property": "C53", "status": "partial", "theorems": ["Uax.C53_lookup_exact", "Uax.C53_one_value_partial", "Uax.C53_violated"], "note": "Violated for U+0000 (C53_violated); proved for all other runes."},
{"property": "C54", "status": "partial", "theorems": ["Uax.C54_generated_partial", "Uax.C54_violated", "Uax.C54_joiner_violated", "Uax.C54_published", "Uax.C54_wellformed_partial", "Uax.C54_wellformed_violated", "Uax.C54_latin_partial", "Uax.C54_latin_violated"], "note": "Violated for every category (C54_violated, C54_joiner_violated), for U+10000 (C54_wellformed_violated) and for LatinOffset of tables in Latin-1 (C54_latin_violated). Proved: what exactly is generated, that the published tables are such tables, and that they are well-formed otherwise, with LatinOffset the number of ranges in Latin-1."},
{"property": "C55", "status": "partial", "theorems": ["Uax.C55_grapheme_classes", "Uax.C55_word_classes", "Uax.C55_grapheme_pictographs", "Uax.C55_word_pictographs_partial", "Uax.C55_violated"], "note": "Violated for six pictographs which are letters (C55_violated); proved for all other code points."},
{"property": "C56", "status": "partial", "theorems": ["Uax.C56_hangul_syllables", "Uax.C56_hangul_syllables_only", "Uax.C56_jamo", "Uax.C56_special", "Uax.C56_ascii_graphemes", "Uax.C56_ascii_words", "Uax.C56_violated"], "note": "Violated for U+FFFD (C56_violated); proved for Hangul, jamo, line ends, ZWJ, regional indicators and ASCII."},
{"property": "C57", "status": "partial", "theorems": ["Uax.C57_sound", "Uax.C57_complete", "Uax.C57_violated"], "note": "Violated: three classes are never reported (C57_violated). Soundness and completeness are proved for all runes."},
{"property": "C58", "status": "proved", "theorems": ["Uax.C58_graphemes", "Uax.C58_words", "Uax.C58_runs", "Uax.C58_strings"], "note": "With the tables of /repo, for all texts of ASCII characters but NUL."},
{"property": "C59", "status": "partial", "theorems": ["Uax.C59_character_partial", "Uax.C59_string_partial", "Uax.C59_violated", "Uax.C59_joiner_violated"], "note": "Violated for digits, # and * (C59_violated), and the zero width joiner has width 2 (C59_joiner_violated); the exact width of all printable ASCII strings is proved."},
{"property": "C60", "status": "proved", "theorems": ["Uax.C60_after_setup", "Uax.C60_real_classes", "Uax.C60_once", "Uax.C60_no_deadlock", "Uax.C60_bounded", "Uax.C60_setup_needed"], "note": "Interleavings of memory accesses; sync.Once as documented. C60_setup_needed shows that a look-up without set-up panics or is wrong."},
{"property": "C61", "status": "partial", "theorems": ["Uax.C61_document_partial", "Uax.C61_no_data", "Uax.C61_returns", "Uax.C61_lines", "Uax.C61_file_partial", "Uax.C61_tables_partial", "Uax.C61_brackets_partial", "Uax.C61_bracket_file", "Uax.C61_classes_partial", "Uax.C61_indented_violated", "Uax.C61_empty_field_violated", "Uax.C61_last_digit_violated", "Uax.C61_comment_violated", "Uax.C61_reader_error_violated", "Uax.C61_reader_panic_violated", "Uax.C61_field_violated", "Uax.C61_classes_violated"], "note": "Proved for all lines of an error-free reader and all rows whose first field is not empty if there are several (C61_document_partial and its corollaries for files in pieces, tables and brackets); the _violated theorems show what gets lost otherwise."},
{"property": "C62", "status": "partial", "theorems": ["Uax.C62_cases_partial", "Uax.C62_segments_partial", "Uax.C62_blank_violated", "Uax.C62_end_violated"], "note": "Proved for all files without blank lines whose tests end with a division mark; violated otherwise (C62_blank_violated, C62_end_violated)."},
{"property": "C63", "status": "partial", "theorems": ["Uax.C63_isolates_partial", "Uax.C63_isolate_violated", "Uax.C63_nested_violated", "Uax.C63_brackets_partial", "Uax.C63_visual_partial", "Uax.C63_runs_partial", "Uax.C63_violated"], "note": "Violated (C63_violated: \"A +B\" with R for upper case letters; C63_isolate_violated: an isolate next to text from right to left; C63_nested_violated: an isolate in an isolate). Proved for the texts of C52_directions_partial (C63_visual_partial, C63_runs_partial), for texts with bracket pairs as in C52_brackets_partial (C63_brackets_partial), all schedules and both directions, and for left-to-right texts with isolates among text from left to right (C63_isolates_partial)."},
{"property": "C64", "status": "partial", "theorems": ["Uax.C64_rtl_letters_partial", "Uax.C64_ltr", "Uax.C64_ltr_run_partial", "Uax.C64_rtl_run_partial", "Uax.C64_rtl_partial", "Uax.C64_mark_violated", "Uax.C64_rtl_violated", "Uax.C64_joiner_violated"], "note": "C64_ltr is the full statement for DirectionAt of left-to-right texts. Violated for a leading nonspacing mark (C64_mark_violated) and for DirectionAt of brackets and invisible characters in right-to-left paragraphs (C64_rtl_violated, C64_joiner_violated). Runs are proved for all texts that do not begin with a mark; DirectionAt of right-to-left texts for letters, marks, separators, terminators and neutrals. C64_rtl_letters_partial: letters and their marks are right-to-left for DirectionAt in all right-to-left texts."},
{"property": "C65", "status": "partial", "theorems": ["Uax.C65_largest_segment", "Uax.C65_no_allocation", "Uax.C65_panics", "Uax.C65_default_violated", "Uax.C65_empty_violated"], "note": "Size, no allocation and panics are proved for all histories and non-empty buffers. Violated: default size (C65_default_violated), empty buffers (C65_empty_violated)."},
{"property": "C66", "status": "partial", "theorems": ["Uax.C66_found_partial", "Uax.C66_distinct", "Uax.C66_position_partial", "Uax.C66_frozen", "Uax.C66_position_violated", "Uax.C66_one_letter_violated", "Uax.C66_thawed_violated", "Uax.C66_alias_violated", "Uax.C66_full_violated", "Uax.C66_empty_violated"], "note": "Proved for all sequences of words that can be stored: exactly the prefixes of stored words are found (two letters or more), different words at different positions, the last word at its position, lookup by AllocPositionForWord. Violated: positions of earlier words go stale (C66_position_violated), one-letter words (C66_one_letter_violated), lookup before Freeze (C66_thawed_violated), a category taken for 0 (C66_alias_violated), panics (C66_full_violated, C66_empty_violated)."},
{"property": "C67", "status": "partial", "theorems": ["Uax.C67_delimiters_partial", "Uax.C67_silent", "Uax.C67_start_violated", "Uax.C67_class_violated"], "note": "Proved for all texts, schedules and markup functions which do not ask for anything at position 0, by a bisimulation of the two scanners. Violated at position 0 (C67_start_violated) and for classes instead of constants (C67_class_violated)."},
{"property": "C68", "status": "partial", "theorems": ["Uax.C68_options_partial", "Uax.C68_off_violated", "Uax.C68_legacy"], "note": "Proved: an option is in effect iff one of the calls switched it on, in any order; RecognizeLegacy has no effect. Violated: switching off (C68_off_violated)."},
{"property": "C69", "status": "partial", "theorems": ["Uax.C69_violated", "Uax.C69_fsi_violated", "Uax.C69_own_partial", "Uax.C69_directions_partial", "Uax.C69_nested_partial", "Uax.C69_embedding_violated"], "note": "Proved for every text with isolates that are matched, not nested, not empty and without brackets inside, with text between them, and numbers in left-to-right context: the nested run is that of the isolate's text as a paragraph of its own, moved, whatever is around it, and for every two schedules (C69_own_partial); and its directions are those of rules W1-N2 (C69_directions_partial; without Arabic numbers, and separators as in C52). For isolates nested to any depth (C69_nested_partial): at every level, the nested run gives the directions of the standard for the sequence of the isolate with the initiators and PDIs inside it, in left-to-right isolates or isolates with none inside, with letters, European numbers, marks and neutrals, and neutrals before inner isolates as in C52_outside_partial. Missing: FSI, isolates beginning with a nonspacing mark. Violated: numbers after an Arabic letter outside (C69_violated). Violated: direction of isolates with FSI (C69_fsi_violated). Violated: an isolate between letters of different directions in a right-to-left isolate (C69_embedding_violated)."},
{"property": "C70", "status": "proved", "theorems": ["Uax.C70_graphemes", "Uax.C70_words", "Uax.C70_lines", "Uax.C70_needs_crlf", "Uax.C70_simple_breaker_differs"], "note": "For all three breakers and all divisions into lines, by showing that no rule of the exact specifications of C22, C26 and C29 looks over a line end. CR LF must not be separated (C70_needs_crlf). The simple word breaker takes line ends for white space and is not part of the property (C70_simple_breaker_differs)."},
{"property": "C71", "status": "partial", "theorems": ["Uax.C71_rule", "Uax.C71_pairs_partial", "Uax.C71_bracket_violated", "Uax.C71_nested_violated", "Uax.C71_beginning_violated", "Uax.C71_arabic_violated", "Uax.C71_number_violated", "Uax.C71_empty_violated", "Uax.C71_mark_violated"], "note": "Proved for texts without isolates, Arabic letters and Arabic numbers, with European numbers after letters of left-to-right scripts: every pair with a letter inside gets its direction from rule N0, if the direction comes from inside the pair or from a letter before it. Violated for pairs whose direction comes from another bracket (C71_bracket_violated, C71_nested_violated) or from the beginning of a right-to-left text (C71_beginning_violated), after Arabic letters (C71_arabic_violated), for pairs without strong characters (C71_empty_violated), for pairs with a number but no letter inside (C71_number_violated) and for marks after brackets (C71_mark_violated). C71_rule says that the rule determines the directions. Missing: Arabic numbers and isolates; texts of 65536 bytes or more (distances in the code are capped)."},
{"property": "C72", "status": "partial", "theorems": ["Uax.C72_brackets_partial", "Uax.C72_lines_partial", "Uax.C72_receiver_exactly", "Uax.C72_receiver_violated", "Uax.C72_end_violated", "Uax.C72_embedding_violated"], "note": "Proved for the texts of C63 (letters of both directions, marks, neutrals, numbers that are resolved as letters, bracket pairs as in C52_brackets_partial) and all divisions into lines. Violated for the receiver of Split (C72_receiver_violated; C72_receiver_exactly says for all contiguous levels what happens to it), for a split at the end of the text (C72_end_violated) and for numbers in right-to-left paragraphs (C72_embedding_violated). Missing: lines of texts with isolates, see C39."},
{"property": "C73", "status": "partial", "theorems": ["Uax.C73_graphemes", "Uax.C73_lines", "Uax.C73_words_partial", "Uax.C73_words_violated", "Uax.C73_simple", "Uax.C73_grapheme_alone", "Uax.C73_line_alone"], "note": "Proved for graphemes, line wraps and the simple word breaker without conditions on the text other than that it has no NUL; for words it is proved for texts in which no double quote is followed by an ignorable character, and C73_words_violated shows a text of that kind with a word that is two words by itself (the reason is the defect of WB7b, see C26)."},
{"property": "C74", "status": "proved", "theorems": ["Uax.C74_grapheme", "Uax.C74_word", "Uax.C74_emoji", "Uax.C74_token", "Uax.C74_distinct", "Uax.C74_levels", "Uax.C74_run", "Uax.C74_levels_distinct", "Uax.C74_run_distinct"], "note": ""},
{"property": "C75", "status": "partial", "theorems": ["Uax.C75_words_partial", "Uax.C75_vowel_violated", "Uax.C75_joined_violated", "Uax.C75_flags_violated"], "note": "Proved for the tables of /repo and all texts without NUL, but for three exceptions, which have witnesses: the vowel signs U+0E33 and U+0EB3, which attach to a letter as graphemes only (by UAX#29 itself); the six pictographs which are also letters, after a joiner (a defect of the word breaker, see C55); two regional indicators with only ignorable characters between them (by UAX#29 itself)."},
{"property": "C76", "status": "partial", "theorems": ["Uax.C76_lines_partial", "Uax.C76_joined_violated", "Uax.C76_space_violated", "Uax.C76_flags_violated"], "note": "Proved for all tables of line break classes (they are not in /repo) and all texts without NUL, the characters of which have classes that go together, without pictographs after a joiner (C76_joined_violated, a defect: LB8a is missing), without marks after spaces (C76_space_violated, by UAX#14 itself) and without marks between regional indicators (C76_flags_violated)."},
{"property": "C77", "status": "partial", "theorems": ["Uax.C77_words_partial", "Uax.C77_words_second_partial", "Uax.C77_together_partial", "Uax.C77_lines_partial", "Uax.C77_lines_second_partial", "Uax.C77_wrapped_partial", "Uax.C77_lines_words_partial", "Uax.C77_words_lines_partial", "Uax.C77_simple_partial", "Uax.C77_simple_second_partial", "Uax.C77_simple_words_partial", "Uax.C77_simple_words_second_partial", "Uax.C77_simple_lines_partial", "Uax.C77_simple_lines_second_partial", "Uax.C77_simple_lines_violated", "Uax.C77_three_violated"], "note": "Proved for any two of words, line wraps, graphemes and runs of white space, each in both orders (C77_words_partial, C77_lines_partial, C77_lines_words_partial, C77_simple_partial, C77_simple_words_partial, C77_simple_lines_partial and their counterparts), for all tables which agree on carriage returns, all texts without NUL and all settings for penalties of 0 (off for the simple word breaker), with the boundaries of C22, C26 and C29 (that is, without GB9b, with the near rules for words, and the exceptions of C29 for lines). Violated for line wraps and the simple word breaker, if a line feed is followed by a carriage return (C77_simple_lines_violated); proved for other texts. C77_together_partial and C77_wrapped_partial: for texts of which the words (lines) are made of graphemes, the segments are the graphemes. With three breakers the penalties of the second and the third are added, so breaks are lost and cannot be told apart (C77_three_violated). Missing: texts with NUL."},
{"property": "C78", "status": "partial", "theorems": ["Uax.C78_reads", "Uax.C78_replaced", "Uax.C78_positions_partial", "Uax.C78_wellformed", "Uax.C78_positions_violated"], "note": "Proved for all bytes: they are read as exactly one text (C78_reads), and resolved as that text, whatever the schedule (C78_replaced); so all theorems about texts cover all readers. Positions are right up to the first malformed byte, and behind it larger by 2 for each one (C78_positions_partial); violated after that (C78_positions_violated)."},
{"property": "C79", "status": "partial", "theorems": ["Uax.C79_letters_partial", "Uax.C79_ltr_partial", "Uax.C79_rtl_partial", "Uax.C79_violated", "Uax.C79_space_violated"], "note": "Violated: a right-to-left word with a non-joiner is torn apart in a left-to-right paragraph (C79_violated), and neutrals next to an invisible character lose the direction of the letters around them (C79_space_violated). Proved for texts of one direction in a paragraph of this direction which do not begin with a mark, for all schedules (C79_ltr_partial; C79_rtl_partial without numbers). Letters have the same direction with and without the invisible characters in all texts of C81 (C79_letters_partial)."},
{"property": "C80", "status": "partial", "theorems": ["Uax.C80_history", "Uax.C80_graphemes_partial", "Uax.C80_words_partial", "Uax.C80_lines_partial", "Uax.C80_runs_partial", "Uax.C80_wellformed", "Uax.C80_malformed_violated"], "note": "Proved for all bytes, breakers and histories of calls (C80_history: a prefix of the text with U+FFFD for each malformed byte, for texts that fit into the buffer), and for graphemes, words, lines and runs of white space: all of the text (C80_graphemes_partial, C80_words_partial, C80_lines_partial, C80_runs_partial). For UTF-8 these are the bytes of the input (C80_wellformed); violated for malformed bytes (C80_malformed_violated)."},
{"property": "C81", "status": "partial", "theorems": ["Uax.C81_letters_partial", "Uax.C81_isolate_violated"], "note": "Violated for letters in isolates (C81_isolate_violated). Proved for all texts without isolates whose European numbers stand in left-to-right context, the texts for which resolution is proved to end (C41); no restriction on brackets, separators, Arabic numbers, invisible characters and marks."},
{"property": "C82", "status": "partial", "theorems": ["Uax.C82_digits_partial", "Uax.C82_isolate_violated"], "note": "Violated for numbers in isolates (C82_isolate_violated), and after right-to-left letters resolution need not end (C41_violated). Proved for texts without isolates and Arabic numbers which do not begin with a mark and whose European numbers stand in left-to-right context, in paragraphs of both directions."}
]}
