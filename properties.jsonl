{"id": "C01", "title": "Segments are consecutive pieces of the input", "statement": "Whatever UnicodeBreakers a Segmenter is given, the segments handed out by successive successful Next() calls, read one after the other, are a prefix of the input rune sequence: nothing is dropped, duplicated, reordered or invented between two segments. [The end-of-text mark 0 may be handed out as a last rune if a breaker grants it merits.]", "quantifier": "every list of breakers (arbitrary stateful penalties and match lengths), every input, every number of Next() calls", "why_tests_cant": "Breakers are user supplied and input is unbounded; a test fixes both.", "anchors": ["segment/segment.go: Segmenter.Next, next, readRune, readEnoughInputAndFindBreak, getFrontSegment, runewrite", "segment/deque.go: deque"]}
{"id": "C02", "title": "Segmentation cuts exactly at the feasible positions", "statement": "If a breaker never changes its mind about a position after reporting (through LongestActiveMatch) that the position is no longer part of an active match, then Next() yields exactly the pieces obtained by cutting the input after every rune whose aggregated penalty is feasible (below 10000, and non-zero unless BreakOnZero), in order, and then returns false.", "quantifier": "every breaker family meeting the stated honesty condition, every input", "why_tests_cant": "Break timing depends on the interplay of match length, queue contents and late penalties over unbounded text.", "anchors": ["segment/segment.go: readEnoughInputAndFindBreak, findBreakOpportunity, insertPenalties, getFrontSegment, isPossibleBreak"]}
{"id": "C03", "title": "Complete consumption of the text", "statement": "When the aggregated penalty after the last rune is feasible and no match is active at end of text, the concatenation of all segments is the whole input; otherwise exactly the runes after the last feasible position are withheld.", "quantifier": "every honest breaker family, every finite input", "why_tests_cant": "Depends on the artificial end-of-text atom for every text length and every breaker.", "anchors": ["segment/segment.go: readRune, eotAtom, next"]}
{"id": "C04", "title": "Reported penalties are the aggregates at the break", "statement": "After Next() returned true, Penalties() returns as first value the sum of everything the primary breaker reported for the position after the last rune of the segment up to the moment of the cut, and as second value the sum over all secondary breakers.", "quantifier": "every list of breakers, every input, every Next() call", "why_tests_cant": "Sum over unbounded sequences of breaker reports with shifting offsets.", "anchors": ["segment/segment.go: insertPenalties, inxForBreaker, getFrontSegment, Penalties"]}
{"id": "C05", "title": "Progress and termination of Next", "statement": "Every Next() call returns after reading finitely many runes; every successful Next() delivers at least one rune; for an input of n runes at most n+1 calls succeed; once Next() returned false because the text is exhausted it keeps returning false.", "quantifier": "every list of breakers, every finite input", "why_tests_cant": "Termination and stickiness quantify over all histories.", "anchors": ["segment/segment.go: next, readEnoughInputAndFindBreak"]}
{"id": "C06", "title": "Slice input and reader input agree", "statement": "InitFromSlice(runes) and Init(reader over the same runes) make Next() produce the same sequence of results, segments and penalties (for the slice, Runes() is a window of the caller's slice).", "quantifier": "every list of breakers, every rune sequence whose segments fit the output buffer", "why_tests_cant": "Two different output representations must agree for every cut sequence.", "anchors": ["segment/segment.go: Init, InitFromSlice, runeread, runewrite"]}
{"id": "C07", "title": "Re-initialising a Segmenter forgets the previous text", "statement": "After any history of Next/BoundedNext calls, Init(reader) puts the segmenter into the state of a freshly created and initialised one except for Err(): with breakers in their start state it yields the same segments and penalties as a new segmenter.", "quantifier": "every history of calls before re-initialisation, every input", "why_tests_cant": "Histories are unbounded; stale queue contents, flags and break positions must all be gone.", "anchors": ["segment/segment.go: Init, init", "segment/deque.go: Clear"]}
{"id": "C08", "title": "Read errors stop segmentation and are reported", "statement": "If the reader fails with an error other than io.EOF, the Next() call that meets the error returns false, Err() returns exactly that error, all later Next() calls return false, and io.EOF is never reported through Err().", "quantifier": "every list of breakers, every finite prefix of runes before the failure, every error value", "why_tests_cant": "The failure can strike at any position of any text.", "anchors": ["segment/segment.go: readRune, next, setErr, Err"]}
{"id": "C09", "title": "A segment is never silently truncated", "statement": "Text() of a segment contains all runes of the segment, or the overflow is visible through Err() (ErrTooLong). [The code violates this: reader-based segments longer than the buffer are truncated and the error is dropped.]", "quantifier": "every segment length, every output buffer capacity and maximum", "why_tests_cant": "Needs inputs beyond any fixed buffer size.", "anchors": ["segment/segment.go: runewrite.WriteRune, RuneBuffer, getFrontSegment"]}
{"id": "C10", "title": "BoundedNext does not hand out text beyond the bound", "statement": "A segment returned by BoundedNext(b) never contains a rune at or after position b. [Violated when the end of the text is already in the queue; holds while the end of text has not been read.]", "quantifier": "every list of breakers, every input, every bound, every history of Next/BoundedNext calls", "why_tests_cant": "Interaction of bound, queue length, active match and end-of-text is combinatorial.", "anchors": ["segment/segment.go: BoundedNext, readEnoughInputAndFindBreak, findBreakOpportunity, getFrontSegment"]}
{"id": "C11", "title": "Mixed histories of Next and BoundedNext lose no text", "statement": "For any interleaving of Next() and BoundedNext(b) calls the segments handed out, read one after the other, followed by what is still queued, are exactly the runes read so far.", "quantifier": "every list of breakers, every finite call history with arbitrary bounds, every input", "why_tests_cant": "Unbounded call histories.", "anchors": ["segment/segment.go: next, getFrontSegment"]}
{"id": "C12", "title": "Using a Segmenter before Init is reported, not fatal", "statement": "Next() on a segmenter that was never initialised returns false and Err() returns ErrNotInitialized. [Violated: the call dereferences a nil queue.]", "quantifier": "every list of breakers", "why_tests_cant": "A test of the documented contract exists only for initialised segmenters.", "anchors": ["segment/segment.go: next, ErrNotInitialized"]}
{"id": "C13", "title": "Feasibility of penalties", "statement": "A position is feasible iff its penalty is below 10000 and either non-zero or BreakOnZero was requested for that breaker group; positions at or above 10000 are never broken by Next(), whatever BreakOnZero says. [Violated for the first Next() after a BoundedNext, which may use a break position that was chosen for the bound.]", "quantifier": "every penalty value, every BreakOnZero setting, every breaker list and input", "why_tests_cant": "All integers and all texts.", "anchors": ["segment/segment.go: isPossibleBreak, BreakOnZero, findBreakOpportunity"]}
{"id": "C14", "title": "The rune queue behaves as an ideal double-ended sequence", "statement": "For every sequence of PushBack, PushFront, PopFront, PopBack, SetAt, Clear and Rotate the queue holds exactly the elements a mathematical list would hold, in the same order; Front, Back, At, LastRune and Len answer accordingly; Pop/Front/Back on an empty queue and At/SetAt out of range panic and nothing else does.", "quantifier": "every history of operations, every element, every queue length including across growth and shrinking", "why_tests_cant": "Ring-buffer wrap-around, growth and shrink points depend on unbounded histories.", "anchors": ["segment/deque.go: deque"]}
{"id": "C15", "title": "Queue capacity discipline", "statement": "The queue's buffer capacity is always 0 or a power of two of at least 64, never smaller than the number of elements, and after removing elements it is at most four times the element count unless it is the minimum size or the queue has only grown/cleared since.", "quantifier": "every history of queue operations", "why_tests_cant": "Amortisation invariants range over histories.", "anchors": ["segment/deque.go: growIfFull, shrinkIfExcess, resize"]}
{"id": "C16", "title": "Every subscriber sees every rune event exactly once", "statement": "PublishRuneEvent delivers the event to each current subscriber exactly once, although the queue is reorganised during the delivery.", "quantifier": "every set of subscribers with arbitrary behaviour, every history of subscriptions and events", "why_tests_cant": "The in-place swaps depend on which of unboundedly many subscribers finish.", "anchors": ["automata.go: PublishRuneEvent", "prioq.go: Fix, bubbleUp, bubbleDown"]}
{"id": "C17", "title": "Published penalties are index-wise sums and the longest match is exact", "statement": "PublishRuneEvent returns, for every index, the sum of the penalties returned by all subscribers at that index, independent of subscription order, and the maximum match length of the subscribers that remain active (0 if none).", "quantifier": "every multiset of subscribers and penalty lists of any length", "why_tests_cant": "Aggregation order and lengths are unbounded.", "anchors": ["automata.go: PublishRuneEvent"]}
{"id": "C18", "title": "Finished subscribers are unsubscribed, active ones are kept", "statement": "After PublishRuneEvent exactly the subscribers that are Done() have been removed and received Unsubscribed() exactly once; all others are still subscribed; the internal-order panic cannot occur as long as subscribers only change their Done() state during rune events.", "quantifier": "every history of SubscribeMe and PublishRuneEvent calls with arbitrary subscribers", "why_tests_cant": "Invariant over unbounded histories.", "anchors": ["automata.go: PublishRuneEvent, SubscribeMe", "prioq.go: PopDone, Pop, Push, Fix"]}
{"id": "C19", "title": "Top and PopDone of the publisher queue", "statement": "Top() returns a Done() subscriber whenever one exists; PopDone() returns nil only if no subscriber is Done(); Fix(i) after the Done flag of subscriber i changed restores this.", "quantifier": "every reachable queue, every index, every flag change followed by Fix", "why_tests_cant": "Reachable queue orders are unbounded.", "anchors": ["prioq.go: Top, PopDone, Fix, bubbleUp, bubbleDown, Push, Pop"]}
{"id": "C20", "title": "Pooled recognizers behave like new ones", "statement": "A recognizer obtained with NewPooledRecognizer after arbitrary earlier use and release behaves, for any rune sequence, like one made with NewRecognizer (the client-owned UserData field excepted).", "quantifier": "every earlier life of the pooled object, every state function, every rune sequence", "why_tests_cant": "History dependence of a shared pool.", "anchors": ["automata.go: NewPooledRecognizer, releaseIntoPool, RuneEvent, DoAbort, DoAccept"]}
{"id": "C21", "title": "The simple word breaker cuts at whitespace changes", "statement": "A Segmenter with the default SimpleWordBreaker splits any text (without NUL characters) into the maximal runs of whitespace and of non-whitespace, with penalty 100 after a word run and -100 after a whitespace run, and delivers all of the text.", "quantifier": "every NUL-free text and every whitespace predicate", "why_tests_cant": "All texts.", "anchors": ["segment/simplewordbreak.go: SimpleWordBreaker", "segment/segment.go: NewSegmenter"]}
{"id": "C22", "title": "Grapheme segmentation follows UAX#29", "statement": "A Segmenter with grapheme.Breaker cuts any NUL-free text exactly at the grapheme cluster boundaries defined by rules GB1-GB999 of UAX#29. [Violated for GB9b: text is cut after Prepend characters; proved for the rule set without GB9b.]", "quantifier": "every sequence of grapheme classes", "why_tests_cant": "Rules with unbounded context (emoji ZWJ sequences, regional indicator parity) over all sequences.", "anchors": ["grapheme/grapheme.go: Breaker, rule_*"]}
{"id": "C23", "title": "CR LF is one grapheme and controls stand alone", "statement": "For every text, CR immediately followed by LF is never separated, and there is always a grapheme boundary before and after every CR, LF and Control character otherwise.", "quantifier": "every sequence of grapheme classes", "why_tests_cant": "All contexts.", "anchors": ["grapheme/grapheme.go: rule_NewLine, rule_CRLF, rule_Control"]}
{"id": "C24", "title": "Flags are paired", "statement": "In every maximal run of Regional_Indicator characters grapheme, word and line segmentation cut exactly after every second one. (For words and lines: every run that does not directly follow a combining mark or ignorable character, because that belongs to the character before it.)", "quantifier": "every text, every run length", "why_tests_cant": "Parity over unbounded runs and blocking state.", "anchors": ["grapheme/grapheme.go: rule_GB12, rule_GB12Cont", "uax29/uax29.go: rule_WB15, finish_WB15", "uax14/rules.go: rule_LB30a, finish_LB30a"]}
{"id": "C25", "title": "Breakers can be reused for a new text after end of text", "statement": "After a breaker has processed a complete text including end of text it is back in its initial state, so that segmenting a further text with the same breaker gives the same result as a new breaker.", "quantifier": "every text, for grapheme, word and line breakers", "why_tests_cant": "State leaks depend on how the text ended.", "anchors": ["grapheme/grapheme.go: Breaker", "uax29/uax29.go: WordBreaker", "uax14/uax14.go: LineWrap"]}
{"id": "C26", "title": "Word segmentation follows UAX#29", "statement": "A Segmenter with uax29.WordBreaker cuts any NUL-free text exactly at the word boundaries defined by WB1-WB999 of UAX#29. [Violated for WB7b when Extend, Format or ZWJ characters follow the double quote, and for WB3c with pictographic characters that have a word break property; proved for all other texts.]", "quantifier": "every sequence of word break classes", "why_tests_cant": "Rules look through unbounded runs of ignorable characters.", "anchors": ["uax29/uax29.go: WordBreaker, rule_*, finish_*, cont_*"]}
{"id": "C27", "title": "Mandatory line breaks", "statement": "For every text LineWrap reports a mandatory break (penalty at most -9000) after every BK, LF, NL and after every CR not followed by LF, never breaks between CR and LF, and always breaks at end of text. [The bound on the penalty is violated by the code.]", "quantifier": "every sequence of line break classes", "why_tests_cant": "All contexts and active rules.", "anchors": ["uax14/rules.go: rule_05_NewLine, rule_05_CRLF, rule_LB3"]}
{"id": "C28", "title": "Prohibited line breaks", "statement": "For every text LineWrap never offers a break before SP, ZW, BK, CR, LF, NL (LB6, LB7), before or after WJ except after ZW/mandatory breaks (LB11), before CL, CP, EX, IS, SY even after spaces (LB13), after OP SP* (LB14), nor inside a combining sequence (LB9).", "quantifier": "every sequence of line break classes", "why_tests_cant": "Sums of many simultaneously active rules.", "anchors": ["uax14/uax14.go: ProceedWithRune, substitueSomeClasses", "uax14/rules.go"]}
{"id": "C29", "title": "Line segmentation follows UAX#14", "statement": "A Segmenter with uax14.LineWrap cuts any NUL-free text exactly at the break opportunities of LB1-LB31 as listed in rules.go. [Violated for LB8a, and for marks after flags, brackets and hyphens; proved for all other texts.]", "quantifier": "every sequence of line break classes", "why_tests_cant": "Unbounded active number/space contexts.", "anchors": ["uax14/uax14.go", "uax14/rules.go"]}
{"id": "C30", "title": "A grapheme string is the concatenation of its graphemes", "statement": "For every non-empty valid UTF-8 string without U+FFFD and NUL within the size limit, StringFromString(s).String() is s, the Nth(i) for i from 0 to Len()-1 are non-empty, concatenate to s, and are the segments of the grapheme segmentation of s. [Violated for clusters of more than 4096 runes, whose tail is lost; proved for all others.]", "quantifier": "every valid string up to 65534 bytes", "why_tests_cant": "All strings and the two storage variants.", "anchors": ["grapheme/string.go: makeShortString, makeMidString, Nth, Len, String"]}
{"id": "C31", "title": "Break offsets never overflow", "statement": "All grapheme boundaries stored as uint8 (short) or uint16 (mid) equal the true byte offsets; StringFromString panics exactly for inputs of 65535 bytes or more; Nth panics exactly for n<0 or n>max(Len-1,0).", "quantifier": "every string length, every index", "why_tests_cant": "Boundary arithmetic at type limits.", "anchors": ["grapheme/string.go: StringFromString, makeShortString, makeMidString"]}
{"id": "C32", "title": "StringFromString is total on small inputs", "statement": "StringFromString returns for every input below the size limit, and yields a string of length 0 if there is no legal rune. [Violated: the empty string and inputs starting with an illegal code point panic, inputs starting with a continuation byte never return.]", "quantifier": "every byte string", "why_tests_cant": "All malformed inputs.", "anchors": ["grapheme/string.go: prepareBreaking", "uax.go: PositionOfFirstLegalRune"]}
{"id": "C33", "title": "PositionOfFirstLegalRune finds the first legal rune", "statement": "Returns the least index at which a legal code point starts together with the skipped prefix, or -1. [Violated: only index 0 is ever examined and continuation bytes loop forever; proved for inputs starting with a legal rune.]", "quantifier": "every byte string", "why_tests_cant": "All malformed inputs.", "anchors": ["uax.go: PositionOfFirstLegalRune"]}
{"id": "C34", "title": "Grapheme widths are 0, 1 or 2", "statement": "Width returns 0 exactly for input that is empty or whose first code point is illegal (when it returns), otherwise 1 or 2, and 2 whenever the first code point is an emoji or East Asian Wide/Fullwidth; the East Asian context never gives a smaller width than the Latin one. [Violated: zero width runes have width 1 although the documentation promises 0; the call never returns for a leading continuation byte and panics before SetupEmojisClasses.]", "quantifier": "every byte slice, every context, every width/emoji table", "why_tests_cant": "All inputs and tables.", "anchors": ["uax11/width.go: Width, graphemeWidth, resolveToNarrow, resolveToWide"]}
{"id": "C35", "title": "String width is additive", "statement": "StringWidth of a grapheme string is the sum of the widths of its graphemes and lies between Len() and 2*Len().", "quantifier": "every grapheme string, every context", "why_tests_cant": "All strings.", "anchors": ["uax11/width.go: StringWidth"]}
{"id": "C36", "title": "Context resolution", "statement": "A context with ForceEastAsian, or whose script (given, or derived from the locale) is East Asian or South East Asian, resolves to the wide policy; otherwise the locale match decides; a context's resolution is fixed by its first use.", "quantifier": "every context, every locale/script database", "why_tests_cant": "All locales.", "anchors": ["uax11/width.go: evaluateContext, findResolver"]}
{"id": "C37", "title": "Bracket pairing follows BD16", "statement": "When a paragraph is resolved, asking for the partner of an opening or closing bracket of an isolating run gives exactly the partner which the BD16 stack algorithm (63 entries, canonical equivalents match) assigns to it, and none if it assigns none.", "quantifier": "every bracket sequence", "why_tests_cant": "Nesting depth and mismatches unbounded.", "anchors": ["bidi/brackets.go: bracketPairHandler, pushOpening, findPair"]}
{"id": "C38", "title": "Reordering only permutes", "statement": "Reversing and reordering resolved scraps neither loses nor duplicates text: the reordered runs are a permutation of the resolved ones, reversal twice is identity, and in an all-left-to-right line nothing moves.", "quantifier": "every list of resolved scraps", "why_tests_cant": "All run sequences.", "anchors": ["bidi/reordering.go: reorder, reverse"]}
{"id": "C39", "title": "Splitting resolved levels at a position", "statement": "Split(at) yields two level sequences covering [start,at) and [at,end) of the paragraph with unchanged classes on each side.", "quantifier": "every resolved sequence, every split position", "why_tests_cant": "All positions and nestings.", "anchors": ["bidi/reordering.go: Split, split"]}
{"id": "C40", "title": "Rule lookup finds exactly the applicable rules", "statement": "For every sequence of bidi classes the rule lookup used by the resolver returns the rule whose left-hand side is a prefix of the sequence (the longest one), and nothing otherwise.", "quantifier": "every class sequence", "why_tests_cant": "Trie packing arithmetic over all paths.", "anchors": ["bidi/resolver.go: matchRulesLHS, prepareRules", "bidi/trie/hashtrie.go"]}
{"id": "C41", "title": "Resolution terminates", "statement": "ResolveParagraph returns for every text, whatever bidi classes its characters have. [Violated: two numbers after a right-to-left letter, or two isolate initiators, keep it busy for ever. Proved for texts with European numbers in left-to-right context, without isolates or with closed isolates that are separated and not nested.]", "quantifier": "every text, every table of character properties, every schedule", "why_tests_cant": "Rewriting with rule actions over unbounded input.", "anchors": ["bidi/resolver.go: reduce, pass1, pass2"]}
{"id": "C42", "title": "Resolved scraps tile the paragraph", "statement": "The scraps after resolution are contiguous intervals covering the whole paragraph, so that every byte has one direction. [Violated by several W/N rules which drop or duplicate scraps; proved for texts without Arabic numbers, with European numbers in left-to-right context, without isolates or with closed isolates that are separated and not nested.]", "quantifier": "every text, every table of character properties, every schedule", "why_tests_cant": "All rule interleavings.", "anchors": ["bidi/actions.go", "bidi/resolver.go"]}
{"id": "C43", "title": "Weak type resolution W1-W3 during scanning", "statement": "The scanner changes EN to AN iff the last strong character of the isolating run is AL, AL to R, and NSM to the class of the previous character.", "quantifier": "every sequence of bidi classes", "why_tests_cant": "Unbounded contexts.", "anchors": ["bidi/scanner.go"]}
{"id": "C44", "title": "Visual runs of flattened levels", "statement": "Flattening reordered levels yields runs of alternating embedding direction whose lengths add up to the paragraph length. [Violated when a nested run has the direction of the last run.]", "quantifier": "every ordering", "why_tests_cant": "All nestings.", "anchors": ["bidi/reordering.go: flatten, appendRuns, runs"]}
{"id": "C45", "title": "Multiple breakers", "statement": "With several breakers a segment ends where the primary penalty is feasible or the aggregated secondary penalty is feasible; the secondary penalty is ignored when there is only one breaker; the first breaker counts as primary, all others as secondary.", "quantifier": "every list of breakers, every input", "why_tests_cant": "All breaker combinations.", "anchors": ["segment/segment.go: findBreakOpportunity, inxForBreaker"]}
{"id": "C46", "title": "A bounded call does not cost the rest of the text", "statement": "After BoundedNext(b) has delivered the text up to its bound, later Next() calls deliver the rest of the text. [Violated: when the bounded call has already read the end of the text, the rest is never delivered.]", "quantifier": "every list of breakers, every text, every bound", "why_tests_cant": "All call histories.", "anchors": ["segment/segment.go: next, getFrontSegment, findBreakOpportunity"]}
{"id": "C47", "title": "Visual order follows rule L2", "statement": "Reorder puts the scraps of a run in the order of rule L2 of UAX#9: from the highest level down, every sequence of scraps with at least that level is reversed (a right-to-left run is listed from right to left). [Violated for neighbouring numbers in a left-to-right run, which are exchanged.]", "quantifier": "every list of resolved scraps", "why_tests_cant": "All orders and lengths of runs.", "anchors": ["bidi/reordering.go: reorder, reverse, level"]}
{"id": "C48", "title": "Reorder returns, and returns the same again", "statement": "Reorder does not panic for the levels of any resolved paragraph, and calling it again gives the same ordering. [Violated: it panics for a paragraph starting with a left-to-right isolate and for FSI, and it changes its receiver.]", "quantifier": "every resolved paragraph", "why_tests_cant": "All nestings of isolates.", "anchors": ["bidi/reordering.go: Reorder, flatten, findEmbeddingDir, concat"]}
{"id": "C49", "title": "Segments of a run", "statement": "A SegmentIterator visits every segment of its run exactly once, in order or in reverse order as asked for, with the direction of the run, and ends after that; EOF holds from the last segment on. [The run is changed by the reverse order: violated for a second iterator.]", "quantifier": "every run, every number of calls", "why_tests_cant": "All lengths.", "anchors": ["bidi/reordering.go: SegmentIterator, Next, Segment"]}
{"id": "C50", "title": "Resolution does not depend on the schedule", "statement": "Scanner and parser run as two goroutines; the levels returned by ResolveParagraph are the same in whatever order the two run. [Violated for brackets in isolates; proved for all texts without isolates.]", "quantifier": "every text, every table of character properties, every pair of schedules", "why_tests_cant": "All interleavings of two goroutines.", "anchors": ["bidi/resolver.go: ResolveParagraph, findBD16ForPos", "bidi/scanner.go: Scan, findBD16ForPos"]}
{"id": "C51", "title": "No goroutine is left behind", "statement": "ResolveParagraph starts a goroutine which scans the text; when ResolveParagraph has returned, it has ended. [Violated for empty paragraphs and for a PDI without an initiator; proved for all other texts with European numbers in left-to-right context, without isolates or with closed isolates that are separated and not nested.]", "quantifier": "every text, every table of character properties, every schedule", "why_tests_cant": "All interleavings of two goroutines.", "anchors": ["bidi/resolver.go: ResolveParagraph, pass1", "bidi/scanner.go: Scan, stop"]}
{"id": "C52", "title": "Directions of UAX#9", "statement": "After ResolveParagraph, DirectionAt gives for every byte of the paragraph the direction which the rules W1 to W7, N1, N2, I1 and I2 of UAX#9 give to the character it belongs to. [Violated: separators after white space or after each other are not resolved together with them, numbers before the first letter of a right-to-left paragraph count as letters, and isolates are not looked into.]", "quantifier": "every text, every table of character properties, both embedding directions, every position, every schedule", "why_tests_cant": "All texts and all orders in which rules apply.", "anchors": ["bidi/resolver.go: ResolveParagraph, pass1, pass2, reduce", "bidi/uaxrules.go: rules W4 to N2", "bidi/reordering.go: DirectionAt"]}
{"id": "C53", "title": "One shaping category per character", "statement": "Looking up a character with unicode.Is in the tables of package shaping answers exactly what their ranges say, and no character is in two tables for joining types, two for positional categories, or two for syllabic categories. [Violated for U+0000, which is in all 56 tables.]", "quantifier": "every code point, every table of the package", "why_tests_cant": "Over a million code points and 56 tables.", "anchors": ["shaping/arabictables.go", "shaping/uipctables.go", "shaping/uisctables.go"]}
{"id": "C54", "title": "Generated tables contain what the UCD lists", "statement": "A range table written by the table generator contains a character iff a row of the UCD file lists it for that category, and is well-formed for unicode.Is. [Violated: the last block of rows of every category is lost and U+0000 is added; U+10000 gets into the wrong half.]", "quantifier": "every ascending list of rows", "why_tests_cant": "All UCD files.", "anchors": ["internal/ucdparse/gentables.go", "shaping/uisctables.go: UISC_Joiner"]}
{"id": "C55", "title": "Break class of a character", "statement": "A character is found in the table of its break class, and in no other, so that its class does not depend on the order in which the tables are searched; the pictographs of GB11 and WB3c are those of the emoji data. [Violated for six pictographs which are also letters of UAX#29.]", "quantifier": "every code point", "why_tests_cant": "Over a million code points in all tables.", "anchors": ["grapheme/graphemeclasses.go", "uax29/uax29classes.go", "emoji/emojiclasses.go", "grapheme/grapheme.go: ClassForRune", "uax29/uax29.go: ClassForRune"]}
{"id": "C56", "title": "Break classes defined by rules of the standard", "statement": "Precomposed Hangul syllables have the class LV or LVT given by the arithmetic of the Unicode standard, conjoining jamo L, V and T; CR, LF, the zero width joiner, the regional indicators and the ASCII characters have the classes of UAX#29. U+FFFD has no special class. [Violated: U+FFFD is in the table of controls, so that marks after it are cut off.]", "quantifier": "every code point", "why_tests_cant": "All code points of the algorithmically defined classes.", "anchors": ["grapheme/graphemeclasses.go", "uax29/uax29classes.go"]}
{"id": "C57", "title": "Emoji classes", "statement": "EmojisClassForRune reports a class iff the character is in one of the emoji tables, and then a class whose table contains it; every class can be reported. [Violated: three of the six classes are never reported, being contained in others.]", "quantifier": "every code point", "why_tests_cant": "All code points.", "anchors": ["emoji/emoji.go: EmojisClassForRune", "emoji/emojiclasses.go"]}
{"id": "C58", "title": "Graphemes and words of ASCII texts", "statement": "With the tables of the package, the grapheme breaker cuts every ASCII text between any two characters but CR LF; the word breaker yields the words of UAX#29: runs of letters, digits and low lines, together with single separators inside of words and numbers, and runs of spaces. A grapheme string of ASCII bytes without CR has as many graphemes as bytes.", "quantifier": "every text of ASCII characters but NUL, every length", "why_tests_cant": "All texts.", "anchors": ["grapheme/grapheme.go", "uax29/uax29.go", "grapheme/string.go: StringFromBytes", "grapheme/graphemeclasses.go", "uax29/uax29classes.go"]}
{"id": "C59", "title": "Width of ASCII strings", "statement": "Every printable ASCII character has width 1, so that the width of a printable ASCII string is its length. [Violated: digits, '#' and '*' have width 2, because they are in the emoji tables.]", "quantifier": "every printable ASCII string, every context", "why_tests_cant": "All strings.", "anchors": ["uax11/width.go: Width, StringWidth", "emoji/emojiclasses.go"]}
{"id": "C60", "title": "Set-up is safe for concurrent use", "statement": "Any number of goroutines may call the set-up functions and constructors at the same time: tables are made at most once, no call waits for ever, and a class that is looked up after set-up has returned, in any goroutine, is that of the complete tables.", "quantifier": "every number of goroutines, every sequence of calls of each, every interleaving", "why_tests_cant": "All interleavings.", "anchors": ["grapheme/grapheme.go: SetupGraphemeClasses, ClassForRune, CodePointClassFor, NewBreaker", "uax29/uax29.go: SetupUAX29Classes, NewWordBreaker", "uax14/uax14.go: SetupClasses, NewLineWrap", "emoji/emoji.go: SetupEmojisClasses", "grapheme/string.go: StringFromString"]}
{"id": "C61", "title": "UCD files are read completely", "statement": "Parsing a file of the Unicode Character Database calls the callback exactly once for every line that is neither blank nor a comment, in order, with the line's range of code points, its fields and its comment, whatever the ends of lines are and however the file comes in pieces; parsing always returns. The generators of tables, classes and bracket pairs get exactly the rows of their category, and the published bracket pairs are those of the file they come from. [Violated: an empty first field, an indented first row, the last digit of a code point at the end of a line, and the part of a comment after a second number sign get lost; after an error of the reader the callback is called for ever.]", "quantifier": "every list of lines, every row, every division of the file into pieces", "why_tests_cant": "All files.", "anchors": ["internal/ucdparse/linebuf.go", "internal/ucdparse/scan.go", "internal/ucdparse/ucdparse.go: Field, Range", "internal/tablegen/main.go", "bidi/internal/gen/brackgen.go: readBrackets", "bidi/internal/gen/BidiBrackets.txt", "bidi/bracketpairs.go", "grapheme/internal/generator/generator.go: loadUnicodeGraphemeBreakFile"]}
{"id": "C62", "title": "Test files are read completely", "statement": "Scanning a UAX#14 or UAX#29 test file and breaking up its lines yields every test case exactly once and in order, with its text and its segments. [Violated: a blank line repeats the test before it, and a last segment without a division mark gets lost.]", "quantifier": "every file of comments and test cases in any layout", "why_tests_cant": "All files.", "anchors": ["internal/ucdparse/testfiles.go: Scan, Text, BreakTestInput"]}
{"id": "C63", "title": "Resolving and reordering give the visual order of a text", "statement": "For every text, displaying the runs which Reorder returns for the resolved levels shows each character of the first paragraph once, in the visual order of UAX#9: the levels of the characters are those of rules W1 to I2, and from the highest level down every sequence of characters with at least that level is reversed (L2; rule L1 is left to the client). The runs are maximal. [Violated where resolution goes wrong, for instance for separators after white space.]", "quantifier": "every text, every schedule of scanner and parser, both paragraph directions", "why_tests_cant": "All texts and schedules.", "anchors": ["bidi/resolver.go: ResolveParagraph", "bidi/reordering.go: Reorder, flatten, DirectionAt", "bidi/scanner.go"]}
{"id": "C64", "title": "A text of one direction keeps it", "statement": "For every left-to-right text (letters, numbers, and characters without a direction of their own, brackets included) in a left-to-right paragraph, DirectionAt is left-to-right everywhere and Reorder returns one left-to-right run with all bytes in logical order; likewise for right-to-left texts without numbers in right-to-left paragraphs. [Violated: a nonspacing mark at the beginning is in no run; DirectionAt is left-to-right for brackets without a partner in right-to-left paragraphs.]", "quantifier": "every text of the kind, every schedule of scanner and parser", "why_tests_cant": "All texts and schedules.", "anchors": ["bidi/resolver.go: ResolveParagraph", "bidi/reordering.go: Reorder, DirectionAt", "bidi/scanner.go", "bidi/brackets.go"]}
{"id": "C65", "title": "RuneBuffer keeps its contract", "statement": "After RuneBuffer(buf, max), before or after Init, the maximum segment size is the larger of max and cap(buf): shorter segments are complete. If max <= cap(buf), the given buffer is the only one used. RuneBuffer panics once scanning has started, and no longer does after the next Init. Without it the maximum is MaxSegmentSize. [Violated: the default is 4096 runes and not MaxSegmentSize, and an empty buffer is ignored together with its maximum.]", "quantifier": "every history of a segmenter, every buffer, every text and breaker", "why_tests_cant": "All histories, sizes and texts.", "anchors": ["segment/segment.go: RuneBuffer, WriteRune, Init, MaxSegmentSize"]}
{"id": "C66", "title": "The hash trie is a dictionary", "statement": "However many words are stored, in whatever order: after Freeze an iterator finds a word iff it is the beginning of a stored word, finds it at the position that AllocPositionForWord returned when it was stored, and finds different words at different positions; AllocPositionForWord on a frozen trie is a lookup that changes nothing. [Violated: storing a word may move words stored before it, whose positions are then stale; words of one letter are always found; an iterator on a trie that is not frozen stores what it looks for; the category equal to the number of categories is taken for category 0; storing panics long before the table is full.]", "quantifier": "every size and number of categories that leave room for families, every sequence of words, every word looked up", "why_tests_cant": "All sequences of words.", "anchors": ["bidi/trie/hashtrie.go: NewTinyHashTrie, AllocPositionForWord, Freeze, Iterator, Next"]}
{"id": "C67", "title": "Out-of-line markup acts as delimiters in the text", "statement": "ResolveParagraph with a markup function that answers with the constants MarkupLRI, MarkupRLI, MarkupPDI, MarkupPDILRI and MarkupPDIRLI gives the result it gives for the text with the delimiters LRI, RLI and PDI of length zero at these positions; a function that never asks for anything changes nothing. [Violated: the answer at position 0 is never used; for the classes LRI and RLI themselves, which the documentation asks for, a PDI is inserted.]", "quantifier": "every text, every markup function, every schedule of scanner and parser", "why_tests_cant": "All texts, functions and schedules.", "anchors": ["bidi/scanner.go: nextRune, markupToBidi, OutOfLineBidiMarkup", "bidi/resolver.go: ResolveParagraph"]}
{"id": "C68", "title": "Options of ResolveParagraph", "statement": "An option is in effect iff the last call for it switched it on; the order of options of different kinds does not matter, and RecognizeLegacy has no effect. [Violated: an option that has been switched on cannot be switched off again.]", "quantifier": "every list of options", "why_tests_cant": "All lists of options.", "anchors": ["bidi/scanner.go: newScanner, RecognizeLegacy, DefaultDirection, TestMode, IgnoreParagraphSeparators"]}
{"id": "C69", "title": "The text of an isolate is resolved on its own", "statement": "For every text with isolates (LRI, RLI or FSI ... PDI), the run which the result has for an isolate is its initiator, what ResolveParagraph gives for the text of the isolate as a paragraph of the isolate's direction, at its place, and its PDI; the text around has no influence on it. Characters in it have the direction that UAX#9 gives them. [Violated: numbers in an isolate depend on Arabic letters before the isolate; isolates with FSI take the direction of the text around them.]", "quantifier": "every text, every division into isolates and other text, every schedule of scanner and parser, for the whole and for the part", "why_tests_cant": "All texts, isolates and schedules.", "anchors": ["bidi/resolver.go: ResolveParagraph, parseIRS, applySubIRS, pass1, pass2", "bidi/scanner.go", "bidi/actions.go"]}
{"id": "C70", "title": "A text may be segmented line by line", "statement": "Segmenting the lines of a text, one by one, gives the segments of the text: for graphemes (UAX#29), words (UAX#29) and line wrap opportunities (UAX#14), where every line but the last ends with a character after which these rules always break (CR, LF and other newlines; for graphemes any control), and no CR LF is separated. New and used segmenters may be mixed.", "quantifier": "every text, every division of it into lines, every number and length of lines, every history of the segmenters", "why_tests_cant": "All texts and divisions.", "anchors": ["segment/segment.go: Next, InitFromSlice", "grapheme/grapheme.go", "uax29/uax29.go", "uax14/uax14.go", "uax14/rules.go"]}
{"id": "C71", "title": "Bracket pairs get the direction of rule N0", "statement": "For every text, both brackets of a pair (rule BD16) get the direction which rule N0 of UAX#9 gives them: the embedding direction, if a strong character of this direction is inside; otherwise, if a strong character is inside, the direction of the last strong character or bracket before, or that of the paragraph if there is none; a pair without strong characters inside is treated like other neutral characters. Nonspacing marks follow the bracket before them. [Violated for pairs that get their direction from another bracket or from the beginning of a right-to-left text, after Arabic letters, for pairs without strong characters, and for marks.]", "quantifier": "every text, every pair of brackets in it, both paragraph directions, every schedule of scanner and parser", "why_tests_cant": "All texts, pairs and schedules.", "anchors": ["bidi/resolver.go: ResolveParagraph, performRuleN0", "bidi/brackets.go", "bidi/scrap.go: bidiContext", "bidi/scanner.go", "bidi/reordering.go: DirectionAt"]}
{"id": "C72", "title": "A paragraph may be split into lines", "statement": "For every text and every division of its first paragraph into lines: calling Split with shift0 for the length of the first line, then for the right part with the length of the second one, and so on, never panics and gives levels for each line. DirectionAt of a position in a line is that of the position in the paragraph. Displaying the runs which Reorder returns for a line shows its characters in the visual order of rule L2 for this line, with their levels in the paragraph. Split leaves its receiver as it was. [Violated: the receiver loses the rest of the piece that was cut, so that splitting again panics; splitting at the end gives levels with which Split panics; lines of right-to-left paragraphs are reordered as if from left to right.]", "quantifier": "every text, every division into lines of any number and lengths, both paragraph directions, every schedule of scanner and parser", "why_tests_cant": "All texts and divisions.", "anchors": ["bidi/reordering.go: Split, split, shiftzero, Reorder, DirectionAt", "bidi/resolver.go: ResolveParagraph"]}
{"id": "C73", "title": "Segments stand for themselves", "statement": "A text may be cut at any boundaries of its segments: if the segments of a text are divided into groups of consecutive segments, then segmenting the text of a group gives the segments of the group, and in particular a segment, as a text of its own, is one segment. For graphemes and words (UAX#29), line wrap opportunities (UAX#14) and runs of white space. New and used segmenters may be mixed. [Violated for words: Hebrew letter, double quote, combining mark, Hebrew letter is cut before the quote, and the second part is cut again by itself.]", "quantifier": "every text, every division of its segments into groups, every history of the segmenters", "why_tests_cant": "All texts and divisions.", "anchors": ["segment/segment.go: Next, InitFromSlice", "grapheme/grapheme.go", "uax29/uax29.go", "uax14/uax14.go", "uax14/rules.go", "segment/simplewordbreak.go"]}
{"id": "C74", "title": "Printed classes, levels and runs can be read back", "statement": "String of a grapheme class, word class, emoji class or kind of token returns the name of the constant, and for every other number the name of the type with the number in parentheses. It never panics, and different values are never printed the same. String of ResolvedLevels and of Run never panics, whatever the bidi classes in them are. It lists bounds and classes of all pieces, so that values which are printed the same have the same pieces, and runs also the same direction and length.", "quantifier": "every integer as a class, every value of ResolvedLevels and Run", "why_tests_cant": "All integers and all lists of pieces.", "anchors": ["grapheme/graphemeclasses.go: String", "uax29/uax29classes.go: String", "emoji/emojiclasses.go: String", "internal/ucdparse/tokentype_string.go: String", "bidi/scanner.go: classString", "bidi/reordering.go: ResolvedLevels.String, Run.String", "bidi/doc.go: Direction.String"]}
{"id": "C75", "title": "Words are made of graphemes", "statement": "Given the same text, a Segmenter for words and a Segmenter for graphemes agree: every word is a sequence of whole graphemes, and the graphemes of all words are the graphemes of the text. So a word boundary can be used as a position of the cursor, and breaking a text at words never separates a letter from its accents, a syllable from its parts or the halves of a flag.", "quantifier": "every text, for any two Segmenters which have finished earlier texts", "why_tests_cant": "The classes of all code points in two sets of tables have to go together, for texts of any length.", "anchors": ["grapheme/grapheme.go: Breaker", "grapheme/graphemeclasses.go", "uax29/uax29.go: WordBreaker", "uax29/uax29classes.go", "segment/segment.go: Segmenter.Next"]}
{"id": "C76", "title": "Lines are wrapped between graphemes", "statement": "Given the same text, a Segmenter for line wraps and a Segmenter for graphemes agree: the text between two opportunities to wrap a line is a sequence of whole graphemes. So wrapping lines never separates a letter from its accents, a syllable from its parts, the halves of a flag or the parts of an emoji.", "quantifier": "every text and all tables of line break classes which go together with those of graphemes, for any two Segmenters which have finished earlier texts", "why_tests_cant": "The rules of two annexes have to go together, for texts of any length and all tables.", "anchors": ["grapheme/grapheme.go: Breaker", "grapheme/graphemeclasses.go", "uax14/uax14.go: LineWrap", "uax14/rules.go", "segment/segment.go: Segmenter.Next"]}
{"id": "C77", "title": "Two breakers in one Segmenter", "statement": "NewSegmenter with two breakers, for two of words, line wraps, graphemes and runs of white space (the simple word breaker), in any order: a segment ends at every boundary which one of the two breakers alone finds, and nowhere else. Penalties tells them apart: the first penalty is less than 10000 for exactly those segments which end at a boundary of the first breaker, the second one for exactly those which end at a boundary of the second breaker (and not 0, for the simple word breaker). So one pass over the text finds both. [Violated for line wraps and the simple word breaker: the mandatory break between LF and CR is lost. With three breakers, the penalties of the second and the third are added: breaks are lost.]", "quantifier": "every text, every Segmenter with these two breakers which has finished its earlier texts, all tables, and all settings for breaks on penalties of 0", "why_tests_cant": "The breakers look ahead by different numbers of runes, and the Segmenter has to wait for both of them, for texts of any length.", "anchors": ["segment/segment.go: NewSegmenter, Segmenter.Next, Segmenter.Penalties", "grapheme/grapheme.go: Breaker", "uax29/uax29.go: WordBreaker", "uax14/uax14.go: LineWrap", "segment/simplewordbreak.go: SimpleWordBreaker"]}
{"id": "C78", "title": "Texts which are not UTF-8 can be resolved", "statement": "ResolveParagraph accepts every reader, also if its bytes are not UTF-8. A byte with which no character begins counts as U+FFFD, and the result is that for the text with these characters. Positions in the result (DirectionAt, Split, runs) are positions in the bytes of the input. [Violated for positions after a malformed byte: each of these bytes counts as three.]", "quantifier": "every sequence of bytes, all tables, options and schedules of the two goroutines", "why_tests_cant": "There are endless kinds of malformed text, and a malformed byte may be anywhere in the text, next to anything.", "anchors": ["bidi/scanner.go: newScanner, nextRune", "bidi/resolver.go: ResolveParagraph", "bidi/reordering.go: ResolvedLevels.DirectionAt"]}
{"id": "C79", "title": "Invisible characters do not change the order of a text", "statement": "Boundary neutrals (class BN: zero width joiner and non-joiner, zero width space, soft hyphen) are ignored, as rule X9 of UAX#9 wants it: if they are taken out of a text, the other characters keep their directions and the order in which they are displayed. [Violated for texts with letters against the direction of the paragraph: a right-to-left word with a non-joiner is torn apart.]", "quantifier": "every text with boundary neutrals at any places, all tables, options and schedules", "why_tests_cant": "Boundary neutrals may be between any two characters, and rules which look at neighbours have to look beyond any number of them.", "anchors": ["bidi/scanner.go: applyRulesW1to3, Scan", "bidi/resolver.go: ResolveParagraph", "bidi/reordering.go: ResolvedLevels.Reorder, ResolvedLevels.DirectionAt"]}
{"id": "C80", "title": "The bytes of the segments are the bytes of the text", "statement": "Segmenter.Bytes() and Text() after each call of Next, put together, give the bytes the reader has delivered, whatever their encoding lengths are, and no byte more or less. [Violated for bytes which are not UTF-8: each comes back as the three bytes of U+FFFD.]", "quantifier": "every sequence of bytes, every breaker, every history of calls of Next and BoundedNext", "why_tests_cant": "Decoding and encoding have to fit together for characters of all lengths at all places, and for malformed bytes next to anything.", "anchors": ["segment/segment.go: Segmenter.Init, Segmenter.Next, Segmenter.Bytes, Segmenter.Text"]}
{"id": "C81", "title": "Letters keep their direction", "statement": "Whatever is around it, a letter is shown in its own direction: after ResolveParagraph, DirectionAt gives left-to-right for every byte of a left-to-right letter, and right-to-left for every byte of a right-to-left or Arabic letter, and the marks after a letter have the direction of the letter. Brackets, numbers, separators, invisible characters and the direction of the paragraph do not change it. [Violated for letters in isolates, for which DirectionAt gives the direction of the text around the isolate.]", "quantifier": "every text, every letter in it, all tables, options and schedules", "why_tests_cant": "A letter may stand between any other characters, and rules of two passes rewrite and join its neighbours again and again.", "anchors": ["bidi/scanner.go: Scan, applyRulesW1to3", "bidi/resolver.go: ResolveParagraph", "bidi/reordering.go: ResolvedLevels.DirectionAt"]}
{"id": "C82", "title": "European numbers are read from left to right", "statement": "Whatever is around it, a European number is read from left to right: after ResolveParagraph, DirectionAt gives left-to-right for every byte of every European digit, also in a right-to-left paragraph, between right-to-left letters, and with separators, signs and currency symbols in the number. [Violated for numbers in isolates, for which DirectionAt gives the direction of the text around the isolate, and for numbers after right-to-left letters, for which ResolveParagraph need not return.]", "quantifier": "every text, every European digit in it, all tables, options and schedules", "why_tests_cant": "A number may stand between any other characters, and rules of two passes join it with its separators and neighbours.", "anchors": ["bidi/scanner.go: Scan, applyRulesW1to3", "bidi/actions.go: ruleW4_1, ruleW5_1, ruleW7", "bidi/resolver.go: ResolveParagraph", "bidi/reordering.go: ResolvedLevels.DirectionAt"]}
