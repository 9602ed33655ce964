{"id": "C01", "title": "Reading never panics", "statement": "For every input stream, calling PoParser::parse and then draining the returned reader never hits an unwrap failure, an unreachable!() or an out-of-range index: each call returns Ok, Err or None.", "quantifier": "every byte sequence, every I/O failure point, every number of next() calls", "why_tests_cant": "tests only sample inputs; a reachable unreachable!() would need one unlucky interleaving of comments, errors and flags", "anchors": ["src/po/reader.rs: PoReader::read_line, parse_comments, next", "src/po/decoder.rs: parse_msg, expected", "src/po/unescape.rs: replace_char"]}
{"id": "C02", "title": "The reader is a fused iterator and an error is always last", "statement": "Once next() returns None it returns None for ever; once next() returns Some(Err) every later call returns None; so a drained reader yields finitely many Ok units followed by at most one Err.", "quantifier": "every input and every number of next() calls before and after the end", "why_tests_cant": "an infinite family of call histories", "anchors": ["src/po/reader.rs: Iterator for PoReader"]}
{"id": "C03", "title": "Draining terminates and consumes input", "statement": "A reader over an input of k lines yields at most k items, each yielded unit consumes at least one line that no other unit uses.", "quantifier": "every input", "why_tests_cant": "no finite set of inputs bounds the number of items", "anchors": ["src/po/reader.rs: read_unit, next", "src/po/line_iter.rs: next"]}
{"id": "C04", "title": "Line terminators do not matter", "statement": "Terminating lines with LF or CRLF, and having or not having a newline after the last line, give the same result (all units, errors, header data); only, if a line's own content ends in a carriage return, its terminator has to be CRLF (or nothing, for the last line).", "quantifier": "every text and every per-line choice of terminator", "why_tests_cant": "exponentially many terminator choices per file", "anchors": ["src/po/line_iter.rs: LineIter::new, next"]}
{"id": "C05", "title": "Undecodable or failing input is reported at its line", "statement": "If line k is the first line that is not valid UTF-8, or the stream fails with an I/O error while line k is being read, and all lines before are recognised, then the line stream ends with exactly one I/O error carrying line number k, and nothing of line k or of later lines reaches any unit.", "quantifier": "every byte sequence, every failure point", "why_tests_cant": "every failure position in every stream", "anchors": ["src/po/line_iter.rs: LineIter::next", "src/error.rs: Error::Io"]}
{"id": "C06", "title": "Lines are classified exactly as the line grammar says", "statement": "Every physical line is exactly one of: blank, keyword line (optional #, #~, #|, #~| marker, keyword, quoted string), continuation (marker and quoted string only), comment (# kind content), or unrecognised; the class and the extracted marker, keyword, kind and text are those of a simple grammar stated without regular expressions.", "quantifier": "every line of text", "why_tests_cant": "regular expressions with optional parts and backtracking can be wrong on inputs nobody wrote down", "anchors": ["src/po/parser.rs: PoParser::parse_line, message_re, comment_re"]}
{"id": "C07", "title": "When a # line is a comment", "statement": "A line that starts (after white space) with '#' is a comment line exactly if it is not of the form: optional marker ~, | or ~|, optional keyword, quoted text, with white space around. In particular a '#' line whose last non-blank character is not a double quote is always a comment. The natural claim that a line starting with '#' and a space never changes ids or texts is false: `# msgid \"x\"` is a live keyword line and `# \"x\"` is a continuation line (proved with witnesses).", "quantifier": "every line starting with #", "why_tests_cant": "needs the exact set of comment texts that are misread", "anchors": ["src/po/parser.rs: message_re, comment_re"]}
{"id": "C08", "title": "Unescaping inverts escaping", "statement": "For every text, writing it with the escapes \\\\ \\\" \\n \\r \\t and reading it back gives the same text.", "quantifier": "every text", "why_tests_cant": "infinitely many texts; order-of-replacement bugs show up only on adjacent backslashes", "anchors": ["src/po/unescape.rs: Unescaper::unescape, replace_char"]}
{"id": "C09", "title": "Only the five escapes are decoded, once each, left to right", "statement": "Unescaping replaces exactly the non-overlapping left-to-right occurrences of \\r \\t \\n \\\" \\\\ and copies every other character (including unknown escapes and a trailing backslash) unchanged.", "quantifier": "every text", "why_tests_cant": "every combination of backslashes", "anchors": ["src/po/unescape.rs: Unescaper::unescape"]}
{"id": "C10", "title": "Layout of a string over continuation lines does not matter", "statement": "A string split over any number of continuation lines with the same marker reads as the concatenation of the pieces, whatever the split points.", "quantifier": "every string and every way of splitting it", "why_tests_cant": "exponentially many splits", "anchors": ["src/po/decoder.rs: Decoder::parse_msg"]}
{"id": "C11", "title": "Blank lines are insignificant", "statement": "Inserting or deleting blank (whitespace-only) lines anywhere leaves the units, the header data and the error unchanged, except that the line number of an error changes to the number that the same (non-blank) line has in the other input.", "quantifier": "every input and every set of insertion positions", "why_tests_cant": "every position in every file", "anchors": ["src/po/line_iter.rs: LineIter::next", "src/po/parser.rs: parse_line"]}
{"id": "C12", "title": "Indentation and trailing spaces do not matter on message lines", "statement": "White space before the marker, between marker, keyword and string, and after the closing quote of a keyword or continuation line does not change what is read; white space before # of a comment does not matter either. Two inputs that differ only in this, line by line, give the same result of parse() and of every sequence of next() calls, line numbers in errors included.", "quantifier": "every input, every line of it and every white-space padding", "why_tests_cant": "infinitely many paddings, Unicode white space included", "anchors": ["src/po/parser.rs: message_re, comment_re"]}
{"id": "C13", "title": "Catalogue round-trip", "statement": "For every well-formed catalogue (optional header, list of units with contexts, previous messages, flags, notes, locations, comments, obsolete marks, plural values), printing it as PO text, with any layout of strings over lines, and reading it back yields exactly the same header data and units, with no error.", "quantifier": "every well-formed catalogue and every string layout", "why_tests_cant": "needs all field combinations and all strings at once", "anchors": ["src/po/reader.rs: PoReader::new, next, read_unit", "src/po/message_extractor.rs: parse_message_fields", "src/po/decoder.rs: parse_msg", "src/po/parser.rs: parse_line"]}
{"id": "C14", "title": "Every unit comes from one contiguous block of lines", "statement": "The physical lines of an input that is read without error split into consecutive blocks: the header block if any, one non-empty block per yielded unit, in order, and a possibly empty discarded tail; each unit's fields are determined by its own block (comments, previous fields, context, id, plural id, texts) according to the entry grammar.", "quantifier": "every input", "why_tests_cant": "soundness of a parser is about all accepted inputs", "anchors": ["src/po/reader.rs: read_unit", "src/po/message_extractor.rs: parse_message_fields, new_message", "src/po/decoder.rs: parse_msg"]}
{"id": "C15", "title": "State of a unit", "statement": "A yielded unit is NeedsWork iff one of its flags is `fuzzy`; otherwise it is Final iff some translation text is non-empty, and Empty iff none is. is_translated() holds exactly in the Final case.", "quantifier": "every input, every yielded unit", "why_tests_cant": "relation between fields over all reachable units", "anchors": ["src/po/reader.rs: parse_comments, read_unit", "src/unit.rs: Unit::is_translated"]}
{"id": "C16", "title": "Comment data is collected completely, in order, by kind", "statement": "A unit's flags are exactly the trimmed comma-separated items of its `#,` lines; its locations the white-space separated words of its `#:` lines in order; its notes the `#.` (Developer) and `# ` (Translator) lines in order; its comments all other comment lines in order with their kind; nothing else.", "quantifier": "every sequence of comment lines", "why_tests_cant": "all interleavings of the kinds", "anchors": ["src/po/reader.rs: parse_comments"]}
{"id": "C17", "title": "Obsolete and active lines are never mixed", "statement": "Every keyword and continuation line that contributes to an obsolete unit carries the ~ marker and none that contributes to an active unit does; is_obsolete() reports which.", "quantifier": "every input, every yielded unit", "why_tests_cant": "all mixes of markers", "anchors": ["src/po/reader.rs: read_line, read_unit", "src/po/decoder.rs: parse_msg"]}
{"id": "C18", "title": "No unit with an empty source", "statement": "A yielded unit without plural id has a non-empty message id; an entry after the first whose msgid is empty and has no msgid_plural makes the reader yield an Unexpected error at that entry's line and stop. (A plural entry may have an empty id: proved with a witness.)", "quantifier": "every input, every yielded unit", "why_tests_cant": "invariant over all reachable states", "anchors": ["src/po/reader.rs: read_unit, next", "src/enums/message.rs: is_empty"]}
{"id": "C19", "title": "An untranslated simple message has no text", "statement": "In every yielded unit a simple message has either no text or a non-empty text, so get_plural_text(n) is None exactly when the message is blank; a previous message never has a text.", "quantifier": "every input, every yielded unit", "why_tests_cant": "invariant", "anchors": ["src/po/message_extractor.rs: new_message, new_previous"]}
{"id": "C20", "title": "Header detection", "statement": "The reader treats the first entry as header exactly when it has no plural id and its id is empty or missing; the header is never yielded as a unit, and any other first entry is yielded first. (A first msgid_plural without msgid is also swallowed as part of an empty header: proved with a witness.)", "quantifier": "every input", "why_tests_cant": "all first entries", "anchors": ["src/po/reader.rs: PoReader::new"]}
{"id": "C21", "title": "Header properties", "statement": "header_properties() maps each key k (text before the first ':' of a header line, trimmed) to the trimmed values of all header lines with that key, in order, joined by one space; keys without such a line are absent.", "quantifier": "every header text, every key", "why_tests_cant": "all multisets of keys and values", "anchors": ["src/po/reader.rs: parse_po_header"]}
{"id": "C22", "title": "Target language falls back to the invariant language", "statement": "target_language() is the language range parsed from the Language property, else the one converted from its Unix form, else the invariant range; with no Language property it is the invariant range.", "quantifier": "every header and every behaviour of the language library", "why_tests_cant": "depends on an external parser for every string", "anchors": ["src/po/reader.rs: parse_po_header"]}
{"id": "C23", "title": "A bad Plural-Forms header is an error of parse()", "statement": "If the header has a non-empty Plural-Forms property, parse() succeeds iff the property is a well-formed value list, its nplurals (default 2) is a usize numeral and its plural (default n) is a formula of the grammar; then exactly these determine the plural forms of every plural unit. Otherwise parse() returns Err and there is no reader.", "quantifier": "every header", "why_tests_cant": "all headers", "anchors": ["src/po/reader.rs: PoReader::new, parse_po_header", "src/plural/forms.rs: PluralForms::parse"]}
{"id": "C24", "title": "Header data is immutable and shared", "statement": "target_language, header_notes, header_comments and header_properties do not change while units are read, and every plural message of every unit carries the forms of the header (none if the header has none).", "quantifier": "every input and every number of next() calls", "why_tests_cant": "histories of any length", "anchors": ["src/po/reader.rs: CatalogueReader for PoReader, parse_unit"]}
{"id": "C25", "title": "Value lists", "statement": "A list `k1=v1; ... kn=vn;` with clean keys and values is read as exactly the map of its pairs, the last one winning for repeated keys, whatever the white space around '=' and ';'; a non-blank text without a final ';' is rejected.", "quantifier": "every list of pairs and every padding", "why_tests_cant": "lazy-quantifier regexes over all texts", "anchors": ["src/po/parser.rs: parse_map, map_re, map_check_re"]}
{"id": "C26", "title": "nplurals numerals", "statement": "nplurals is accepted iff it is an optional '+' followed by one or more ASCII digits whose value fits in 64 bits; get_count() is that value.", "quantifier": "every text", "why_tests_cant": "boundary of 2^64 and all texts", "anchors": ["src/plural/forms.rs: PluralForms::parse, get_count"]}
{"id": "C27", "title": "Plural formulas: the accepted language is the grammar's and is unambiguous", "statement": "Formula parsing succeeds exactly on the token sequences derivable in the published grammar, and the tree is the one of the (unique) derivation, so precedence and associativity are those of the grammar.", "quantifier": "every formula text", "why_tests_cant": "language equality over infinitely many texts", "anchors": ["src/plural/formula/formula.lalrpop: Expr, Or, And, Logical, Not, Add, Mul, Factor, Term, Num", "src/plural/formula/mod.rs: Formula::parse"]}
{"id": "C28", "title": "Plural formulas: printing and re-reading", "statement": "Every expression tree whose literals are not negative (all trees the parser builds are such), printed with parentheses and with any white space, is read back as the same tree; so every function expressible in a tree is expressible in a header.", "quantifier": "every tree", "why_tests_cant": "infinitely many trees", "anchors": ["src/plural/formula/formula.lalrpop", "src/plural/formula/mod.rs: Formula::parse"]}
{"id": "C29", "title": "Plural formulas: white space and word synonyms do not matter", "statement": "White space between tokens never matters, and `or`, `and`, `not` mean the same as ||, &&, !.", "quantifier": "every formula text and every padding", "why_tests_cant": "infinitely many paddings", "anchors": ["src/plural/formula/formula.lalrpop: Or, And, Not", "src/plural/formula/mod.rs: Formula::parse"]}
{"id": "C30", "title": "Plural formulas evaluate as ordinary integer arithmetic", "statement": "If no intermediate result leaves the signed 64-bit range and no divisor is zero, evaluation gives the value of the formula over the mathematical integers (truncated division, comparisons and logic yielding 0/1, short-circuit, conditional).", "quantifier": "every formula, every count", "why_tests_cant": "all trees and all 64-bit counts", "anchors": ["src/plural/formula/node.rs: Node::execute"]}
{"id": "C31", "title": "Plural selection never panics", "statement": "Evaluating any formula for any count does not panic. (False in builds with overflow checks: negating i64::MIN panics. Proved with a witness; proved panic-free without overflow checks and for every formula in which no negated operand evaluates to i64::MIN.)", "quantifier": "every formula, every count, both overflow modes", "why_tests_cant": "all formulas and 2^64 counts", "anchors": ["src/plural/formula/node.rs: Node::execute", "src/plural/formula/mod.rs: Formula::execute"]}
{"id": "C32", "title": "Plural index is in range", "statement": "PluralForms::get_value(n) is Some(i) only with i < get_count(), and is Some exactly when the formula's value is non-negative and below get_count().", "quantifier": "every forms value, every count", "why_tests_cant": "all formulas and counts", "anchors": ["src/plural/forms.rs: get_value", "src/plural/formula/mod.rs: Formula::execute"]}
{"id": "C33", "title": "Plural text selection", "statement": "For a plural unit whose msgstr[i] lines have indices 0..k-1 without gap, get_plural_text(n) is the text of msgstr[f(n)] where f is the header's formula, and None if f(n) is not an available index. (With a gap in the indices the texts shift: proved with a witness.)", "quantifier": "every plural unit, every count", "why_tests_cant": "all formulas, all counts, all index sets", "anchors": ["src/po/message_extractor.rs: new_message", "src/plural/plural.rs: Plural::get", "src/enums/message.rs: get_plural_text"]}
{"id": "C34", "title": "Without Plural-Forms no plural text can be selected", "statement": "If the header has no (non-empty) Plural-Forms property, every plural unit has at most two texts and get_plural_text(n) is None for every count n.", "quantifier": "every input without Plural-Forms, every count", "why_tests_cant": "all units and counts", "anchors": ["src/po/message_extractor.rs: new_message", "src/plural/plural.rs: Plural::get"]}
{"id": "C35", "title": "Counts of 2^63 and above", "statement": "get_value(n) for n >= 2^63 evaluates the formula at n - 2^64; with the default formula n, get_value(n) is Some(n) iff n < get_count() and n < 2^63.", "quantifier": "every count", "why_tests_cant": "2^64 counts", "anchors": ["src/plural/formula/mod.rs: Formula::execute", "src/plural/forms.rs: get_value"]}
{"id": "C36", "title": "Agreement with C precedence", "statement": "A plural formula means the same as the C expression with the same text. (False: `!` binds looser than + and *, and == and < are at one level. Proved with witnesses with different values. Proved exactly for the formulas in which ! is applied to an atom or its negative and stands as a whole operand of a comparison or logical operator, no <, <=, >, >= comes after == or != in a chain, and no operator is a word; for all other formulas C has a different tree or none.)", "quantifier": "every formula", "why_tests_cant": "all formulas", "anchors": ["src/plural/formula/formula.lalrpop"]}
{"id": "C37", "title": "Message equality is an equivalence", "statement": "== on Message is reflexive, symmetric and transitive, and two messages are equal iff both are simple with equal get_id() and get_text(), or both plural with equal singular and plural ids (their texts are ignored).", "quantifier": "every pair and triple of messages", "why_tests_cant": "all triples", "anchors": ["src/enums/message.rs: PartialEq for Message"]}
{"id": "C38", "title": "Line numbers in errors", "statement": "A Parse error raised because a required line is missing and an Unexpected error for an empty source carry the 1-based number of a line of the input; an I/O error carries the number of the failing line. A Parse error for an unrecognised line carries the number of that line plus one (so the natural claim `the reported line is the offending line` is false: proved with a witness). An error that comes from the Plural-Forms property of the header carries no line number, or the number 0.", "quantifier": "every input", "why_tests_cant": "off-by-one for every position", "anchors": ["src/po/line_iter.rs: LineIter::next", "src/po/decoder.rs: expected", "src/po/reader.rs: read_unit"]}
{"id": "C39", "title": "When reading ends without error", "statement": "A reader that ends without error has consumed every line; the lines after the last unit are only comment lines, optionally followed by the beginning of an entry that is cut off by the end of input before its first msgstr. (So a truncated last entry is dropped silently: proved with a witness.)", "quantifier": "every input", "why_tests_cant": "all inputs", "anchors": ["src/po/message_extractor.rs: parse_message_fields, new_message", "src/po/decoder.rs: expected", "src/po/reader.rs: read_unit"]}
{"id": "C40", "title": "Units before an error", "statement": "If an input is extended by an unrecognised line and anything after it, the units read are those of the original input except possibly the last one, then one error; if the original has at most one unit, parse() may fail instead. If a comment line comes directly before the bad line, no unit is lost.", "quantifier": "every input and every continuation", "why_tests_cant": "all prefixes and continuations", "anchors": ["src/po/decoder.rs: fetch_next, parse_msg", "src/po/reader.rs: next"]}
{"id": "C41", "title": "Concatenation of catalogues", "statement": "Reading the lines of two inputs one after the other, the second without header, yields the units of the first followed by the units of the second and the error of the second, its line number increased by the number of lines of the first, if the first ends right after a unit, and if the first has no plural forms or the second has no plural messages and no error; in general the second part is what its lines give with the plural forms of the first.", "quantifier": "every pair of inputs", "why_tests_cant": "all pairs", "anchors": ["src/po/reader.rs: read_unit, next"]}
{"id": "C42", "title": "Display of errors", "statement": "Display of an error names the line number when it is known (Io and Unexpected omit line 0), shows the expected and found tokens when non-empty; Debug equals Display except for I/O errors; source() is present exactly for I/O errors.", "quantifier": "every error value", "why_tests_cant": "all payloads", "anchors": ["src/error.rs: Display, Debug, source"]}
{"id": "C43", "title": "Chunking of the byte stream does not matter", "statement": "The result depends only on the bytes delivered and the final failure, not on how the reader splits them into chunks or on interrupted reads.", "quantifier": "every byte sequence, every chunking, every set of interruptions", "why_tests_cant": "exponentially many chunkings", "anchors": ["src/po/line_iter.rs: LineIter::new"]}
{"id": "C44", "title": "Number of msgstr[i] lines of a plural entry", "statement": "A plural unit has between 1 and nplurals texts (nplurals from the header, else 2), taken from msgstr[i] lines with strictly increasing i below nplurals; a msgstr[i] line that is out of order or not below nplurals makes the reader stop with a Parse error at that line expecting msgid or msgstr[0].", "quantifier": "every plural entry", "why_tests_cant": "all index sequences", "anchors": ["src/po/message_extractor.rs: new_message"]}
{"id": "C45", "title": "Previous message fields", "statement": "prev_context and prev_message hold exactly the texts of the `#|` msgctxt, msgid and msgid_plural lines of the unit's block (default when missing), and these lines never influence message(), context(), texts or state.", "quantifier": "every input, every yielded unit", "why_tests_cant": "all field combinations", "anchors": ["src/po/message_extractor.rs: parse_message_fields, new_previous"]}
{"id": "C46", "title": "Reading, writing and reading again is the same as reading", "statement": "Whatever parse() and next() give for an input, the header data and units obtained can be written as PO text again, and reading that text gives the same header data and the same units, with no error. So what can be obtained without error from some input is exactly the header data and units of the catalogues that are well-formed in the sense of C13.", "quantifier": "every input stream, whether or not it ends in an error", "why_tests_cant": "needs every odd input the reader accepts: comments that look like messages, repeated header keys, gaps in plural indices, odd comment kinds", "anchors": ["src/po/reader.rs: PoReader::new, next, read_unit", "src/po/message_extractor.rs: parse_message_fields", "src/po/decoder.rs: parse_msg", "src/po/parser.rs: parse_line"]}
{"id": "C47", "title": "Reading is exactly what the catalogue grammar says", "statement": "For every byte stream: its lines are classified by the line grammar in exactly one way; parse() fails with an error exactly if the grammar of catalogues (first entry, header data, entries, ways of stopping) rejects those lines with that error; otherwise the header data and the results of all calls of next() are those, and only those, that the grammar assigns to the lines. The grammar assigns exactly one outcome to every input.", "quantifier": "every byte stream, including failing ones, every number of calls of next()", "why_tests_cant": "full functional correctness over all inputs; a test can only compare single inputs", "anchors": ["src/po/reader.rs: PoReader::new, next, next_unit, read_unit", "src/po/decoder.rs", "src/po/message_extractor.rs", "src/po/line_iter.rs", "src/po/parser.rs: parse, parse_line"]}
{"id": "C48", "title": "Accessors of messages, plural sets and plural forms", "statement": "Every message is exactly one of empty, simple and plural. is_blank says that no text is non-empty. A yielded unit's message is never empty, is plural exactly if its block of lines has a msgid_plural line, and get_text is the text of its msgstr field, or of the msgstr[i] field with the smallest index. get_forms is absent exactly if the Plural-Forms property is absent or empty, and otherwise get_definition is that property, get_formula its plural value and get_count its nplurals value (default 2).", "quantifier": "every message; every input stream and every yielded unit", "why_tests_cant": "the agreement of all accessors with the lines of the input must hold for every entry shape and header", "anchors": ["src/enums/message.rs: Message", "src/plural/plural.rs: Plural", "src/plural/forms.rs: PluralForms", "src/unit.rs: Unit"]}
{"id": "C49", "title": "The known plural rules select the right text", "statement": "Each Plural-Forms definition of the gettext manual (and seven more in common use) is accepted, has the right number of forms, and get_value(n) is the value of the language's plural rule, written independently as an arithmetic function, for every count. In a catalogue with such a header, get_plural_text of a unit with all its texts is the text of msgstr[rule(n)].", "quantifier": "21 definitions; every count below 2^63; both build profiles; every catalogue with such a header and every unit with all plural texts", "why_tests_cant": "the rules must hold for every count; a wrong precedence or modulus shows only at some of them", "anchors": ["src/plural/forms.rs: PluralForms::parse, get_value", "src/plural/formula/mod.rs", "src/plural/formula/node.rs", "src/plural/formula/formula.lalrpop", "src/plural/plural.rs: Plural::get"]}
{"id": "C50", "title": "A cut-off input gives the beginning of the units", "statement": "If the bytes of one input are a beginning of the bytes of another and the reader of the first yields at least two units, or one after a header, then the reader of the other has the same header data and its units begin with all of these except possibly the last. The number of units is at most half the number of lines.", "quantifier": "every pair of streams, cut anywhere (also inside a line or a character), each ending or failing anywhere", "why_tests_cant": "needs all cut positions of all inputs, and arbitrary continuations", "anchors": ["src/po/reader.rs: PoReader::new, next, next_unit", "src/po/line_iter.rs: LineIter::next", "src/po/message_extractor.rs"]}
{"id": "C51", "title": "Streams that go on after reporting the end of input", "statement": "Also on a stream that reports the end of input and then delivers more (a terminal, a file that grows), parse() returns an error or a reader that yields finitely many units, at most one error and then None for ever, without panic and with constant header data. A report of the end after a comment line, or before any line that is not blank, ends the reading. A report between a keyword or continuation line and a keyword or comment line is not noticed: what follows is read as if there had been no report. A report between such a line and a continuation line makes the latter continue nothing: reading goes on as if it had a marker different from that of the line before it. A report inside a line has the effect of a line feed. So a catalogue that arrives in pieces of whole lines, each beginning with a keyword or comment line and ending with a keyword or continuation line, with a report after each piece, is read as a whole.", "quantifier": "every stream with any finite number of end-of-input reports at any places, with any chunks, interruptions and failures; any number of calls of next()", "why_tests_cant": "tests read from strings and files that keep reporting the end; the effect depends on where the report comes", "anchors": ["src/po/line_iter.rs: LineIter::next", "src/po/decoder.rs: fetch_next, parse_msg, parse_comments", "src/po/reader.rs: read_unit, read_line, next"]}
{"id": "C52", "title": "Comments influence only what comes from comments", "statement": "If two inputs differ only in comment lines and blank lines, with comment lines of any kind and number in the same places (and at the very beginning possibly none on one side), then both calls of parse() fail or neither does; the header properties and the language are the same; the readers yield the same number of units with pairwise the same message, context, previous message, previous context and obsolete mark; and then both end or both give the same error, up to its line number and the comment kind it shows.", "quantifier": "every pair of such streams, including those that fail or have unrecognised lines", "why_tests_cant": "relates all pairs of inputs; comments can stand anywhere", "anchors": ["src/po/reader.rs: parse_comments, read_unit, parse_po_header", "src/po/decoder.rs: parse_msg, expected"]}
{"id": "C53", "title": "Marking everything obsolete", "statement": "If an input has no obsolete lines and another has the same lines with the obsolete marker #~ (#~| for #|) on all keyword and continuation lines, then both give the same header data and the same units, those of the second marked obsolete; errors are the same except that a shown marker gets a ~.", "quantifier": "every pair of such streams, including those that fail or have errors", "why_tests_cant": "relates all inputs to their obsolete versions", "anchors": ["src/po/reader.rs: read_line, read_unit", "src/po/decoder.rs: parse_msg", "src/po/parser.rs: parse_line", "src/po/message_extractor.rs"]}
{"id": "C54", "title": "Units depend on the header only through Plural-Forms", "statement": "Two inputs that begin with header entries with the same Plural-Forms property (or both without) and continue with the same lines (not with a continuation line, which would belong to the header) yield the same units, then the same error at the same line after the header. If no unit is plural and there is no error, this holds whatever the Plural-Forms properties are. A header without Plural-Forms can be left out altogether, if there is at least one unit or no error: the lines after it are then accepted as well and give the same units and the same end, the line number of an error decreased by the number of lines of the header. And it can be put in front of any accepted input that does not begin with a header; the line number of an error then increases by the number of its lines.", "quantifier": "every pair of streams with such lines, any headers that are accepted", "why_tests_cant": "relates all pairs of headers over all bodies", "anchors": ["src/po/reader.rs: PoReader::new, parse_po_header, parse_unit", "src/po/message_extractor.rs: new_message, new_previous"]}
{"id": "C55", "title": "A byte order mark is not accepted", "statement": "parse() fails on every input that begins with the bytes EF BB BF. More generally, if the first line begins, after white space, with a character other than #, \" and m, parse() fails with a parse error with number 2 that shows the line.", "quantifier": "every stream that begins so, whatever follows", "why_tests_cant": "all continuations of the first bytes", "anchors": ["src/po/line_iter.rs: LineIter::next", "src/po/parser.rs: parse_line", "src/po/reader.rs: PoReader::new"]}
{"id": "C56", "title": "Each class of comment lines influences only its own data", "statement": "Let runs of comment lines be replaced by other non-empty runs (blank lines may be added or removed). If the runs agree in the flags they give (distinct items of #, lines), then corresponding units have the same flags and state; likewise for locations (#:), notes (#. and translator comments) and other comments; all other data (texts, contexts, previous texts, obsolete state) are the same in any case, and so is the number of units; header data likewise; an error is the same up to its line number and a shown comment kind. In particular the order of comment lines of different classes does not matter, and flags may be in one line or in several.", "quantifier": "every pair of streams with such lines, any choice of the four classes", "why_tests_cant": "relates all pairs of inputs that differ in their comments", "anchors": ["src/po/reader.rs:87-126", "src/po/reader.rs: read_unit, parse_po_header"]}
{"id": "C57", "title": "Invariants of all data that is delivered", "statement": "In every unit that is delivered: the flags are distinct, trimmed, and without comma and newline; locations are non-empty and without white space; notes and comments are one line without leading white space; a comment kind is none of , : . space newline; the source is not empty for a simple message, and a text that is present is not empty; a plural message has between one and nplurals texts (any number the header allows) and carries the plural forms of the header; the previous message has no texts and, if plural, carries the forms of the header; the state agrees with obsolete mark, flags and texts. In the header: property keys are distinct, trimmed, without colon and newline; values are without newline.", "quantifier": "every byte stream, every unit delivered", "why_tests_cant": "universal over inputs; tests see only chosen units", "anchors": ["src/po/reader.rs", "src/po/message_extractor.rs", "src/po/decoder.rs"]}
{"id": "C58", "title": "Reading is lazy", "statement": "If the complete lines in the beginning of a stream are the header (if any), k entries, and at least one more line that is not blank, then parse() succeeds with these header data, and until k units have been asked for nothing beyond this beginning is requested from the stream, whatever comes there (also if it would fail). If these lines can all be read, the stream is not given up either. So the reader works one entry ahead and looks at one line after that entry, no more.", "quantifier": "every stream that begins so, every continuation, every number of calls below k", "why_tests_cant": "all continuations of all beginnings", "anchors": ["src/po/reader.rs: PoReader::new, next", "src/po/line_iter.rs: LineIter::next", "src/po/decoder.rs"]}
{"id": "C59", "title": "Amount of work", "statement": "Count the calls of peek() and next() that the reader makes on its line source. Counting changes nothing that a user sees. After any number of calls of next() on the reader, the count is at most (2 nplurals + 24) times the number of lines of the stream plus two, so for fixed nplurals reading is linear in the number of lines, and asking again after the end costs nothing. A parse() that fails makes at most three calls for every line and 25 more, whatever the plural forms. The count is at least the sum of nplurals over the plural units returned. It is therefore not bounded by the size of the input: a catalogue of seven lines with nplurals=18446744073709551615 is read without error, but takes at least 2^64 - 1 calls.", "quantifier": "every byte stream that gives a reader, every number of calls", "why_tests_cant": "a bound for all inputs; the slow case would not finish in a test", "anchors": ["src/po/message_extractor.rs: MessageExtractor::new_message (the loop over 0..count)", "src/po/decoder.rs", "src/po/reader.rs"]}
{"id": "C60", "title": "Formulas that always choose a form", "statement": "Call a formula choosing among k forms if it is a constant below k, a comparison, a logical operation or a logical not (then k is at least 2), or a conditional, with any test, whose two branches are choosing among k forms. If the formula of the plural forms is choosing among get_count() forms, get_value(n) is an index for every n (without overflow checks, or with them if there is no negation), namely the value of the formula. A plural unit of a catalogue with such a Plural-Forms property that has nplurals texts has a text for every n. The known rules of C49 are of this shape, so that they give an index for every count; from 2^63 on it can be the wrong one: the Russian rule gives 2 for 18446744073709551601, which ends in 01.", "quantifier": "every formula of this shape, every count of 64 bits, every catalogue", "why_tests_cant": "2^64 counts for infinitely many formulas", "anchors": ["src/plural/forms.rs: get_value", "src/plural/plural.rs: get", "src/plural/formula/node.rs: execute"]}
{"id": "C61", "title": "The example program of the documentation", "statement": "The program in the documentation ends for every file. If parse() accepts the file, it prints for every unit before the first error, in the order of the file, one line with ' - ' and the id; its result is success if there is no error, and else the error converted to std::io::Error. If parse() refuses the file it prints nothing and the result is this error. The conversion keeps the error: it is found inside, has the same text and the same source. Without an argument the program says so and succeeds; if the file cannot be opened its result is that error. The result has an error of the crate inside exactly if the file could be opened, and an I/O error behind it exactly if reading failed.", "quantifier": "every list of arguments, every file system and every byte stream", "why_tests_cant": "all streams; termination of a loop over an iterator", "anchors": ["src/lib.rs: documentation", "src/error.rs: From<Error> for std::io::Error", "src/po/reader.rs: Iterator for PoReader"]}
{"id": "C62", "title": "Equality of formulas", "statement": "Two formulas are equal iff they are the same tree; so equal formulas have the same value for every count, and texts with the same tokens give equal formulas.", "quantifier": "all pairs of formulas", "why_tests_cant": "all pairs of trees", "anchors": ["src/plural/formula/node.rs: PartialEq for Node", "src/plural/formula/mod.rs: Formula"]}
{"id": "C63", "title": "Entries can be moved, removed and repeated", "statement": "The lines of an input that is accepted and begins with a complete header entry that is not continued (or has some header property) are those of the header, then one group of lines for each unit, then lines that give no unit. Any input made of the same header lines, any of these groups in any order (some left out, some repeated) and the same final lines is accepted with the same header data and yields, for each group in order, the unit that this group gave before, and then stops in the same way, an error being at the same line after the groups (if it stops with an error, the last group must be the same). The same holds without header if a group is left.", "quantifier": "every input and every selection and order of its entries", "why_tests_cant": "all permutations of all catalogues; depends on no entry reaching into a neighbour of any other shape", "anchors": ["src/po/reader.rs: PoReader::new, next, read_unit", "src/po/message_extractor.rs: parse_message_fields, new_message", "src/po/decoder.rs: parse_msg"]}
{"id": "C64", "title": "Quoted texts are opaque", "statement": "Apart from the header text, the reader looks at a quoted text only to see whether it is empty and to concatenate it. If two inputs have the same lines except for the quoted texts, related keyword by keyword by any relation that concatenation respects and that relates empty texts to empty texts only, then (with the same header lines, after which no continuation line follows, or the same Plural-Forms property) they give the same number of units with the same flags, notes, places, comments, state, obsolete mark and shape of message, related texts, and the same error with the same line number. In particular: changing translations without emptying them or filling empty ones changes nothing but these translations; replacing every character of the texts replaces every character in the units and nothing else.", "quantifier": "every input and every such relation between texts", "why_tests_cant": "parametricity over all texts and all relations between them; a test fixes the texts", "anchors": ["src/po/reader.rs: PoReader::new, next, read_unit", "src/po/message_extractor.rs: parse_message_fields, new_message, new_previous", "src/po/decoder.rs: parse_msg, expected"]}
{"id": "C65", "title": "Delivered data are no larger than the input", "statement": "All texts of the header data and of the delivered units together (contexts, messages, previous messages, flags, notes, places, comments, properties), encoded in UTF-8 and with one byte more for each text and eleven bytes more for each unit, are not longer than the bytes that the stream delivers. In particular no text, no header and no list of units is larger than the input; escapes, splitting and joining never enlarge it.", "quantifier": "every byte stream, delivered in any pieces, with or without read errors", "why_tests_cant": "a bound for all inputs; a test shows the sizes of single inputs", "anchors": ["src/po/reader.rs: PoReader::new, next, read_unit", "src/po/decoder.rs", "src/po/line_iter.rs: LineIter::next", "src/po/parser.rs", "src/po/unescape.rs"]}
{"id": "C66", "title": "Size of formulas, work and depth of their evaluation", "statement": "An accepted formula has at most as many nodes as its text has characters (one for a blank text). An evaluation calls execute at most once for each node, and its recursion is at most as deep as the formula is nested; so for a delivered unit both are smaller than the number of bytes of the input. There is no smaller bound: for every k the sum of k+1 variables, 2k+1 characters long, is accepted, and every evaluation makes 2k+1 calls of which k+1 are active at the same time.", "quantifier": "every formula text, every count, every k; every delivered unit of every input", "why_tests_cant": "a bound for all formulas and a family of formulas without bound on the depth", "anchors": ["src/plural/formula/node.rs: Node::execute", "src/plural/formula/mod.rs: Formula::parse, execute", "src/plural/formula/formula.lalrpop", "src/plural/forms.rs: PluralForms::parse, get_value"]}
{"id": "C67", "title": "Catalogues are put together from parts", "statement": "Take catalogues with headers that have the same Plural-Forms property (or all none). No continuation line follows directly after these headers. Call lines after a header a complete part if they are read without error and end with a translation (msgstr or msgstr[i] line with its continuation lines). The header of one catalogue, then any number of complete parts of any of the catalogues, in any order and with repetitions, then all lines after the header of some catalogue that has a unit or no error, give a catalogue with the header data of the first, the units of all parts one after the other, and at the end the error of the last, at the same line after the header of the last. In particular a catalogue can be appended to another without its header. (A comment at the end of a part would go to the next unit: shown by example.)", "quantifier": "all inputs, all lists of parts", "why_tests_cant": "a statement about all ways to combine all catalogues", "anchors": ["src/po/reader.rs: PoReader::new, next, read_unit", "src/po/message_extractor.rs", "src/po/decoder.rs"]}
{"id": "C68", "title": "Platforms with a narrower usize", "statement": "On a platform whose usize has w < 64 bits, every count stands for itself (none is taken as negative, unlike C35), and get_value gives the value of the formula modulo 2^w if the value is not negative and the remainder is below the number of forms, otherwise none; get_plural_text gives the text with that index. So for values below 2^w, in particular for the formulas of C60, the result is the same as with 64 bits; in general it is not: nplurals=2; plural=n*4294967296 selects text 0 for all positive counts below 2^31 with 32 bits, and none with 64 bits. A Plural-Forms property is accepted exactly if it is accepted with 64 bits with a number of forms below 2^w; one with a larger number gives the PluralForms error 'number too large to fit in target type'.", "quantifier": "every width below 64 (2 bits or more for parsing), every formula, count and property text, both build profiles", "why_tests_cant": "a statement about all formulas on platforms of every width; the project's tests run on one", "anchors": ["src/plural/formula/mod.rs: Formula::execute", "src/plural/forms.rs: PluralForms::parse, get_value", "src/plural/plural.rs: Plural::get", "src/enums/message.rs: Message::get_plural_text"]}
{"id": "C69", "title": "An error is caused by its line", "statement": "Every error of the iterator, and every error of parse() that is not about Plural-Forms, belongs to one line k of the input (the number in the error; for a line that is not recognised, one less). An input that consists of the lines before line k is read without error and gives the same units and the same header data as the whole input; and every input that has the same lines up to k gives the same units and then the same error, whatever follows. Exceptions: the entry directly before an unreadable line is delivered when the line is missing, or shows its own defect (empty source, bad Plural-Forms); comments before a line k that is the first line not a comment are then no header; and the error about an empty source (which belongs to the first line of its entry) needs the rest of the entry.", "quantifier": "every byte stream on which reading ends with an error, every way to cut or continue it at the line of the error", "why_tests_cant": "compares every erroneous input with all inputs that share its lines up to the error", "anchors": ["src/po/reader.rs: PoReader::next, next_unit", "src/po/decoder.rs: Decoder::parse_msg, expected", "src/po/line_iter.rs: LineIter::next", "src/po/message_extractor.rs: parse_message_fields, new_message"]}
{"id": "C70", "title": "Formulas are put together from parts", "statement": "A plural formula in parentheses, with any white space around them, is the same formula, so parentheses around the formula of a Plural-Forms property change no selected form. A formula in which every n is replaced by another formula in parentheses is accepted, however it is spaced, and its value at n is the value of the first at the value of the second at n; it panics only if one of these evaluations does.", "quantifier": "every two accepted formulas, every spacing, every count, with or without overflow checks", "why_tests_cant": "all pairs of formulas and all counts", "anchors": ["src/plural/formula/formula.lalrpop: Term", "src/plural/formula/node.rs: Node::execute", "src/plural/formula/mod.rs: Formula::parse", "src/plural/forms.rs: PluralForms::get_value"]}
{"id": "C71", "title": "Which characters are white space and digits", "statement": "Exactly the 25 characters with the Unicode property White_Space count as white space: an input of a single line without # and \" is an empty catalogue if the line consists of them, and fails with an error for an unrecognised line otherwise. In a line msgstr[..] the brackets hold 0, or a digit 1 to 9 followed by decimal digits of any script, otherwise the line is not recognised. But in an input that is read without error every index is an ordinary decimal number in ASCII digits, on a line without | marker, so digits of other scripts can only lead to an error.", "quantifier": "every stream with such a line, every text in the brackets; every input that is read without error", "why_tests_cant": "all characters and all inputs", "anchors": ["src/po/parser.rs: PoParser::new, parse_line", "src/po/message_extractor.rs: new_message"]}
{"id": "C72", "title": "Which bytes are texts", "statement": "UTF-8 is read by the table of well-formed byte sequences of the Unicode standard. Bytes (without line feed and backslash, not empty) between the quotes of a msgid line of an otherwise fixed input give a unit whose id is the text that they stand for by the table if they are well-formed, and an I/O error for line 1 otherwise; so surrogates, overlong forms, code points above 10FFFF and cut-off sequences are refused. An input that is read without error is well-formed as a whole, and an input that is well-formed (up to an I/O error) never gives an error about its encoding.", "quantifier": "every byte string; every input", "why_tests_cant": "all byte strings", "anchors": ["src/po/line_iter.rs: LineIter::next", "src/po/parser.rs: PoParser::parse"]}
{"id": "C73", "title": "Plural rules repeat, so a finite table decides them", "statement": "Take a Plural-Forms formula in which n occurs only in remainders n % k and n / d % k, in comparisons with constants and as a truth value (as in all usual rules). Let B be above all these constants and L a multiple of all k and d*k. Then get_value (and the text of a plural message) is the same for all counts from B to 2^63 - 1 that leave the same remainder by L; so two such formulas that agree for the counts below B + L agree for all counts below 2^63. All rules of the gettext manual are of this kind with B = 21 and L = 100.", "quantifier": "every such formula, every count below 2^63, with or without overflow checks", "why_tests_cant": "2^63 counts and all formulas of the kind", "anchors": ["src/plural/formula/node.rs: Node::execute", "src/plural/forms.rs: PluralForms::get_value", "src/enums/message.rs: Message::get_plural_text"]}
{"id": "C74", "title": "Another Plural-Forms property", "statement": "Take an input with a header, not directly followed by a continuation line, that is read to its end without an error, and replace the header by another one that parse() accepts. The new input is read without an error exactly if every index i of a msgstr[i] line is below the new number of plural forms (2 if the property is missing or empty), in particular if that number does not become smaller. The units are then the old ones, in order, except that plural messages (also previous ones) carry the plural forms of the new header; texts, ids, flags, notes, state and so on do not depend on the header.", "quantifier": "every environment, every stream, every pair of headers", "why_tests_cant": "all catalogues and all pairs of headers", "anchors": ["src/po/reader.rs: PoReader::new, parse_po_header, parse_unit", "src/po/message_extractor.rs: new_message, new_previous"]}
{"id": "C75", "title": "Lines and data correspond in number", "statement": "In an input that is read without error, the lines after the header (all lines if there is none) have as many msgstr lines as simple units are delivered, as many msgstr[i] lines as there are texts in the delivered plural units, as many msgid lines as units, as many msgid_plural lines as plural units, as many msgctxt lines as units with a context and as many previous msgctxt lines as units with a previous context. For the last four there can be one more, from an entry that is cut off at the end; not if the input ends with a translation. So no text is lost or made up.", "quantifier": "every environment, every stream that is read without error", "why_tests_cant": "all catalogues", "anchors": ["src/po/reader.rs: PoReader::next_unit, parse_unit", "src/po/message_extractor.rs"]}
{"id": "C76", "title": "The table-driven formula parser", "statement": "The shift-reduce parser driven by the LR automaton of formula.lalrpop (items, closure, goto, lookahead sets, default reductions, one token of lookahead read before every step) accepts a text with a tree exactly if the tokens of the text derive the tree in the grammar; Formula::parse with it gives the same trees as C27. It always ends with a result, never with values of the wrong type or a missing state. For a text it does not accept the report is the one the grammar determines: at the end of the tokens InvalidToken (if some text there is no token) or an unexpected end (if a formula begins with all the tokens but they are none); before it User for a numeral out of range at a place where a numeral may stand, ExtraToken for ) or : after a whole formula, and UnrecognizedToken for the first token with which no formula goes on. Exactly one of these applies.", "quantifier": "every text", "why_tests_cant": "all texts; the tables have 57 states and the stack is unbounded", "anchors": ["src/plural/formula/formula.lalrpop", "src/plural/formula/mod.rs: Formula::parse"]}
{"id": "C77", "title": "The text of the grammar file", "statement": "The text of formula.lalrpop, read as a lalrpop grammar (rules, alternatives, named and chosen parts, action code), derives exactly the token sequences and trees of the grammar of C27; the quoted literals in it are exactly the spellings of the tokens other than numerals. So Formula::parse (and the table-driven parser) give a tree for a text exactly if the text of the file says so.", "quantifier": "every text, every token sequence and every tree", "why_tests_cant": "all texts; the comparison is between infinite languages", "anchors": ["src/plural/formula/formula.lalrpop", "src/plural/formula/mod.rs: Formula::parse"]}
{"id": "C78", "title": "The message for a refused plural formula", "statement": "Formula::parse has a message exactly for the texts that are no formula, and the message is determined by the grammar: an invalid token with its byte position (in the text without surrounding white space), an end of the text that comes too early with the position after the last token, a token that cannot stand there or stands after a whole formula with its text and its places, or a number that does not fit; the early end and the unexpected token also name what was expected: where an operand is missing exactly the tokens with which a formula can go on, at the end or a closing sign after an operand exactly the closing signs that can stand there. A header whose plural formula is refused makes PoParser::parse fail with this text in Error::PluralForms.", "quantifier": "every text, both ways in which versions of lalrpop find the expected tokens", "why_tests_cant": "all texts; the one message that the crate's tests contain is one case; the names of expected tokens come from states of a generated automaton", "anchors": ["src/plural/formula/mod.rs:14-26 Formula::parse", "src/plural/formula/formula.lalrpop", "src/plural/forms.rs: PluralForms::parse", "src/po/reader.rs:324-349"]}
{"id": "C79", "title": "The texts of the patterns", "statement": "The five pattern strings of parser.rs and unescape.rs, read by the documented syntax of the regex crate, each have one meaning, and with leftmost-first matching of these meanings: parse_line reads every text as the groups of the first match say (and for lines without a line feed this is the line grammar of C06); unescape replaces the successive matches of its pattern; parse_map accepts exactly the texts in which the check pattern is found and collects the groups of the successive matches of the pair pattern, which is the grammar of value lists of C25.", "quantifier": "every text", "why_tests_cant": "all texts; the comparison is between patterns with their order of preference and grammars", "anchors": ["src/po/parser.rs:19-33 PoParser::new", "src/po/parser.rs:39-81 parse_map, parse_line", "src/po/unescape.rs:10-46"]}
{"id": "C80", "title": "Message extraction with any decoder", "statement": "MessageExtractor::parse_message_fields, over any implementation of the trait Decoder: it asks about |msgctxt, |msgid, |msgid_plural (only after a |msgid), msgctxt, msgid, msgid_plural, and then msgstr or one msgstr[i] per form (2 without forms), in this order and each at most once; it makes the unit of the answers, leaving its other fields alone; it tells the decoder which field is missing and returns no unit; the first failure of the decoder ends it and is passed on unchanged. The state of the decoder afterwards is the one its last call left.", "quantifier": "every decoder and state of it, every unit, plural forms and first flag", "why_tests_cant": "all decoders, with any state and any answers; the crate's tests use one mock decoder", "anchors": ["src/po/message_extractor.rs:25-68 parse_message_fields", "src/po/message_extractor.rs:70-110 new_message", "src/po/message_extractor.rs:112-137 new_previous, parse_msg, expected", "src/po/decoder.rs:17-20 Decoder"]}
{"id": "C81", "title": "Debug texts are faithful", "statement": "The Debug text of a string or a character is a Rust literal that stands for it and for nothing else, whatever characters it contains. Two notes, comments, messages, plural sets, plural forms (with their formulas) or lines with the same Debug text are equal; two units with the same Debug text have the same flags, whatever order the set of flags is shown in, and agree in every other field. These Debug texts have no line breaks, tabulators or zeros in them, and all their characters are printable if std's table shows only printable characters by themselves. Each Debug text is that of the declaration: name of the type or variant, the fields with their names in the order of the declaration, options, vectors and sets as in std, numbers in decimal with their sign. In literals only the quotation mark in use, the backslash, the four control characters with an escape of their own and characters that the table does not show are escaped.", "quantifier": "every string, character, note, comment, message, plural set, plural forms, line and unit; every table of printable characters", "why_tests_cant": "all values, in particular texts with quotation marks, separators and escapes that look like other fields", "anchors": ["src/note.rs:6-10", "src/comment.rs:1-5", "src/unit.rs:19-31", "src/enums/message.rs:6-13", "src/enums/origin.rs:2-9", "src/enums/state.rs:7-16", "src/plural/plural.rs:5-11", "src/plural/forms.rs:5-11", "src/plural/formula/node.rs:1-60", "src/po/line.rs:1-13"]}
{"id": "C82", "title": "Hash order has no effect", "statement": "The header properties are collected in a hash map that is iterated in an unspecified order, which changes from run to run. Whatever this order is, parse() fails with the same error, or gives a reader with the same header notes, header comments, language and map of properties, which yields the same units and the same final error.", "quantifier": "every byte stream, including those that go on after the end of input, and every iteration order", "why_tests_cant": "the order is random; a test sees one order per run", "anchors": ["src/po/reader.rs:177-213"]}
{"id": "C83", "title": "The width of the line counter", "statement": "The line counter is a usize. With a counter of w bits that wraps around, header data, units and errors are those of an unbounded counter, except that the line number in an error is its remainder modulo 2^w. A stream that delivers fewer than 2^w - 1 bytes never makes the counter overflow, whatever calls of parse() and next() are made, so a build with overflow checks does not panic there; 2^w - 1 line feeds do make it overflow.", "quantifier": "every number of bits from 1 on, every byte stream, every sequence of calls", "why_tests_cant": "an overflow takes 2^32 lines or more", "anchors": ["src/po/line_iter.rs:5-55"]}
{"id": "C84", "title": "Quoted texts and string literals of C", "statement": "Let an entry have as id and as translation string literals of C, with any characters but raw quotes and line breaks and any simple, octal and hexadecimal escapes. parse() yields one unit. Its id (its translation) has the bytes of the C literal exactly if all escapes in the literal are \\n \\r \\t \\\" or \\\\; otherwise it has more bytes. Two literals one after the other on a line, which C joins, are not joined: the quotes and the space between them become part of the text. The natural claim that texts are read as C literals is false (witness with \\a, \\101 and \\x41).", "quantifier": "every pair of C string literals; every text of them", "why_tests_cant": "tests use few escapes; agreement is about all literals and fails exactly on a described set", "anchors": ["src/po/unescape.rs", "src/po/line.rs", "src/po/decoder.rs: parse_msg"]}
{"id": "C85", "title": "Signed evaluation and the unsigned evaluation of gettext", "statement": "GNU gettext evaluates the plural expression as a C expression over unsigned 64-bit numbers, PluralForms::get_value over i64. If no evaluated operand of < <= > >= / % is negative and no evaluated divisor is zero, get_value(count) gives Some(v) where v is the value in C, or None if v is not below get_count() (or not below 2^63). This holds at every count below 2^63 for formulas without + - * whose divisors are positive constants (the rules of the gettext manual are such formulas), and at every count for formulas without < <= > >= / %, overflow included. (With overflow checks all this is for evaluations that do not panic, C31; those of the first kind of formulas do not.) get_plural_text gives the corresponding text. The natural claim that any formula that does not overflow has the form of gettext is false: plural=n-2<0 is always 0 in C but 1 here at counts 0 and 1; and 1/n at 0 is undefined in C but has a form here. For a whole catalogue: if the tokens of the plural value of its Plural-Forms property form a formula of the common part of the two grammars (C36) that is of the first kind, then C has exactly one tree for these tokens, and at counts below 2^63 the text of a plural message is the one with the number that C computes from that tree.", "quantifier": "every formula, every count, with and without overflow checks", "why_tests_cant": "formulas and counts are unbounded; the agreement depends on intermediate values", "anchors": ["src/plural/formula/node.rs: execute", "src/plural/forms.rs: get_value"]}
{"id": "C86", "title": "Arrangement of keywords and strings on lines", "statement": "GNU gettext takes line ends between the words of an entry as white space. Let the words msgid, strings, msgstr, strings of an entry be distributed on lines in any way (one space between words on a line, the id not empty). parse() yields the unit with the concatenated strings and no error exactly if every line has one string, at its end. If no keyword ends a line and msgstr does not begin one, there is no unit and no error: the entry is lost. The natural claim that line ends between words do not matter is false: msgid alone on a line is an error, and an entry on a single line is lost without an error.", "quantifier": "every list of strings for the id and the translation, every distribution of the words on lines", "why_tests_cant": "infinitely many strings and arrangements; the failures are silent", "anchors": ["src/po/parser.rs: message_re, parse_line", "src/po/message_extractor.rs: parse_message_fields", "src/po/reader.rs: PoReader::new, next"]}
{"id": "C87", "title": "Streams that never end", "statement": "For every endless sequence of read events one of four cases applies: a finite beginning decides that parse() fails with an error, whatever follows; or a finite beginning decides the header data, the units and the error after them; or next() returns units for ever, where parse() and any number of calls need only a finite beginning and read nothing after it; or the stream never fails, all its complete lines can be read, and from some point on no complete line has a keyword (only blank lines, comments and continuation lines, or no more complete lines). In the last case the number of units in all beginnings is bounded. In the third case the units and header data are determined, and none of the other cases applies.", "quantifier": "every endless sequence of read events (data in pieces of any size, interruptions, failures), every continuation of its beginnings, any number of calls", "why_tests_cant": "the input is infinite and so is the sequence of units", "anchors": ["src/po/line_iter.rs: LineIter::next", "src/po/reader.rs: PoReader::new, next, next_unit", "src/po/message_extractor.rs: parse_message_fields"]}
{"id": "C88", "title": "Least number of lines", "statement": "Count for each delivered unit one line for each note, each other comment, each id, each text and each context (previous ones too), one for all places and one for all flags; for the header data one for each note and comment and two for the properties if there are any (one line more if there are notes or comments but no properties). Every input has at least as many lines that are not blank as its header data and units count, so at least two for each unit, whether or not it ends in an error. This cannot be improved: some input with exactly that many lines gives the same header data and units and no error.", "quantifier": "every input stream, whether or not it ends in an error", "why_tests_cant": "the bound relates the data to all texts that could give them", "anchors": ["src/po/reader.rs: PoReader::next_unit, parse_po_header", "src/po/message_extractor.rs: parse_message_fields", "src/po/decoder.rs: parse_comments"]}
{"id": "C89", "title": "Inputs of a single line; only line feeds end lines", "statement": "For an input that consists of one line the result is this, and one case applies to every line: a line that is not recognised makes parse() fail with a parse error with number 2; a blank line, a comment, or a line with msgctxt, msgid or msgid_plural (or with #| and msgctxt or msgid) gives no unit and no error; any other keyword line and a continuation line give no unit and the error that a msgid was expected in line 1. The header data are empty. An input without a line feed gives no unit, whatever other line ends it has. The natural claim that a carriage return alone ends a line is false: lines separated by carriage returns, the first a msgid line and the last ending in a quote, are lost without an error.", "quantifier": "every line; every stream without a line feed byte; all lists of lines separated by carriage returns", "why_tests_cant": "all texts of a line, all streams without line feeds", "anchors": ["src/po/line_iter.rs: LineIter::next", "src/po/parser.rs: parse_line", "src/po/reader.rs: PoReader::new, next_unit", "src/po/message_extractor.rs: parse_message_fields"]}
{"id": "C90", "title": "The quoted texts and the data of the units are the same sequence", "statement": "Take the keyword lines after the header in order; each with its place (previous context, previous id, ..., translation, plural translation), whether it is marked as obsolete, and its decoded text followed by the decoded texts of the continuation lines after it. If the input is read without error, this sequence is the concatenation of the texts of the delivered units in the order previous context, previous ids, context, ids, translations (empty previous ids are not counted), followed at most by texts of one entry without translation, none if the input ends with a translation. So no text is lost, changed, made up, moved to another place or to another unit. If there is an error, the same holds for a beginning of the lines. The sequence determines the units except for what comes from comments: two inputs read without error with the same Plural-Forms property and the same sequence give units that agree in obsolete mark, contexts and messages.", "quantifier": "every environment and stream; every pair of streams", "why_tests_cant": "all catalogues; conservation of every text", "anchors": ["src/po/reader.rs: PoReader::next_unit", "src/po/message_extractor.rs: parse_message_fields", "src/po/decoder.rs: parse_msg", "src/po/parser.rs: parse_line"]}
{"id": "C91", "title": "The comment lines and the comment data of the units are the same sequence", "statement": "Take the comment lines after the header in order, each with its kind and content. If the input is read without error, the notes, the other comments and the places of the delivered units, one unit after the other, are the notes, other comments and places of these lines, in order, and the flags of the units are the flags of these lines; except for comment lines at the end that belong to no translated entry (none if the input ends with a translation). So no comment is lost, made up, changed or moved across another of its kind. If there is an error, the same holds for a beginning of the lines.", "quantifier": "every environment and stream", "why_tests_cant": "all catalogues; conservation of every comment", "anchors": ["src/po/decoder.rs: parse_comments", "src/po/reader.rs: PoReader::next_unit", "src/po/parser.rs: parse_line"]}
{"id": "C92", "title": "An input is read without error exactly if every line may follow the line before it", "statement": "Consider a check that goes through the non-blank lines after the header (or all lines if there is no header) one by one and remembers only the current field: its keyword, its marker and its text. A comment may come only before the first field of an entry or after a translation. A continuation needs the marker of its keyword line. |msgctxt, |msgid, msgctxt and msgid may begin an entry. Within an entry, |msgctxt goes on with |msgid, msgctxt or msgid; |msgid with |msgid_plural, msgctxt or msgid; |msgid_plural with msgctxt or msgid; msgctxt with msgid; msgid with msgid_plural, or with msgstr if its text is not empty; msgid_plural with msgstr[i], i below the number of plural forms; msgstr[i] with msgstr[j], i < j below that number; and all fields of an entry are obsolete or none is. Iteration ends without an error exactly if all lines can be read, are recognised and pass this check. Place and line determine the next place, so the check needs no lookahead.", "quantifier": "every environment and stream for which the reader is made", "why_tests_cant": "all texts; both directions, so no accepted text outside and no rejected text inside the language", "anchors": ["src/po/reader.rs: PoReader::next_unit", "src/po/decoder.rs: the parse_* functions", "src/po/parser.rs: parse_line"]}
{"id": "C93", "title": "The first line that fails the check of adjacent lines determines the error", "statement": "Take the check of C92 and the first line that does not pass it. If the line cannot be read or is not recognised, the error of iteration is the error of that line, and the units are those of any input with the lines before it that is read without error, except that the last one is not returned if the line comes directly after its translation. If the line may not come where it is, the error has the number of the line, shows the beginning of the line, and names the missing keyword, which depends on the current field only: msgstr after msgid, msgstr[0] after msgid_plural, msgid otherwise; the units are those of any input with the lines before it that is read without error. The only other case is the msgstr line of an empty msgid: if the lines of this field are followed by nothing or by a line that can be read, the error is 'Source should not be empty' with the number of the first line of the entry after its comments; this line is unique, and the units are those of any input with the lines before the translation that is read without error. If they are followed by a line that cannot be read or is not recognised, the error is that of this line. One of these cases applies to every input that does not pass the check.", "quantifier": "every environment and stream for which the reader is made, with or without header", "why_tests_cant": "all positions of an error in all texts", "anchors": ["src/po/reader.rs: PoReader::next_unit", "src/po/decoder.rs: the parse_* functions", "src/error.rs: PoErr"]}
{"id": "C94", "title": "Clearing the previous texts", "statement": "Take an input that is read without error and remove every line after the header whose marker has a bar (#| and #~|), as msgattrib --clear-previous does. The result is read without error; it gives the same header data and the same units in the same order, each without its previous context and previous message. The same holds for an input without header. The lines to remove are determined by the lines alone.", "quantifier": "every environment and every pair of streams related this way; every error-free input with header lines, or without header", "why_tests_cant": "all texts, with all placements of previous lines between comments and fields", "anchors": ["src/po/reader.rs: PoReader::new, parse_po_header, parse_unit, next_unit", "src/po/message_extractor.rs: new_message, new_previous", "src/po/decoder.rs: parse_msg", "src/po/parser.rs: parse_line"]}
{"id": "C95", "title": "Removing and inserting comment lines", "statement": "If any comment lines after the header are removed from an input that is read without error, the result is read without error and gives the same header data and as many units, pairwise with the same message, context, previous texts and obsolete mark; notes, locations and other comments are sublists of those before, flags are among those before, and the state follows from the remaining flags. The same holds for an input without header. If no comment line is left after the header, the units have no notes, locations, comments and flags. Conversely, a comment line inserted in an input that is read without error leaves it without error exactly if an entry may begin at its place (no entry is begun, or it has its translation) and the next line is not a continuation line or a msgstr[j] line.", "quantifier": "every environment; every error-free input, every set of removed comment lines, every place of insertion", "why_tests_cant": "all texts, all sets of comment lines and all places", "anchors": ["src/po/reader.rs: PoReader::parse_comments, read_unit, next_unit", "src/po/decoder.rs: parse_msg", "src/po/message_extractor.rs: new_message, new_previous", "src/po/parser.rs: parse_line"]}
{"id": "C96", "title": "Changing, adding and removing translations", "statement": "Take two inputs with the same header whose lines after it differ only in the quoted texts of msgstr and msgstr[i] fields, in whatever way: translations may be changed, emptied or filled. Then both calls of parse() fail with the same error, or both give the same header data, as many units and the same error at the end. Corresponding units differ only in their translations and their state; both need work or none does; otherwise the second is final exactly if one of its translations is not empty. In particular, if all translations are emptied, each unit is the same without its translations and with state empty unless it needs work. More generally (C64 without its condition on empty translations): if the quoted texts are related by any relation that concatenation respects and that relates an empty id to an empty id only, then the units have related texts; also for inputs without header or with another header that has the same Plural-Forms property.", "quantifier": "every environment, every pair of streams related this way, with or without errors", "why_tests_cant": "all catalogues and all choices of new translations", "anchors": ["src/po/message_extractor.rs: new_message, parse_message_fields", "src/po/reader.rs: PoReader::read_unit, next_unit", "src/po/decoder.rs: parse_msg"]}
{"id": "C97", "title": "Only the active, or only the obsolete entries", "statement": "Take an input that is read without error and remove after its header all keyword and continuation lines that have an obsolete marker, or all that have none; comment lines and blank lines stay. The result is read without error, with the same header data, and gives exactly the units of the other kind, in order, with the same fields. Each takes over the notes, locations, comments and flags of the units removed immediately before it, in front of its own (a flag once), and its state follows from these flags; comments of units removed at the end are lost. So the resulting units are determined, and if the removed units have no data of comments they are exactly the remaining ones. The same holds for an input without header if a unit remains.", "quantifier": "every environment, every stream that is read without error, both kinds", "why_tests_cant": "all catalogues, all mixtures of active and obsolete entries and of their comments", "anchors": ["src/po/decoder.rs: parse_msg", "src/po/reader.rs: read_line, parse_comments, read_unit", "src/po/message_extractor.rs: parse_message_fields"]}
{"id": "C98", "title": "Obsolete markers decide only which units are obsolete", "statement": "Take two inputs with the same header whose lines after it agree except that keyword and continuation lines may have an obsolete marker in one and none in the other (any lines, not only all lines as in C53, nor whole entries). If both are read without error, they give the same header data and as many units, and corresponding units have the same data except that one may be obsolete and the other not. The same holds for two inputs without header.", "quantifier": "every environment, every pair of streams that differ this way and are both read without error", "why_tests_cant": "all catalogues and all subsets of lines to be marked", "anchors": ["src/po/decoder.rs: parse_msg", "src/po/reader.rs: read_line, read_unit", "src/po/message_extractor.rs: parse_message_fields"]}
{"id": "C99", "title": "What parse() returns depends on the header and the line after it only", "statement": "Take two inputs that begin with the same header entry, each ending there or going on with anything whose first line that is not blank can be read, is recognised and is not a continuation line. Then parse() fails on both with the same error, or gives a reader for both, with the same notes, comments, properties and language, whatever errors come later. If that line cannot be read or is not recognised, parse() fails with exactly its error, also if the header itself is bad.", "quantifier": "every environment, every header entry, every pair of continuations of the input", "why_tests_cant": "all headers and all continuations, including failing streams", "anchors": ["src/po/reader.rs: PoReader::new, parse_po_header", "src/po/parser.rs: PoParser::parse"]}
{"id": "C100", "title": "A change of some lines changes only the units next to them", "statement": "Take two inputs that are read without error, with the same plural forms, whose lines after the header are p m s and p m' s: they differ in one stretch of lines only. Then the units are a x b and a y b: they differ in one stretch of units only, x has at most two units and one more for every two lines of m, and y likewise for m'. So replacing, inserting or removing one line changes at most two neighbouring units. If the second input ends in an error instead, its units are a y and those of the first are a b: y has at most two units and one more for every two lines of m', and a is, but for at most one unit, what p alone gives, which is read without error. So a change can spoil only the units next to it and those after it, and no unit before it is lost or altered. The error also tells where the change is: a line that cannot be read or is not recognised is one of the changed lines; and if the error names an expected keyword, its line is one of the changed ones or the first line after them that is neither blank nor a continuation. The error 'Source should not be empty' has the number of the line where an entry begins; the msgstr line of that entry is one of the changed ones or, again, the first line after them that is neither blank nor a continuation.", "quantifier": "every environment, with or without header, every pair of inputs and every common beginning and end", "why_tests_cant": "all positions and all edits of all inputs", "anchors": ["src/po/reader.rs: PoReader::next_unit", "src/po/decoder.rs: the parse_* functions", "src/po/line_iter.rs: LineIter"]}
{"id": "C101", "title": "The keyword that an error names would have been accepted", "statement": "Every error of iteration that names a keyword is the error of the first line that may not come where it is (C93). If instead the input has there a line with this keyword, any text, and a marker that fits the entry, and then ends, it is read without error. There are two exceptions. After an empty msgid the error asks for msgstr, but a msgstr line gives 'Source should not be empty'. With nplurals=0 the error after msgid_plural asks for msgstr[0], but every line there except a continuation line gives this error, also a msgstr[0] line.", "quantifier": "every environment, with or without header, every input with such a line, every text of the new line", "why_tests_cant": "all positions of an error in all texts", "anchors": ["src/po/decoder.rs: Decoder::expected", "src/po/message_extractor.rs: parse_message_fields, new_message"]}
{"id": "C102", "title": "Changes that are harmless each are harmless together", "statement": "Take an input that is read without error and two changes of its lines after the header, at different places: p m q k s becomes p m' q k s with the first one, p m q k' s with the second one and p m' q k' s with both. Suppose that it is read without error, with the same plural forms, with each of the changes alone, and that one of the lines q between them is neither blank nor a continuation. Then it is read without error with both. The units with both are those at the first place of the input with the first change and those at the second place of the input with the second change, but for at most one unit between: there are a, a', b, b' so that the units are a x b, with the first change a' x1 b, with the second one a x2 b' and with both a' x3 b', where x, x1, x2 and x3 have at most one unit each. Without such a line between the changes this fails: an entry cut off at the end and a comment after it. If the lines q have a msgstr or msgstr[i] line and after it a comment line or a line of another keyword, the units are exactly a b, a' b, a b' and a' b': the two changes have nothing to do with each other.", "quantifier": "every environment, with or without header, every input and every two changes", "why_tests_cant": "all pairs of changes of all inputs", "anchors": ["src/po/reader.rs: PoReader::next_unit", "src/po/decoder.rs: the parse_* functions", "src/po/line_iter.rs: LineIter"]}
{"id": "C103", "title": "How reading goes on depends on the last line that is no continuation", "statement": "Take two inputs with the same plural forms whose lines after the header are f t r and f' t r, where t is neither blank nor a continuation and f t and f' t alone are read without error. Then either both are read without error or both end in the same error: a parse or input error has the same texts, and its line is as far behind t in both; for 'Source should not be empty' both give this message. If they are read without error, their units are a y b and a' y' b with at most one unit each in y and y'. So nothing before the last such line has an influence on which lines may follow.", "quantifier": "every environment, with or without header, all pairs of beginnings and every end", "why_tests_cant": "all pairs of beginnings and all ends", "anchors": ["src/po/reader.rs: PoReader::next_unit", "src/po/decoder.rs: the parse_* functions", "src/po/message_extractor.rs: parse_message_fields, new_message"]}
