{
 "claims": [
  {
   "property": "C01",
   "status": "proved",
   "theorems": [
    "Verif.C01_no_panic"
   ],
   "note": "Every environment, byte stream and number of calls of next(); unwrap/unreachable/fuel exhaustion are an explicit panic outcome of the model."
  },
  {
   "property": "C02",
   "status": "proved",
   "theorems": [
    "Verif.C02_fused",
    "Verif.C02_after_end"
   ],
   "note": ""
  },
  {
   "property": "C03",
   "status": "proved",
   "theorems": [
    "Verif.C03_bounded",
    "Verif.C14_lines"
   ],
   "note": "C14_lines gives each unit its own non-empty block of lines."
  },
  {
   "property": "C04",
   "status": "proved",
   "theorems": [
    "Verif.C04_terminators"
   ],
   "note": ""
  },
  {
   "property": "C05",
   "status": "proved",
   "theorems": [
    "Verif.C05_where",
    "Verif.C05_reported",
    "Verif.C05_nothing_later",
    "Verif.C05_error"
   ],
   "note": "C05_where: which lines cannot be read, in terms of the bytes. C05_reported: the items before it and one I/O error with its number. C05_nothing_later: what follows never matters. C05_error: the user gets that error unless an earlier line gives one."
  },
  {
   "property": "C06",
   "status": "proved",
   "theorems": [
    "Verif.C06_line_classification",
    "Verif.C06_unique"
   ],
   "note": ""
  },
  {
   "property": "C07",
   "status": "proved",
   "theorems": [
    "Verif.C07_comment_iff",
    "Verif.C07_refuted",
    "Verif.C07_absorbed",
    "Verif.C07_unquoted_is_comment"
   ],
   "note": "Exact condition; the natural claim is refuted with witnesses, at the level of lines and of catalogues."
  },
  {
   "property": "C08",
   "status": "proved",
   "theorems": [
    "Verif.C08_unescape_escape"
   ],
   "note": ""
  },
  {
   "property": "C09",
   "status": "proved",
   "theorems": [
    "Verif.C09_unescape_exact",
    "Verif.C09_no_backslash"
   ],
   "note": ""
  },
  {
   "property": "C10",
   "status": "proved",
   "theorems": [
    "Verif.C10_layout",
    "Verif.C10_pieces"
   ],
   "note": "C10_pieces: any text in any pieces, anywhere in any input. C10_layout: the general statement, also for markers and spacing."
  },
  {
   "property": "C100",
   "status": "proved",
   "theorems": [
    "Verif.C100_local",
    "Verif.C100_broken",
    "Verif.C100_where",
    "Verif.C100_unreadable",
    "Verif.C100_source"
   ],
   "note": ""
  },
  {
   "property": "C101",
   "status": "proved",
   "theorems": [
    "Verif.C101_helps",
    "Verif.C101_named",
    "Verif.C101_never",
    "Verif.C101_empty"
   ],
   "note": ""
  },
  {
   "property": "C102",
   "status": "proved",
   "theorems": [
    "Verif.C102_both",
    "Verif.C102_exact"
   ],
   "note": ""
  },
  {
   "property": "C103",
   "status": "proved",
   "theorems": [
    "Verif.C103_last"
   ],
   "note": ""
  },
  {
   "property": "C11",
   "status": "proved",
   "theorems": [
    "Verif.C11_blank",
    "Verif.C10_layout"
   ],
   "note": "Same header data, units, and error at the same non-blank line."
  },
  {
   "property": "C12",
   "status": "proved",
   "theorems": [
    "Verif.C12_input",
    "Verif.C12_message_spacing",
    "Verif.C12_comment_indent"
   ],
   "note": "Whole inputs (observations of parse() and next(), error numbers included) and single lines."
  },
  {
   "property": "C13",
   "status": "proved",
   "theorems": [
    "Verif.C13_round_trip",
    "Verif.C13_layout",
    "Verif.C13_injective"
   ],
   "note": "Writer and writable catalogues are defined in Spec/Write without the reader. Writable means: what the format can carry (one-line comments without leading white space, words as locations, trimmed flags without comma, no empty-but-present text, 1..nplurals plural texts, state agreeing with flags and texts, property values that survive trimming). Translator notes and comments must not look like quoted lines, see C07."
  },
  {
   "property": "C14",
   "status": "proved",
   "theorems": [
    "Verif.C14_blocks",
    "Verif.C14_fields",
    "Verif.C14_lines"
   ],
   "note": "blocks, entry grammar and field texts; exact run specification parse_spec/run_iff"
  },
  {
   "property": "C15",
   "status": "proved",
   "theorems": [
    "Verif.C15_state"
   ],
   "note": ""
  },
  {
   "property": "C16",
   "status": "proved",
   "theorems": [
    "Verif.C16_comments"
   ],
   "note": ""
  },
  {
   "property": "C17",
   "status": "proved",
   "theorems": [
    "Verif.C17_obsolete"
   ],
   "note": ""
  },
  {
   "property": "C18",
   "status": "proved",
   "theorems": [
    "Verif.C18_source",
    "Verif.C18_empty_source"
   ],
   "note": "witness of a plural entry with empty id as example in Props/Units.lean"
  },
  {
   "property": "C19",
   "status": "proved",
   "theorems": [
    "Verif.C19_text"
   ],
   "note": ""
  },
  {
   "property": "C20",
   "status": "proved",
   "theorems": [
    "Verif.C20_unit",
    "Verif.C20_header",
    "Verif.C20_missing",
    "Verif.C20_cases"
   ],
   "note": "a first msgid_plural without msgid is also an (empty) header"
  },
  {
   "property": "C21",
   "status": "proved",
   "theorems": [
    "Verif.C21_properties"
   ],
   "note": ""
  },
  {
   "property": "C22",
   "status": "proved",
   "theorems": [
    "Verif.C22_language"
   ],
   "note": "language library is a parameter"
  },
  {
   "property": "C23",
   "status": "proved",
   "theorems": [
    "Verif.C23_forms",
    "Verif.C23_iff",
    "Verif.formsParse_iff",
    "Verif.formsError_iff"
   ],
   "note": "For every first entry that is a header, with FormsOf (value list, numeral, grammar) stated independently; the three ways to fail are shown on concrete inputs."
  },
  {
   "property": "C24",
   "status": "proved",
   "theorems": [
    "Verif.C24_forms",
    "Verif.C24_immutable"
   ],
   "note": ""
  },
  {
   "property": "C25",
   "status": "proved",
   "theorems": [
    "Verif.C25_map",
    "Verif.C25_exact",
    "Verif.C25_accepted",
    "Verif.C25_reject"
   ],
   "note": "C25_map: clean pairs, any white space. C25_exact and C25_accepted: every text. C25_reject: no final semicolon."
  },
  {
   "property": "C26",
   "status": "proved",
   "theorems": [
    "Verif.C26_count",
    "Verif.C26_numeral"
   ],
   "note": "Also the message for every text that is not a numeral."
  },
  {
   "property": "C27",
   "status": "proved",
   "theorems": [
    "Verif.C27_accepts",
    "Verif.C27_unambiguous"
   ],
   "note": "The grammar (Derives) is the published one, transcribed rule by rule; that lalrpop's generated parser accepts it is trusted."
  },
  {
   "property": "C28",
   "status": "proved",
   "theorems": [
    "Verif.C28_round_trip",
    "Verif.C28_expressible",
    "Verif.C28_reread"
   ],
   "note": "Trees without negative literals, which are the only ones the parser builds."
  },
  {
   "property": "C29",
   "status": "proved",
   "theorems": [
    "Verif.C29_space",
    "Verif.C29_words"
   ],
   "note": "White space may be left out between tokens that do not clash."
  },
  {
   "property": "C30",
   "status": "proved",
   "theorems": [
    "Verif.C30_value",
    "Verif.C30_meaning"
   ],
   "note": "C30_value: exact integer semantics, given by a big-step relation. C30_meaning: all other cases."
  },
  {
   "property": "C31",
   "status": "proved",
   "theorems": [
    "Verif.C31_release",
    "Verif.C31_checked",
    "Verif.C31_refuted",
    "Verif.C31_api"
   ],
   "note": "Exact condition for the panic; the claim without the condition is refuted, also by a whole catalogue."
  },
  {
   "property": "C32",
   "status": "proved",
   "theorems": [
    "Verif.C32_value",
    "Verif.C32_range",
    "Verif.C32_iff"
   ],
   "note": "C32_value covers the panic of C31 too."
  },
  {
   "property": "C33",
   "status": "proved",
   "theorems": [
    "Verif.C33_select",
    "Verif.C33_values",
    "Verif.C33_gap"
   ],
   "note": "C33_gap: witness that texts move up when msgstr[0] is missing."
  },
  {
   "property": "C34",
   "status": "proved",
   "theorems": [
    "Verif.C34_no_forms"
   ],
   "note": ""
  },
  {
   "property": "C35",
   "status": "proved",
   "theorems": [
    "Verif.C35_signed",
    "Verif.C35_small",
    "Verif.C35_default",
    "Verif.C35_blank"
   ],
   "note": ""
  },
  {
   "property": "C36",
   "status": "proved",
   "theorems": [
    "Verif.C36_exact",
    "Verif.C36_agree",
    "Verif.C36_differ",
    "Verif.C36_refuted"
   ],
   "note": "C36_exact: the formulas with the same tree in both grammars are exactly the common ones."
  },
  {
   "property": "C37",
   "status": "proved",
   "theorems": [
    "Verif.C37_iff",
    "Verif.C37_accessors",
    "Verif.C37_equivalence"
   ],
   "note": ""
  },
  {
   "property": "C38",
   "status": "proved",
   "theorems": [
    "Verif.C38_next",
    "Verif.C38_parse"
   ],
   "note": "Every error of next() and parse(), located in the lines of the input; witness for the off-by-one number beside the theorems."
  },
  {
   "property": "C39",
   "status": "proved",
   "theorems": [
    "Verif.C39_complete"
   ],
   "note": "Witness for the silently dropped truncated entry beside the theorem."
  },
  {
   "property": "C40",
   "status": "proved",
   "theorems": [
    "Verif.C40_bad_line"
   ],
   "note": "Concrete cases for a lost unit, a kept unit and a failing parse() beside the theorem."
  },
  {
   "property": "C41",
   "status": "proved",
   "theorems": [
    "Verif.C41_concat",
    "Verif.C41_catalogues"
   ],
   "note": "C41_concat: with the plural forms of the first input; C41_catalogues: in terms of what a user sees of both inputs."
  },
  {
   "property": "C42",
   "status": "proved",
   "theorems": [
    "Verif.C42_display",
    "Verif.C42_debug",
    "Verif.C42_source",
    "Verif.C42_line"
   ],
   "note": "The texts of I/O errors are a parameter. C42_line: the text determines the line and the kind."
  },
  {
   "property": "C43",
   "status": "proved",
   "theorems": [
    "Verif.C43_chunking",
    "Verif.C43_flatten"
   ],
   "note": ""
  },
  {
   "property": "C44",
   "status": "proved",
   "theorems": [
    "Verif.C44_count",
    "Verif.C44_stop_entry",
    "Verif.C44_stop_ids"
   ],
   "note": ""
  },
  {
   "property": "C45",
   "status": "proved",
   "theorems": [
    "Verif.C45_previous"
   ],
   "note": ""
  },
  {
   "property": "C46",
   "status": "proved",
   "theorems": [
    "Verif.C46_normal",
    "Verif.C46_reread",
    "Verif.C46_image"
   ],
   "note": "A comment that ends in a carriage return (its line has two) is written with CRLF again, since Rendering allows only CRLF there."
  },
  {
   "property": "C47",
   "status": "proved",
   "theorems": [
    "Verif.C47_items",
    "Verif.C47_fails",
    "Verif.C47_sound",
    "Verif.C47_complete",
    "Verif.C47_total",
    "Verif.C47_determined"
   ],
   "note": "Header properties are compared as a map (SameHeader) in C47_complete."
  },
  {
   "property": "C48",
   "status": "proved",
   "theorems": [
    "Verif.C48_kind",
    "Verif.C48_plural",
    "Verif.C48_blank",
    "Verif.C48_simple",
    "Verif.C48_unit",
    "Verif.C48_forms"
   ],
   "note": ""
  },
  {
   "property": "C49",
   "status": "proved",
   "theorems": [
    "Verif.C49_rules",
    "Verif.C49_select"
   ],
   "note": "21 plural rules written as Lean functions over natural numbers; evaluation through the proved expression compiler correctness"
  },
  {
   "property": "C50",
   "status": "proved",
   "theorems": [
    "Verif.C50_prefix",
    "Verif.C50_half"
   ],
   "note": "cut anywhere, also inside a line or a character; the last unit of the cut input is excepted because later lines can continue it"
  },
  {
   "property": "C51",
   "status": "proved",
   "theorems": [
    "Verif.C51_total",
    "Verif.C51_read",
    "Verif.C51_blank",
    "Verif.C51_pieces"
   ],
   "note": "Input model generalised to streams that go on after a report of the end; all earlier theorems are about streams that do not. Places of reports not covered by C51_read (before a continuation line or an error) are covered by C51_total only."
  },
  {
   "property": "C52",
   "status": "proved",
   "theorems": [
    "Verif.C52_comments"
   ],
   "note": "A simulation of two item lists read side by side; the relation on lines (Recommented) is in Spec/Change."
  },
  {
   "property": "C53",
   "status": "proved",
   "theorems": [
    "Verif.C53_obsolete"
   ],
   "note": "The same simulation with the obsolete marker added."
  },
  {
   "property": "C54",
   "status": "proved",
   "theorems": [
    "Verif.C54_header",
    "Verif.C54_noPlural",
    "Verif.C54_drop",
    "Verif.C54_without",
    "Verif.C54_with"
   ],
   "note": "From the exact specification of catalogues. C54_drop says the same as C54_without for two inputs that are both read."
  },
  {
   "property": "C55",
   "status": "proved",
   "theorems": [
    "Verif.C55_bom",
    "Verif.C55_first_line",
    "Verif.C55_text"
   ],
   "note": "C55_text gives the error for a text with a byte order mark."
  },
  {
   "property": "C56",
   "status": "proved",
   "theorems": [
    "Verif.C56_classes",
    "Verif.C56_same",
    "Verif.C56_order"
   ],
   "note": "for all pairs of streams whose lines differ only in runs of comment lines"
  },
  {
   "property": "C57",
   "status": "proved",
   "theorems": [
    "Verif.C57_units",
    "Verif.C57_header"
   ],
   "note": "for every stream; nothing is assumed about the input"
  },
  {
   "property": "C58",
   "status": "proved",
   "theorems": [
    "Verif.C58_lazy"
   ],
   "note": "for every stream with such a beginning, whatever comes after it"
  },
  {
   "property": "C59",
   "status": "proved",
   "theorems": [
    "Verif.C59_same",
    "Verif.C59_bound",
    "Verif.C59_least",
    "Verif.C59_slow",
    "Verif.C59_fails",
    "Verif.C59_calls",
    "Verif.C59_idle"
   ],
   "note": "Calls of the line source counted by a source that wraps the program's; upper bound linear in lines, lower bound nplurals per plural unit, witness of seven lines. Since a reader is dropped when parse() fails, C59_fails is about linesAfterNew, a copy of Reader.new that gives the line source back; C59_calls ties it to the reader."
  },
  {
   "property": "C60",
   "status": "proved",
   "theorems": [
    "Verif.C60_total",
    "Verif.C60_text",
    "Verif.C60_unit",
    "Verif.C60_rules",
    "Verif.C60_large"
   ],
   "note": "Shape of formulas as an inductive predicate; values by C32. C60_large is a witness that counts from 2^63 on can get a wrong index."
  },
  {
   "property": "C61",
   "status": "proved",
   "theorems": [
    "Verif.C61_ends",
    "Verif.C61_output",
    "Verif.C61_refused",
    "Verif.C61_convert",
    "Verif.C61_main",
    "Verif.C61_tells"
   ],
   "note": "The whole main() of the example, as runs; opening a file is a parameter. std::io::Error made with Error::new is modelled by the error inside."
  },
  {
   "property": "C62",
   "status": "proved",
   "theorems": [
    "Verif.C62_iff",
    "Verif.C62_value",
    "Verif.C62_text"
   ],
   "note": ""
  },
  {
   "property": "C63",
   "status": "proved",
   "theorems": [
    "Verif.C63_entries",
    "Verif.C63_plain",
    "Verif.C63_headed"
   ],
   "note": "C63_entries: inputs whose header has some property; C63_plain: inputs whose first entry is a unit. A header without msgid (C20) is left out: moving an entry that begins with msgid after it makes it part of that entry."
  },
  {
   "property": "C64",
   "status": "proved",
   "theorems": [
    "Verif.C64_texts",
    "Verif.C64_fails",
    "Verif.C64_headed",
    "Verif.C64_translations",
    "Verif.C64_characters"
   ],
   "note": "The header's own text is interpreted (properties, Plural-Forms), so C64_texts asks for equal Plural-Forms properties and C64_fails leaves out the errors of that property; C64_headed needs neither because the header lines are the same."
  },
  {
   "property": "C65",
   "status": "proved",
   "theorems": [
    "Verif.C65_room",
    "Verif.C65_bounds"
   ],
   "note": "PluralForms are shared by all plural units (Rc) and not counted; the texts counted are those of the header data and of the units."
  },
  {
   "property": "C66",
   "status": "proved",
   "theorems": [
    "Verif.C66_same",
    "Verif.C66_work",
    "Verif.C66_size",
    "Verif.C66_forms",
    "Verif.C66_unit",
    "Verif.C66_deep"
   ],
   "note": "Calls and depth are those of a copy of execute with counters; C66_same proves that the copy gives the same results."
  },
  {
   "property": "C67",
   "status": "proved",
   "theorems": [
    "Verif.C67_parts",
    "Verif.C67_append"
   ],
   "note": ""
  },
  {
   "property": "C68",
   "status": "proved",
   "theorems": [
    "Verif.C68_model",
    "Verif.C68_value",
    "Verif.C68_same",
    "Verif.C68_choice",
    "Verif.C68_text",
    "Verif.C68_parse",
    "Verif.C68_large",
    "Verif.C68_wrap"
   ],
   "note": ""
  },
  {
   "property": "C69",
   "status": "proved",
   "theorems": [
    "Verif.C69_before",
    "Verif.C69_after",
    "Verif.C69_first"
   ],
   "note": "Line of an error as a small inductive relation; header exception (only comments before the line), lost last entry and hidden second error are in the statement."
  },
  {
   "property": "C70",
   "status": "proved",
   "theorems": [
    "Verif.C70_parens",
    "Verif.C70_forms",
    "Verif.C70_insert",
    "Verif.C70_execute"
   ],
   "note": "Insertion is stated on token sequences and on any text that writes them; the tree is not mentioned. Examples show that the converse of C70_parens is not true."
  },
  {
   "property": "C71",
   "status": "proved",
   "theorems": [
    "Verif.C71_white",
    "Verif.C71_index",
    "Verif.C71_plain"
   ],
   "note": "The lists of code points in the specification are separate from the range tables of the model. The digit table is that of Unicode 15.0; C71_plain says that another one makes no difference for inputs read without error."
  },
  {
   "property": "C72",
   "status": "proved",
   "theorems": [
    "Verif.C72_text",
    "Verif.C72_accepted",
    "Verif.C72_wellFormed"
   ],
   "note": "The table of byte sequences in the specification is separate from the encoder and decoder of the model."
  },
  {
   "property": "C73",
   "status": "proved",
   "theorems": [
    "Verif.C73_repeats",
    "Verif.C73_table",
    "Verif.C73_text",
    "Verif.C73_rules"
   ],
   "note": ""
  },
  {
   "property": "C74",
   "status": "proved",
   "theorems": [
    "Verif.C74_indices",
    "Verif.C74_more",
    "Verif.C74_iff"
   ],
   "note": ""
  },
  {
   "property": "C75",
   "status": "proved",
   "theorems": [
    "Verif.C75_texts",
    "Verif.C75_ids"
   ],
   "note": ""
  },
  {
   "property": "C76",
   "status": "proved",
   "theorems": [
    "Verif.C76_table",
    "Verif.C76_formula",
    "Verif.C76_total",
    "Verif.C76_verdict",
    "Verif.C76_unique"
   ],
   "note": ""
  },
  {
   "property": "C77",
   "status": "proved",
   "theorems": [
    "Verif.C77_file"
   ],
   "note": ""
  },
  {
   "property": "C78",
   "status": "proved",
   "theorems": [
    "Verif.C78_message",
    "Verif.C78_refused",
    "Verif.C78_forms",
    "Verif.C78_expected"
   ],
   "note": ""
  },
  {
   "property": "C79",
   "status": "proved",
   "theorems": [
    "Verif.C79_patterns",
    "Verif.C79_line",
    "Verif.C79_grammar",
    "Verif.C79_unescape",
    "Verif.C79_list",
    "Verif.C79_map"
   ],
   "note": ""
  },
  {
   "property": "C80",
   "status": "proved",
   "theorems": [
    "Verif.C80_extract",
    "Verif.C80_lines",
    "Verif.C80_once",
    "Verif.C80_table"
   ],
   "note": ""
  },
  {
   "property": "C81",
   "status": "proved",
   "theorems": [
    "Verif.C81_literal",
    "Verif.C81_data",
    "Verif.C81_unit",
    "Verif.C81_shows",
    "Verif.C81_declared",
    "Verif.C81_plain"
   ],
   "note": ""
  },
  {
   "property": "C82",
   "status": "proved",
   "theorems": [
    "Verif.C82_order"
   ],
   "note": ""
  },
  {
   "property": "C83",
   "status": "proved",
   "theorems": [
    "Verif.C83_wrap",
    "Verif.C83_debug",
    "Verif.C83_sharp"
   ],
   "note": ""
  },
  {
   "property": "C84",
   "status": "proved",
   "theorems": [
    "Verif.C84_literal",
    "Verif.C84_adjacent",
    "Verif.C84_refuted"
   ],
   "note": ""
  },
  {
   "property": "C85",
   "status": "proved",
   "theorems": [
    "Verif.C85_agree",
    "Verif.C85_plain",
    "Verif.C85_unordered",
    "Verif.C85_rules",
    "Verif.C85_text",
    "Verif.C85_refuted",
    "Verif.C85_gettext"
   ],
   "note": ""
  },
  {
   "property": "C86",
   "status": "proved",
   "theorems": [
    "Verif.C86_layout",
    "Verif.C86_lost",
    "Verif.C86_refuted"
   ],
   "note": ""
  },
  {
   "property": "C87",
   "status": "proved",
   "theorems": [
    "Verif.C87_endless",
    "Verif.C87_quiet",
    "Verif.C87_unique",
    "Verif.C87_exclusive"
   ],
   "note": ""
  },
  {
   "property": "C88",
   "status": "proved",
   "theorems": [
    "Verif.C88_least",
    "Verif.C88_two",
    "Verif.C88_attained"
   ],
   "note": ""
  },
  {
   "property": "C89",
   "status": "proved",
   "theorems": [
    "Verif.C89_one",
    "Verif.C89_total",
    "Verif.C89_no_lf",
    "Verif.C89_cr",
    "Verif.C89_refuted"
   ],
   "note": ""
  },
  {
   "property": "C90",
   "status": "proved",
   "theorems": [
    "Verif.C90_texts",
    "Verif.C90_error",
    "Verif.C90_unique",
    "Verif.C90_determined"
   ],
   "note": ""
  },
  {
   "property": "C91",
   "status": "proved",
   "theorems": [
    "Verif.C91_remarks",
    "Verif.C91_error",
    "Verif.C91_unique"
   ],
   "note": ""
  },
  {
   "property": "C92",
   "status": "proved",
   "theorems": [
    "Verif.C92_header",
    "Verif.C92_plain",
    "Verif.C92_determined"
   ],
   "note": ""
  },
  {
   "property": "C93",
   "status": "proved",
   "theorems": [
    "Verif.C93_line",
    "Verif.C93_unreadable",
    "Verif.C93_source",
    "Verif.C93_source_unreadable",
    "Verif.C93_complete",
    "Verif.C93_begins"
   ],
   "note": ""
  },
  {
   "property": "C94",
   "status": "proved",
   "theorems": [
    "Verif.C94_headed",
    "Verif.C94_plain",
    "Verif.C94_determined"
   ],
   "note": ""
  },
  {
   "property": "C95",
   "status": "proved",
   "theorems": [
    "Verif.C95_headed",
    "Verif.C95_plain",
    "Verif.C95_none",
    "Verif.C95_insert"
   ],
   "note": ""
  },
  {
   "property": "C96",
   "status": "proved",
   "theorems": [
    "Verif.C96_translations",
    "Verif.C96_empty",
    "Verif.C96_headed",
    "Verif.C96_texts"
   ],
   "note": ""
  },
  {
   "property": "C97",
   "status": "proved",
   "theorems": [
    "Verif.C97_headed",
    "Verif.C97_plain",
    "Verif.C97_determined",
    "Verif.C97_clean"
   ],
   "note": ""
  },
  {
   "property": "C98",
   "status": "proved",
   "theorems": [
    "Verif.C98_headed",
    "Verif.C98_plain"
   ],
   "note": ""
  },
  {
   "property": "C99",
   "status": "proved",
   "theorems": [
    "Verif.C99_depends",
    "Verif.C99_unreadable"
   ],
   "note": ""
  }
 ]
}
