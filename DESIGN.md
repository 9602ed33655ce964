# Design of the formal model of poreader

Pinned source: `/repo` (Rust, poreader 1.1.2).  Everything is read as text; nothing of it is run.

## How to read this development

`lean/Verif/Model` is the program, `lean/Verif/Spec` says what it should do, `lean/Verif/Props` holds the theorems named in
`MANIFEST.json` (with a concrete case beside each), `lean/Verif/Lemmas` is what is in between.

### Model

| File | What it models |
|---|---|
| `Basic` | text: a Rust string is a list of Unicode scalar values |
| `Unicode` | `char::is_whitespace` / `\s` and `\d` (general category Nd) as range tables |
| `Regex` | the part of the `regex` crate in use: leftmost-first backtracking semantics with captures, greedy and lazy repetition, `find`/`captures`/`captures_iter`/`replace_all` |
| `Error` | `error::Error`, `PoLine`, and the outcome type `Out` = value, returned `Err`, or panic |
| `Text` | `str::trim`, `split`, `split_whitespace`, `splitn(2, ..)`, `join`, decimal output |
| `Unescape` | `po/unescape.rs` |
| `Parser` | `po/parser.rs`: the five patterns, transcribed as data, `parse_map`, `parse_line` |
| `Input` | the byte stream (events: data, interrupted, failure), `BufReader`/`read_until`, `lines()`, UTF-8, `LineIter`, `Peekable` |
| `Formula` | `plural/formula`: lexer, grammar (as a derivation relation and as a recursive-descent parser), `Node::execute` with overflow checks on or off |
| `Table` | the LR automaton of the grammar and lalrpop's parser loop (used by C76, C77 and C78 only; the rest uses the parser in `Formula`) |
| `Message` | tokens with byte positions, the tokens that lalrpop's parser says it expected, the `Display` text of its errors (C78) |
| `Grammar` | the text of `formula.lalrpop` and a reader for the part of lalrpop's grammar language that it uses (C77) |
| `Data` | `plural/forms.rs`, `plural/plural.rs`, `enums`, `note.rs`, `comment.rs`, `unit.rs`, formatting in `error.rs` |
| `Decoder` | `po/decoder.rs`, `po/message_extractor.rs` |
| `Debug` | the derived `Debug` of the data types (C81) |
| `HashOrder` | `Reader` with the iteration order of the header's `HashMap` as a parameter (C82) |
| `Counter` | `LineIter` with a counter of `w` bits (C83) |
| `Extractor` | `po/message_extractor.rs` with any implementation of the trait `Decoder` (C80, which says that with the one in `Decoder` it is the same function) |
| `Reader` | `po/reader.rs`, `PoParser::parse` |
| `Program` | conversion of errors to `std::io::Error`, the example program in the documentation (`lib.rs`) |
| `Equality` | equality of formulas |
| `Steps` | `Node::execute` with its calls counted |
| `Width` | the plural code with another width of `usize` |

Functions that can fail or panic have type `Eff σ α := σ → Out α × σ`: the state is threaded through, and `unwrap` on a failure,
`unreachable!()` and running out of loop fuel are the outcome `panic`.  So "no panic" (C01) also says that the fuel given to the
loops always suffices.  The state `σ` of the line source is a parameter (`Src`), used with `Peekable` over the byte stream
(the program), with a plain list of line items, and with a list of polls (both for proofs).  `Lemmas/Sim` shows that they give the
same observations.

### Specification

The specification is relational and does not use the functions of the model to say what should happen, only its data types and the
two character tables.  (A script over the compiled environment was used to check this: the constants of `Verif.Spec` use no function
of the model other than `isWhite`, `isNd`, projections, `Message.default` (the empty message), `Cls.test` (a character is in a class, in
`Spec/Regex`), `GPart.sym` (the symbol in a part of a rule), and, in the definitions of what a caller sees of the program, the program itself: `parse`, `Reader.new`, `Reader.next`.)

- `Text`: trimming (`Stripped`), splitting (`Cut`), the text of a byte line (`LineText`).
- `Line`: the line grammar (`Classified`); `Input`: the lines of a stream and the items they give.
- `Entry`: the grammar of entries over classified lines; `Fields`: the texts of a block read off directly.
- `Run`: entries one after the other and the ways of stopping (`Run`, `Stops`); `Catalogue`: first entry, header data, all of it
  (`Reads`, `Rejects`); `Progress`, `Positions`, `Layout`, `Places`: how far reading has come, positions, different layouts, the same error at another line;
  `Resume`: streams that go on after the end of input; `Change`, `CommentRuns`: changes of the input and of the results;
  `Invariants`: what holds for all data; `Lazy`: how much of the stream is read; `Work`: a line source that counts.
- `Forms`: units with other plural forms; `Counting`: numbers of lines and data; `Utf8`: the table of byte sequences; `Periodic`: formulas that repeat.
- `Formula`, `CGrammar`, `ValueList`, `Plural`, `Choice`: tokens, integer value of formulas, the C grammar, value lists, `Plural-Forms`,
  formulas that always choose a form; `Extractor`: what is asked of a decoder; `Debug`: literals of Rust; `DebugTree`: the general shape of derived `Debug` texts and the declarations; `Renumber`: errors with other line numbers; `Counter`: states reached by calls; `CString`: string literals of C; `FreeLayout`: words of an entry arranged on lines; `Unsigned`: formulas as C expressions over unsigned numbers; `Table`: what the table-driven parser reports;
  `Grammar`: what a grammar file means; `Message`: what the message for a text that is no formula says.
- `Regex`: regular expressions as derivations with an order of preference; `Pattern`: the texts of patterns and what the functions that use them give (C79).
- `Write`: a writer of catalogues and which catalogues can be written.

Some specification functions (`strip`, `cut`, `lineText`, `classify`) are the unique result of a relation, chosen with
`Classical.choice`; they are noncomputable and a lemma says when they have which value.

The central theorem is `parse_spec` (with `Reads.unique`): for every byte stream, what `parse()` and all calls of `next()` give is
exactly what the specification `Reads`/`Rejects` says of the lines of the stream, and that is determined.  Most properties about
units and errors are derived from it.

## Plan per property (written before the proofs)

- **C01 Reading never panics** — Model `unwrap`/`unreachable!`/array indexing as an explicit `panic` outcome of the reader functions; prove by induction over the item list that no function returns `panic`.
- **C02 The reader is a fused iterator and an error is always last** — Model `next` as a step function on the reader state; induct over the number of calls.
- **C03 Draining terminates and consumes input** — Measure = remaining items; every `read_unit` that returns a unit shortens it; induct.
- **C04 Line terminators do not matter** — Byte-level model of `BufRead::lines`; a renderer with a per-line terminator choice; prove lines(render) = lines.
- **C05 Undecodable or failing input is reported at its line** — Byte-level model with a UTF-8 decoder and an optional final I/O failure; induct over raw lines.
- **C06 Lines are classified exactly as the line grammar says** — Regexes are transcribed as data and run by a generic backtracking (leftmost-first) matcher; prove `parseLine` equals a regex-free specification for every line.
- **C07 Comment lines never act as message lines** — Corollary of the line specification; witness by evaluation; exact iff.
- **C08 Unescaping inverts escaping** — `unescape` is the regex `replace_all` model; prove unescape (escape s) = s by induction.
- **C09 Only the five escapes are decoded, once each, left to right** — Prove `unescape` equals a five-line structural recursion.
- **C10 Layout of a string over continuation lines does not matter** — `parseMsg` on a keyword item followed by any continuation items = concatenation.
- **C11 Blank lines are insignificant** — Simulation between item lists that differ in line numbers only; the numbers correspond by the relation "the same non-blank line" (`SamePlace`).
- **C12 Indentation and trailing spaces do not matter on message lines** — Corollary of the line specification (padding lemma); for inputs, the items of both are equal, hence all observations.
- **C13 Catalogue round-trip** — Printer in the specification (separate file); prove read(print c) = c through line, unit, catalogue and byte layers.
- **C14 Every unit comes from one contiguous block of lines** — Declarative entry grammar (inductive/equational) over item lists; prove soundness and completeness of the reader against it; cut the physical lines by the numbers of the items.
- **C15 State of a unit** — Invariant of `readUnit`.
- **C16 Comment data is collected completely, in order, by kind** — `parseComments` = filter/map over the comment block.
- **C17 Obsolete and active lines are never mixed** — Follows from the entry grammar.
- **C18 No unit with an empty source** — Invariant of `readUnit` + witness.
- **C19 An untranslated simple message has no text** — Invariant.
- **C20 Header detection** — Case analysis of `PoReader::new` model.
- **C21 Header properties** — Header text fold = declarative lookup.
- **C22 Target language falls back to the invariant language** — Language library is a parameter (any functions); prove the fallback equation.
- **C23 A bad Plural-Forms header is an error of parse()** — Characterise `PoReader::new` success.
- **C24 Header data is immutable and shared** — Invariant over any number of `next` calls.
- **C25 Value lists** — Lazy-regex model; prove `parseMap` on printed pair lists; rejection lemma.
- **C26 nplurals numerals** — Model of `usize::from_str`; iff theorem.
- **C27 Plural formulas: the accepted language is the grammar's and is unambiguous** — Grammar transcribed as an inductive derivation relation; executable parser; soundness, completeness, unambiguity.
- **C28 Plural formulas: printing and re-reading** — Printer + completeness.
- **C29 Plural formulas: white space and word synonyms do not matter** — Lexer model; padding invariance; synonym lemma.
- **C30 Plural formulas evaluate as ordinary integer arithmetic** — Reference evaluator on Int with definedness; induct on trees.
- **C31 Plural selection never panics** — Evaluator with explicit panic outcome and an overflow-check mode; iff + witness.
- **C32 Plural index is in range** — Direct.
- **C33 Plural text selection** — Extractor model + Plural.get; partial with gap witness.
- **C34 Without Plural-Forms no plural text can be selected** — Invariant.
- **C35 Counts of 2^63 and above** — Int64 conversion lemmas.
- **C36 Agreement with C precedence** — C expression grammar as a second derivation relation; safe sub-grammar included in both; witnesses of disagreement.
- **C37 Message equality is an equivalence** — Direct.
- **C38 Line numbers in errors** — Line numbers of items are positions; invariant on errors; witness.
- **C39 When reading ends without error** — Characterise `Ok(None)` outcomes of `readUnit`.
- **C40 Units before an error** — Stability of `readUnit` under extension of the item list.
- **C41 Concatenation of catalogues** — Locality of `readUnit`: it looks at most one item beyond its block.
- **C42 Display of errors** — Model of the formatting functions.
- **C43 Chunking of the byte stream does not matter** — Model of BufReader chunk delivery (data/interrupted/fail events); prove equality with the flat stream.
- **C44 Number of msgstr[i] lines of a plural entry** — Extractor loop invariant.
- **C45 Previous message fields** — Entry grammar.
- **C46 Reading, writing and reading again** — Show that everything `Reads` yields satisfies `Writable`, then C13; with C13 the image of the reader is exactly `WritableCat`.
- **C47 Reading is exactly what the catalogue grammar says** — `parse_spec` with uniqueness of the specification, over the line grammar as a relation.
- **C48 Accessors** — Case analysis, and the fields of a block read off directly.
- **C49 Known plural rules** — Each definition is parsed to its tree by reduction; the tree's value for a symbolic count is compared with the arithmetic rule.
- **C50 Cut-off input** — The complete lines of the two inputs agree; at most one item of the cut input differs; an entry followed by two further items is unaffected; induction over the run.

- **C51 Streams that resume after the end of input** — The buffered stream gets further event lists; the line source becomes a list of polls; a simulation between polls with an end report at a harmless place and the plain items.
- **C52 Comments influence only comment data**, **C53 Marking everything obsolete** — One lemma about reading two item lists side by side, with the relations on items, units and errors as parameters (`Change` in `Lemmas/Change`); two instances.
- **C54 Units depend on the header only through Plural-Forms** — Uniqueness of `Reads` and `Run`, renumbering of lines.
- **C55 Byte order mark** — UTF-8 encoding of a character that begins with these bytes; the line grammar; an unreadable first item.
- **C56 Classes of comment lines** — A further instance of `Change` in which an item is a run of comments; what `collect` makes of a run depends only on the four projections.
- **C57 Invariants** — Read off `Reads`: each unit comes from a block of items of the input, each comment item from a line.
- **C58 Laziness** — A further relation between line source and list of items, which also says that the events after the beginning are untouched while enough items are left; the rest is the simulation that is used for all properties.
- **C59 Work** — The model is generic in the line source, so the same functions run on a source that counts its calls. Upper bound: a potential, calls made plus a constant for every item left, grows by at most a constant in each function. Lower bound: every look-up of a `msgstr[i]` peeks at least once.
- **C60 Choosing formulas** — Induction over the shape: the value lies in 0..k-1; then C32.
- **C61 Example program** — The loop as an inductive relation of runs (`Prints`), so that termination is something to be proved; from `Yields` by the calls of `next()`.
- **C62 Equality of formulas** — Induction over the tree.
- **C63 Moving, removing and repeating entries** — Entries do not depend on line numbers; an entry begins freshly, so each one ends where the next begins, whatever it is; put the runs together again.
- **C64 Quoted texts are opaque** — A relation between items that differ in texts (with the last keyword as state), preserved by every step of the entry reader; then the two readings side by side as for C52.
- **C65 Delivered data are no larger than the input** — The room of texts is additive; bound the texts of a field, an entry, a run by the room of their lines (each keyword line has more bytes than its text), the properties by the header text, the lines by the bytes.
- **C66 Size of formulas, work and depth of their evaluation** — A copy of `execute` with counters, proved to give the same results; induction on the formula, on derivations (nodes ≤ tokens) and on tokens (tokens ≤ characters); the long sums by induction.
- **C67 Catalogues are put together from parts** — Lines that end with a translation and are read without error leave no items; entries begin freshly, so runs can be put one after the other; renumbering.
- **C68 Width of usize** — The plural code with `w` bits as a second model that is the first for w = 64; the rest from the theorems about 64 bits and the conversions.
- **C69 Cause of an error** — At each way of stopping, the items before the culprit make a run of their own and the items after it can be replaced; then the culprit is located in the lines.
- **C70 Composition of formulas** — Induction on derivations: tokens in parentheses are a term, so they can stand for `n`; induction on trees for the values. Every division into tokens is a way of writing them.
- **C71 Characters** — The tables against lists of code points; the line grammar for one line; the keywords of entries in runs that end without error.
- **C72 UTF-8** — The encoder against the table; an ASCII byte in an encoded text is a character of its own, so encoded texts can be cut there.
- **C73 Repetition** — Induction on the formula with the meaning over the integers; remainders by a multiple.
- **C74 Other plural forms** — Entries and runs do not use the forms except for the bound of the indices; the end of a block is seen from the next line (`entryEnd_fresh`).
- **C75 Numbers** — The keywords of an entry in order; counts are additive over the entries and the items of a line are those of the line grammar.
- **C76 Table** — The automaton is checked state by state (a finite check by the kernel of its closure properties); completeness by induction on derivations, soundness by an invariant on the stack, the reports by viable prefixes and by runs that depend only on the tokens read.
- **C77 Grammar file** — The text is in the model verbatim and is read by evaluation in the kernel; each alternative with its code is compared with a production, derivations are translated in both directions.
- **C78 Message** — The automaton of C76 is run over tokens with places; which terminals a state has entries for is computed for all states in the kernel and related to what a formula can begin with; the verdicts of C76 then give the kind of message.
- **C79 Pattern texts** — A relation between pattern texts and their meaning, for which the reader of pattern texts is complete (so meanings are unique); derivations for the five texts; the engine finds the leftmost-first matches (`find_iff`, `iter_all`) and every match has the groups that the code unwraps.
- **C80 Message extraction with any decoder** — The extractor as a tree of questions (free monad); the ways through the tree are the dialogs of the specification; running the tree with a decoder follows the way that its answers choose.  With the decoder of the lines it is the function of the model.
- **C81 Debug texts are faithful** — Each text is a code that can be told from what follows it, if that begins with a separator or closing mark; fields put together stay such codes.
- **C82 Hash order has no effect** — Iteration order as a parameter of the model; simulation of the readers up to the order of the properties.
- **C83 The width of the line counter** — Line source with a counter of `w` bits and a flag for the overflow; simulation up to the numbers; the bytes left bound the number.
- **C84 Quoted texts and string literals of C** — Independent grammar of C literals with their bytes; `unesc` on literals by induction, strictly longer at a foreign escape.
- **C85 Signed evaluation and the unsigned evaluation of gettext** — Independent evaluator over numbers modulo 2^64 with undefined division by zero; induction on the formula relating it to `meaning` modulo 2^64, where the sign does not matter. `C85_gettext` joins it with the grammars (C36) and the reading of catalogues.
- **C86 Arrangement of keywords and strings on lines** — Words and their distribution on lines as a separate small grammar; lines that end in a keyword are not recognised; otherwise the first keyword in a line decides; lengths of the texts show that two strings on a line never give the right text.
- **C87 Streams that never end** — Beginnings of the stream; an entry has a bounded number of keyword lines, so with enough of them an entry ends or an error is decided, whatever follows (the grammar of runs); C58 for what is read; choice and determinism of the calls for the sequence of units; counting of keyword lines for the quiet case.
- **C88 Least number of lines** — Count the lines of each part of an entry in the grammar of entries, sum over runs; the text of C13 without blank lines for the other direction, with a lone plural id as the header if there are only notes and comments.
- **C89 Inputs of a single line; only line feeds end lines** — The classification of lines and the grammar of catalogues on one item; C88 for inputs without line feeds.
- **C90 The quoted texts and the data of the units are the same sequence** — The texts of lines as a relation; texts of fields, entries and runs by the grammar; decoding by the runs of translation places.
- **C91 The comment lines and the comment data of the units are the same sequence** — Comment lines as a relation; the entry grammar has comments only in front; sums over runs.
- **C92 An input is read without error exactly if every line may follow the line before it** — A step relation on places; runs pass it; back by induction over the check with the entry read so far.
- **C93 The first line that fails the check of adjacent lines determines the error** — The last entry of lines that pass the check; a line that fails does not continue it; the ways to stop.
- **C94 Clearing the previous texts** — Removing the barred lines from an entry leaves an entry; the blocks of a run one by one; line numbers do not matter in the absence of errors.
- **C95 Removing and inserting comment lines** — Fields have no comment lines inside, so an entry without some of its comments is an entry; insertion by the check of C92.
- **C96 Changing, adding and removing translations** — Reading two inputs side by side, as for C64; the state from the state rule of entries.
- **C97 Only the active, or only the obsolete entries** — Induction on the run with the comments that wait for the next entry; kept entries keep their fields, removed ones leave their comment lines.
- **C98 Obsolete markers decide only which units are obsolete** — The second input satisfies the check of adjacent lines (C92); with it, each entry of the first is an entry of the second, of the kind of its `msgid` field, going backwards through the fields.
- **C99 What parse() returns depends on the header and the line after it only** — The first entry is the header by the grammar of first entries (C47); header data and plural forms are functions of it.
- **C100 A change of some lines changes only the units next to them** — The check of adjacent lines (C92): after the first line of the common end that is not a continuation, both checks are at the same kind of place and the entries end at the same lines. If the changed input fails, it fails in the changed lines or in the continuation lines after them, else the check would have met the same kind of place again; the entries complete before are those of the common beginning.
- **C101 The keyword that an error names would have been accepted** — The check of adjacent lines (C92) at each kind of place; the error of the first line that fails (C93).
- **C102 Changes that are harmless each are harmless together** — The check of adjacent lines (C92): after a line that is no continuation the place does not depend on what comes before, so the second part passes from there in both; the units as in C100.
- **C103 How reading goes on depends on the last line that is no continuation** — The place after such a line (C92) is determined by the line; with numbers chosen so that the rest has the same numbers in both inputs, the first failing line (C93) is the same.

## Trusted base

- The Lean 4.33.0 kernel.  No Mathlib module is imported.
- Axioms: every theorem in the manifest depends on a subset of `propext`, `Classical.choice`, `Quot.sound` (`#print axioms`).
  All three axioms: all theorems of the manifest except the following.
  `propext, Quot.sound` only: `C25_accepted`, `C26_numeral`, `C42_source`, `C48_plural`, `C48_blank`, `C60_rules`, `C60_large`, `C66_same`, `C66_work`, `C68_model`, `C73_rules`, `C79_patterns`, `C85_refuted`.
  `propext` only: `C43_flatten`, `C48_kind`, `C48_simple`, `C61_convert`, `C62_iff`, `C62_value`, `C78_expected`, `C81_plain`, `C97_determined`.
  No axiom is added, there is no `sorry`, `native_decide` or `bv_decide`.
- The reading of the Rust source into the definitions of `Verif/Model`; each cites file and lines.
- Code outside the crate, modelled from its documentation:
  - `regex`: leftmost-first semantics; `.` does not match `\n`; `\s`, `\S`, `\d` are Unicode classes; `^`/`$` without multi-line
    mode are the ends of the text.  That the compiled patterns are what the pattern strings mean is C79, by the syntax of patterns in `Spec/Pattern`.
    What leftmost-first means is stated without a search in `Spec/Regex` (derivation trees and an order of preference between them), and
    `Lemmas/RegexMeaning` shows that the engine finds exactly that (`find_iff`, `find_none`, `iter_all`), for all patterns without a
    starred part that matches the empty text, and that the patterns of the crate are of this kind (`patterns_proper`); so what is trusted is that
    these two files describe the `regex` crate.
  - `lalrpop`: the generated lexer takes the longest match, fixed tokens before the digit pattern; the generated parser accepts exactly the
    grammar file.  That the grammar is unambiguous is proved (C27); that the grammar in the model is the one in the file, C77 (trusted there: the
    meaning of grammar files in `Spec/Grammar` and the constructors of `node.rs`).  The second part can be replaced by less: `Model/Table` is the LR
    automaton of the productions with lalrpop's loop, and C76 proves that it accepts exactly the grammar; then what is trusted is that the
    generated tables are those of this automaton (LALR(1) lookahead sets; states with one completed item and nothing else reduce on any
    token) and that the loop is lalrpop's.  The text of its error messages is a parameter
    (`Env.formulaMsg`) everywhere but in C78, which says what it is; trusted there are the wording of lalrpop-util 0.20, the order of the names of terminals
    (literals by their text, then the digit pattern; the crate's test has one message with four of them), that positions are byte offsets, and that
    expected tokens are found in one of two ways (entries in the row of the state on top, or a simulated run for each terminal: the parameter `precise`;
    which one the generator emits depends on its version).
  - `std`: `BufRead::lines` (`\n`, then one `\r` removed), `BufReader`, retry on `Interrupted`, `str` methods, `from_utf8`,
    `usize::from_str` with its messages, the format of derived `Debug` (its table of characters shown by themselves is a parameter), `i64` operations, `Peekable`, `HashMap`/`HashSet` (association list with unique keys, list
    without duplicates; no property depends on their order).
  - `locale_config`: the three functions used are parameters; theorems hold for all of them.
  - UTF-8 decoding is Lean core's `ByteArray.utf8Decode?`; the specification states instead that the bytes are the encoding of a
    text, and C72 compares the encoding with the table of the Unicode standard.
- The Unicode tables `isWhite` and `isNd` are data in the model and are used by the specification as well; C71 compares them with lists of
  code points that are separate from them.  `isNd` is the table of Unicode 15.0; newer versions of `regex` have more digits, which can only
  change errors (C71).

## Modelled with simplifications

- `usize` is 64 bits wide; what changes in the plural code with fewer bits is C68.  In all claims but C83 the line counter is unbounded; with `w` bits it is C83.
- A stream is a finite list of events, and a data event is not empty.  `parse` takes a stream that keeps reporting the end of input;
  `parseResuming` takes one that goes on finitely often after such a report (C51).  Endless streams are covered by their beginnings (C87).
- `std::io::Error` is either "not UTF-8" or a numbered error of the stream.  Its texts are a parameter of Display and Debug.
- `Rc` is sharing only.  Memory and stack use are not modelled: `Node::execute` and the generated parser recurse or grow with the
  formula; `for i in 0..count` runs `nplurals` times for each plural entry (a huge `nplurals` makes reading slow, not wrong).
- `isWhite` is used for both `char::is_whitespace` and `\s`, which are both Unicode White_Space.

## Not modelled

- Derived `Clone` and `Hash` of the data types; derived equality of `Note`, `Comment`, `Origin`, `State` is taken as equality.
- `build.rs`.

## What was found about the code

Proved with witnesses where a property is given.

- `# msgid "x"` is a live keyword line and `# "x"` a continuation line (C07).
- A Parse error for an unrecognised line carries the number of the line plus one, I/O errors the number of the line (C38); errors
  in the value list of `Plural-Forms` carry line 0.
- The "got" part of a Parse error at a keyword line is its marker, not the keyword.
- A last entry cut off before its first `msgstr` is dropped silently (C39).
- An unrecognised line directly after a complete entry loses that entry (C40), and may make `parse()` fail if it is the first.
- A first entry without `msgid` counts as header; a stray leading `msgid_plural` is consumed silently (C20).
- A plural entry may have an empty singular id (C18).
- A gap in the `msgstr[i]` indices shifts the texts (C33).  Without `Plural-Forms`, `get_plural_text` is always `None` (C34).
- `Plural-Forms` without final `;` is rejected; `a=1; foo bar=2;` is read as a=1, bar=2; keys may contain `;` and start with `=`
  (C25); two empty `Plural-Forms` lines join to a blank but non-empty value, which is then parsed (C23).
- Repeated header keys are joined with a space, so values may begin or end with a space (C21).
- With overflow checks, `-((0-1)/0)` panics (C31).  A count from 2^63 on is taken as negative (C35).
- `!` binds looser than `+` and `*`; `==` and `<` are on one level; `!!n` and `--n` are rejected (C36).
- Message equality ignores plural texts and identifies no text with an empty text (C37).
- An empty `#,` line gives an empty flag; `#~ msgstr[01] "x"` and `#~ |msgid "x"` are comments of kind `~`; a byte order mark makes
  the first line unrecognised; a line ending in `\r\r\n` keeps one `\r`.
- The `Err` branch of `read_line` is unreachable.
- A stream that reports the end of input and then goes on (a terminal, a growing file) is read on if the report comes after a
  keyword or continuation line, but reading stops if it comes after a comment line; a continuation line after it is refused (C51).
- The loop over the plural texts runs `nplurals` times for every plural entry, whatever texts there are; `nplurals=18446744073709551615`
  in a file of seven lines makes the reader practically never finish (C59).
- Nothing limits the recursion of the evaluation but the text of the formula: a sum of k+1 variables needs k+1 nested calls (C66), so
  a long formula can exhaust the stack (which the model does not have); so can the release of its tree, which recurses as deep.
- On a platform with 32 bits the value of a formula is cut to 32 bits before it is compared with the number of forms, so a formula may
  select another text than on a platform with 64 bits (C68).
- Of the escapes of C only five are decoded; `\a`, `\101` and `\x41` stay as they are, and `"a" "b"` on one line is one text with quotes in it (C84).
- Formulas are evaluated over signed numbers: `n-2<0` selects form 1 at 0 and 1, where gettext, with unsigned numbers, selects form 0 (C85).
- An entry written on one line, `msgid "a" msgstr "b"`, is lost without an error; `msgid` alone on a line is an error (C86).
- A file whose lines end in carriage returns alone is one line; usually all its entries are lost without an error (C89).
- An index with digits of another script, as in `msgstr[1٣]`, is recognised but never used: it always ends reading with an error (C71).

## Tests of the model

`Verif/Tests/Crate.lean` has the crate's own tests (of `unescape`, `parser`, `line_iter`, `decoder`, `formula`, `forms`, `plural`,
`message`, `error`, `reader` and the integration test) as examples on the model, with the values that the Rust tests expect.  They
check the transcription; they are not counted as proofs of anything.  `Verif/Tests/Extractor.lean` has the tests of `message_extractor`
with the mock decoder of the crate's tests.

## Tests of the theorems

Beside each theorem, or in `Verif/Tests/Instances.lean`, is an example in which its hypotheses are met by concrete data.

`seeded/LOG.jsonl` has one line for each wrong program tried: a definition of the model was changed in a copy, and every proof
that failed was recorded (`failed` lists the theorems whose own proof failed, `claims` the theorems of the manifest that depend on
one of those).  Changes that no theorem noticed led to new or stronger theorems (`tightened`).
