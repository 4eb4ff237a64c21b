# DESIGN

Formal model of cth103/libsub (C++, /repo) in Lean 4, with machine-checked proofs of the properties in properties.jsonl.

## Plan per property

| id | title | how modelled / proved |
|---|---|---|
| C01 | Time of day decomposes and recomposes | Model/Time: Int seconds with explicit 32-bit overflow outcome; omega. |
| C02 | Time comparison is a strict total preorder | Model/Time lt/gt/eq as functions into Except; key = (seconds, frames*num/den); prove order laws. |
| C03 | Time comparison agrees with the instants denoted | Spec instant : Rat; theorem for equal rates (_partial), negation by concrete witness. |
| C04 | Unknown frame rates are reported, not guessed | Case analysis on the two optional rates. |
| C05 | from_frames conserves the frame count | Truncating division lemmas (Int.tdiv/tmod). |
| C06 | Frame count at a time's own rate is exact | Model/Float: IEEE binary64 round-to-nearest-even on Rat; exactness of representable values. |
| C07 | Frames survive a trip through milliseconds | Float error bound + half-unit argument. |
| C08 | Rate conversion error is at most half a frame | Float error bound; concrete witness for the carry. |
| C09 | Adding times | Float error bounds; concrete witness for loss; bounds theorem. |
| C10 | Scaling times | Float error bounds; witness for carry. |
| C11 | Printed time format | Decimal printing is injective. |
| C12 | collect loses, invents and restyles nothing | Model/Collect; induction over the sorted list; flattening spec. |
| C13 | collect output is ordered by start time | Stable sort (List.mergeSort) specification lemmas. |
| C14 | collect groups maximally and never makes empty containers | Loop invariant. |
| C15 | collect does not depend on input order of distinct start times | Uniqueness of strictly sorted permutations. |
| C16 | collect refuses incomparable times | Any pair of incomparable elements reaches a comparison; case analysis. |
| C17 | Vertical position equality | Case analysis on optional fields. |
| C18 | Vertical position order is top-to-bottom | fraction as Rat with float rounding; comparison inherits order from Rat. |
| C19 | Horizontal position equality is a tolerance | Rat inequality; witness. |
| C20 | Lines merged by collect keep each part's horizontal position | Witness of the violation; partial theorem for uniform horizontal positions. |
| C21 | SubRip/WebVTT timestamps parse to the value written | Model/Text (split, lexical_cast); printer/parser round trip. |
| C22 | Malformed timestamps are rejected with a diagnosis | Characterise success of the model as a spec predicate. |
| C23 | SubRip files round-trip | Printer for cue lists; induction over cues and lines through the state machine. |
| C24 | SubRip inline style tags style exactly the text they enclose | Token-level printer/parser round trip. |
| C25 | SubRip font colours nest | Stack invariant; UB iff prefix underflow. |
| C26 | SubRip style scope | Invariant of the line loop; frame property at COUNTER. |
| C27 | SubRip and SSA never emit empty text | Invariant over the loops of the three readers. |
| C28 | SubRip errors point at the offending line | Invariant relating line counter, context and consumed lines. |
| C29 | Line endings and byte order marks do not matter | Trimming lemmas lifted through the line splitter. |
| C30 | Reading from FILE* and from string agree | fgets model; equality of trimmed line sequences; witness at 255 bytes; exact: the text a FILE* reader sees, as a function of the file. |
| C31 | Unicode line separators act as line breaks | split on the three-byte separator; induction. |
| C32 | SubRip strips right-to-left embedding marks | replace_all leaves no occurrence (single pass lemma) ; witness. |
| C33 | SubRip plain text is passed through verbatim | Special case of the tag machine. |
| C34 | Embedded SSA override tags affect only following text (SubRip) | Witness + partial. |
| C35 | WebVTT files need their header | Case analysis on first line. |
| C36 | WebVTT files round-trip | Printer for notes/cues; induction. |
| C37 | STL text lines round-trip | Printer/parser round trip on a line. |
| C38 | STL text: spacing around the first comma is insignificant | Witness + the partial is C37. |
| C39 | STL text: line numbers count the | separators | Witnesses + partial. |
| C40 | STL text: ^B ^I ^U toggle, $ variables set | Refinement to last-set/parity spec. |
| C41 | STL text: every line of the file is read | Witness + partial. |
| C42 | SSA timestamps | split + scanf %d model. |
| C43 | SSA dialogue text may contain commas | Join/split lemma. |
| C44 | SSA text is preserved | Projection spec of the three-state scanner. |
| C45 | SSA alignment tags form the numeric-keypad grid | Case analysis over 9 tags; exact float expression. |
| C46 | SSA lines are stacked one line height apart | Loop invariant of parse_line with exact float model / rational spec. |
| C47 | SSA style lookup | Association list lookup spec (last definition wins). |
| C48 | SSA colours | strtoll/hex model, byte extraction. |
| C49 | Unknown SSA override tags are ignored | Witnesses + partial for tags outside the implemented prefixes. |
| C50 | ISO 6937 round-trips every character it can represent | Finite table facts by kernel evaluation, lifted to strings by induction. |
| C51 | Encoded text can never contain STL control codes | Table invariant by kernel evaluation, lifted by induction. |
| C52 | Unrepresentable characters degrade predictably | List homomorphism. |
| C53 | ISO 6937 decoding is total | UB iff characterisation. |
| C54 | ISO 6937 conversions do not depend on earlier calls | Stateful model of the global tables, refinement to the stateless one. |
| C55 | Binary STL files have the specified layout | Model/StlWriter with a byte buffer; memcpy as list splice. |
| C56 | Binary STL metadata round-trips | Composition of writer and reader models. |
| C57 | Binary STL subtitles round-trip | Composition of writer and reader models. |
| C58 | Long subtitles are split over blocks without loss | Induction on chunks. |
| C59 | Style codes in a written subtitle are balanced | Automaton over the emitted text. |
| C60 | Distinct lines stay distinct in binary STL | Witness + partial. |
| C61 | Writing never has undefined behaviour | UB outcomes reachable: witnesses; partial: sufficient conditions for definedness. |
| C62 | Written timecodes are valid | Witness + partial (own rate). |
| C63 | Damaged binary STL files are rejected | Model/StlReader; length argument. |
| C64 | Comment blocks are invisible | Induction on blocks. |
| C65 | Line numbers stay on screen | max invariant. |
| C66 | Binary STL text decoding | Per-line scanner spec. |
| C67 | Disk format codes | Float comparisons on Rat. |
| C68 | Code tables are mutually inverse | Finite tables by kernel evaluation + generic unknown-code lemma. |
| C69 | Numeric conversion is locale independent | Locale as a parameter (decimal point / thousands separator). |
| C70 | Line splitting loses nothing | Induction. |
| C71 | Message composition substitutes positionally, once | Model/Compose. |
| C72 | Hex colours | sscanf %2x model; all byte pairs. |
| C73 | Reader choice by file name and content | Model/Factory, decision logic. |
| C74 | Dump output is balanced | Token model of dump. |
| C75 | Font sizes convert consistently | Case analysis. |
| C76 | Keyword conversions | Decision logic. |
| C77 | White-space test | Induction. |
| C78 | ISO 6937 accents are the Unicode ones | Comparison of the tables with an independent table of combining marks and decompositions, kernel evaluation of all bytes. |
| C79 | SSA event columns | Event columns read by name; permutation of the Format line. |
| C80 | Rows survive re-writing an STL file | Finite check over the rows (all 24), witness with whole files. |
| C81 | collect rebuilds grouped subtitles | Loop lemmas for blocks, lines, subtitles; insertion sort of whole groups. |
| C82 | From SubRip file to subtitles | C23 composed with C81. |
| C83 | From WebVTT file to subtitles | C36 composed with C81. |
| C84 | What a reader returns can be collected | Invariants of each reader (rate of every time, no fades) with C16_errors; false of SubRip, WebVTT (huge milliseconds) and SSA (text before Start): witnesses. |
| C85 | Binary STL can be written again | C66 gives positions and times of everything read; C61_defined_partial applies; division by zero for zero rows. |
| C86 | Readers fail only in known ways | sets of errors closed under bind; invariants that the optionals used are set, over the loops of the four text readers; every member of each set has a witness |
| C87 | Lines of an SSA file act independently | adding subtitles before commutes with reading a line; dialogues leave the rest of the state alone; permutation of a flattened list |
| C88 | What override tags do to SSA text | printer for pieces of text and tags, ideal positions as rationals; invariant: rounding error grows by a constant for each line break |
| C89 | Where \pos puts text | exact formula with all roundings, then a bound for the distance from the ideal position; the margin is added, as in the tests of the project |
| C90 | Metadata of a binary STL file | table of fields (name, offset, length, kind) beside the map; sorting depends on the names alone; false for the language group of UTF-8 files |
| C91 | SSA files end to end | printer for documents; style lines, event columns, then C88 for each dialogue and C87 for the file; text and file with either line end |
| C92 | From SSA file to subtitles | C88_lines: exactly one float position per line; rounding error below half a line height; then C81 |
| C93 | Binary STL: written, read and collected | C66 strengthened: pieces in order of rows, only on rows with ink; pieces of one block are the pieces of one subtitle; lines are what is on a row; then C81 |
| C94 | Character count in the binary STL header | maximum of a list of counts; bytes and characters agree for ASCII; counterexample by evaluation |
| C95 | From STL text file to subtitles | C37 for what is read, C81 for collect; runs with equal number are consecutive; invariant: no | pending at the end of a subtitle |
| C96 | A bad SubRip time line is reported, a good one accepted | composition lemma: reading A ++ B is reading B from the place reached after A; words as a specification of split with compression; C21/C22 for the time stamps |
| C97 | The code table is that of ISO 6937 | code table of the standard written down independently (from GNU libc, not from the code); kernel check that the tables agree entry by entry; induction over the text with C53 and C54 |
| C98 | Which WebVTT time lines are accepted | as C96, with the places header, data, cue and note; grammar of the standard's time line as a specification, its words, and C98_accepted_iff |
| C99 | A file cut short gives the first of its subtitles | line lists of a text cut at a line end; each reader as a fold over lines whose list of subtitles only grows |
| C100 | Files put together | the place after a blank line is the first one; the subtitle under construction is then irrelevant (SubRip: replaced; WebVTT: simulation up to text, times and line); C99's line lemmas |
| C101 | SSA style definitions: each property comes from the column of its name | one lemma: a projection that only one key sets is determined by the last column of that key; readable columns never fail; the description has one style at most; permutations keep last columns when names differ |
| C102 | Colours that readers report have components within 0 to 1 | invariants over the reader loops; colour tags of SubRip by cases; for SSA the colour default is traced to format lines without PrimaryColour |
| C103 | When subtitles compare equal | field by field; times at one positive rate compare equal only if identical; tolerance of C19 |
| C104 | Everything reported has a place | invariants over the reader loops; lines of collected subtitles come from raw subtitles |
| C105 | A dump can be read back | a reader for dump lines as specification; unique decomposition of the text by separators |
| C106 | Proportions in a dump | model of %g with six digits; value of the written text against all six-digit numbers |
| C107 | The program dumpsubs | getopt as recursion over arguments against an inductive definition of operands; composition of C73, C30, C82, C11, C105 |
| C108 | Writing again what was read from an STL file gives the same file | rows as lists of codes and characters; the pieces the reader cuts (strengthened C66), written again, give the row; composition with C81, C80 |
| C109 | Error messages tell where a file is wrong | the message is the composition of its pieces for all texts (C71); combined with C28, C86, C98_rejected_iff; unique decomposition of messages |
| C110 | The STL text reader says which lines it passes over | `Reports`: what is said of a line, by its form; per line the model prints just that and leaves the state if it is anything; induction over lines; C84_stltext, C73, C107 for dumpsubs |
| C111 | Text conversion in several threads | calls as steps that record accesses to the global maps; invariant: tables differ from fresh ones in entries of zero only; per step what is still to be looked up; induction over runs; the accesses of a call depend only on which tables are made, so runs whose accesses are ordered or do not conflict can be exchanged into serial ones |
| C112 | From SSA file to binary STL file | compose C92 and C57; the rows from the placement of C88 with a bound on rounding; bytes of a block; nearest frames from C08 |
| C113 | Files a process has handled before do not matter | reader and writer as programs that call the conversions (a free monad); run on tables that are left by conversions, such a program gives the same as with fresh tables (C54) and leaves tables of the same kind; interpreted purely it is the reader or writer of C57, C63 |
| C114 | Binary STL files in several threads | the reader and writer of C113 in threads that step through the conversions of C111; forward simulation of a run by a run of the calls that each would make alone; what the reader decodes is what it shows |
| C115 | What a WebVTT file means, exactly | inductive grammar over cleaned lines with its own time stamps and parts; soundness by induction on lines in the three states, completeness by induction on the grammar |
| C116 | What a SubRip file means, exactly | grammars for font tag arguments, for what a line consists of, for what the tags do, for cues and for files; each equivalent to the reader, by induction on lines and on derivations |
| C117 | What a line of SSA dialogue, an override tag and a number mean, exactly | declarative relations for numbers, tags, what a line consists of, its pieces and their places; each equivalent to the reader, the loop by induction on how the line is written |
| C118 | What an SSA file means, exactly | "the newest entry that says something" as a relation on the entries so far; the state of the reader is shown to be what is in force (an invariant); columns, styles, times and colours as relations; both directions by induction on lines and on derivations |
| C119 | What an STL text file means, exactly | what lines say as relations between lines and events; what is in force is defined on the events so far; both directions by induction on derivations (text) and lines (file) |
| C120 | What a binary STL file means, exactly | what codes, rows, blocks and the header say as inductive relations on pieces of the file; block meanings equal to the cut rows of C66, header fields to slices; soundness from C63/C66, completeness from acceptance and uniqueness |
| C121 | What collect returns, exactly | cons-style relations for runs; invariant of the loop from inside a line gives soundness; stable sorts are unique and runs are unique, so completeness follows from success (C16) |
| C122 | What dumpsubs writes, exactly | relations for the printed form, each shown equal to the printer by induction; composition of C116, C119, C120, C110 and C121 |
| C123 | What write_stl_binary writes, exactly | a grammar of UTF-8 with its malformed parts, relations for character codes, rows, times, text and pieces; each shown equal to the function by induction or by the finite tables; composition with C55 |
| C124 | Every binary STL file that is written can be read again | from the relation of C123: no byte C9 or CC is ever written, and byte 15 is 0; the count field; then the exact condition for reading (C63), C84 and C85 |
| C125 | What time arithmetic gives, exactly | rounding as the nearest number of the format, ties to an even significand, shown to determine the result uniquely; relations for each function over that |
| C126 | The limits of float and double never matter | Copy every function that calculates with floats, using IEEE rounding with a finite result; show by grids and bounds that each step agrees, and carry the agreement through the readers with an invariant on positions. |
| C127 | Readers invent no text | List.Sublist between the concatenated texts and the file, as an invariant of every loop; pieces of ISO 6937 text for binary STL; infixes for the fonts. |
| C128 | Shifting and scaling keep the order of times | Monotonicity of every rounding step; lexicographic order of quotient and remainder; C09_add_milliseconds for the distance. |
| C129 | Subtitles can be moved in time before or after collecting | Simulation: sort, loop and finish commute with a map on times that keeps comparisons; C128_distance for add. |
| C130 | Times are those written in the file, and ordinary files can be collected | Induction over the exact grammars of C115, C116 and C118; bound on the value of a run of digits; C84. |
| C131 | Memory and files are given back | Trace of allocations, output and frees run on a small heap that is undefined on misuse; invariant over the subtitles. Process with a count of open files; induction over calls. |
| C132 | A plain SubRip file and the WebVTT file made of it mean the same | Induction over the grammar of SubRip files (C116), giving a derivation in the grammar of WebVTT files (C115). |
| C133 | How reading a SubRip or WebVTT file fails, exactly | Equivalences between the error results of the reader models and inductive descriptions of failing lines and tags. |
| C134 | How reading an STL text or SSA file fails, exactly | Equivalences between the error results of the reader models and inductive descriptions of failing lines, columns and tags; an invariant that the place of a subtitle is known for the operations that cannot fail. |
| C135 | How reading a binary STL file fails, exactly | The reader model's error results are shown equivalent to an inductive description of failing files: first unknown header code, or first failing announced block, by induction over the blocks. |
| C136 | How writing a binary STL file fails, exactly | The error results of the writer model are shown equivalent to an inductive description of failing rows, times, subtitles and argument lists, using the exact description of what is written (C123). |
| C137 | SSA files with infinities, NaN and numbers of any size | The SSA reader is modelled once more over IEEE 754 numbers (without the sign of zero), two infinities and NaN. Agreement with the Ieee model is shown function by function (or that one stops at an infinity or at a text such as `inf`) and with the first model by C126; independence of the size is a relation between two runs kept by every step. Texts for `%f` have a grammar of their own. |
| C138 | SubRip files with infinities and numbers of any size | The SubRip reader is modelled once more over the numbers of C137. Agreement with the first model function by function, via C126; totality by a walk over the outcomes. |
| C139 | Collecting subtitles at places that are no numbers | Sorting and collecting are modelled once more over the numbers of C137. Invariant of the loop: every line has a place from the list, and one block if that place is NaN; the blocks so far are the subtitles so far. |
| C140 | Reading and writing do not depend on the locale | The readers are modelled once more with the locale as a parameter. Whole numbers never depend on it (C69); a fractional number does not if the string lacks the decimal point. The strings given to the conversion are pieces of lines, found by tokenising or by the state machine of the parser, whose buffer is a piece of the line. |
| C141 | The order of the subtitles in a file does not matter | Insertions of subtitles with different start times commute, so the stable sort of the parts does not depend on their order (parts may have several subtitles with the same time). The readers: parts are read on their own (C100, C87, C120). |
| C142 | Cutting a programme in two | From the exact description of collect (C121): the stable sort of the chosen is what is chosen of the stable sort, and runs of equal times are kept or left out as wholes; the neighbours of a run that is left out start at different times. Files: C100. |
| C143 | What is in the file after write_stl_binary | The stream as a state machine (bytes on the device, room, good); by induction over the writes the device has the first bytes of what was written. Cut-off files: from the exact causes of failure (C135) and success (C63) of the reader, and readability of what is written (C124). |
| C144 | The ISO 6937 tables are what their script makes of the Unicode data | find_unicode exactly (first row with the name, all rows before it being rows of characters); the output depends on the data only through what is found; with the codes of the tables the lines are compared with the text of the files by the kernel. |
| C145 | The regular expressions of the SubRip and WebVTT readers | Parse the text of the expressions, search with a backtracking matcher; sound and complete for an inductive description of the strings of an expression; greedy repetition before something that cannot start with a repeated character takes all of them, and before something that always matches too. |
| C146 | Dumping and writing subtitles at places that are no numbers | Dump and writer once more over numbers with infinities and NaN; agreement with the finite ones by induction; no comparison of times gives an infinity; an invariant of collecting: a line at such a place stays one. |
| C147 | Time codes in a binary STL file are in the order of the times | Products in frames_at are exact; rounding and rint are monotone, and the rounded quotient does not cross a half; four bytes with fewer than 60 minutes and seconds compare as numbers; blocks of the file from C124, times of what is read from C120. |
| C148 | What may be changed in a SubRip or WebVTT file without changing its meaning | An equivalence relation on files, closed under changes within cues; induction on it with the exact meaning of files of C115 and C116: where the text of a cue ends is unique, and so is what a line consists of. |
| C149 | Which bytes of a binary STL file matter | Fields of the header lie within the first 373 bytes; the loop over characters stops at 8F; induction over blocks with equal states. For the header, codes are injective and text fields are kept as they are (C120). |
| C150 | Signs of zero and of what is no number | The model of the SubRip reader, collect and dump once more with the sign bit; simulation by the model without it; an invariant that all sign bits are clear. |
| C151 | What may be changed in an SSA or STL text file without changing its meaning | Lines that do nothing leave the state of the reader as it is and lines that mean the same change it in the same way; induction over pairs of alike files. For STL text through the events of C119. |
| C152 | A read error is taken for the end of the file | fgets with a read error: null unless the line is whole. The lines before are those of the file cut there; then the theorems on parts of files (C99). |
| C153 | Hex colours with the scanf of glibc | The two conversions differ at 0x only; exact acceptance as in C72; the groups of the regular expression have hex digits only. |
| C154 | What may be changed in the text of an SSA dialogue without changing its meaning | Both texts are read as tokens (C117); the run over tokens is the same for lists of tokens that are alike, by induction over the relation. |
| C155 | The order of the styles of an SSA file does not matter | Swapping two lines gives lists of styles in which every name is found with the same result; the rest of the run uses the list only by looking up names; permutations by induction. |

## Conventions

* `std::string` = `List UInt8`. Exceptions, failed assertions and undefined behaviour are distinct
  constructors of `Err`; functions that can fail return `Except Err _`.
* C++ `int` = `Int` with an explicit overflow outcome where the code does arithmetic on values taken from input.
* `float`/`double` = rationals with IEEE round-to-nearest-even after each operation (unbounded exponent).
* Properties that are false of the code are kept, refuted by a theorem with a concrete witness, and the true
  part is proved under a name ending in `_partial`.
* `Verif/Model` is the model (core Lean only). `Verif/Spec` and the first section of each file in `Verif/Props` hold
  specifications that do not use the model's control flow: printers, relations, small interpreters.
  `Verif/Lemmas` are helper lemmas. Theorems named `Cnn_...` in `Verif/Props` are the claims.

## Trusted base

* The Lean 4.33.0 kernel. `decide +kernel` asks the kernel to evaluate a closed decidable proposition; it adds no axiom
  and does not use the compiler. There is no `native_decide`, `bv_decide`, `sorry`, `axiom`, `unsafe` or `implemented_by`.
* Axioms: every claimed theorem depends on a subset of `propext`, `Classical.choice`, `Quot.sound`
  (`tools/axioms.sh` prints the sets).
* Mathlib modules are used in proofs only; the model imports core Lean only.
* That the model is the program: each definition cites the lines it transcribes. Nothing was compiled or run from
  /repo, so agreement is by reading. As a cross-check `Verif/Conformance.lean` evaluates in the kernel, on the model,
  every assertion of /repo/test that does not need the project's private files: the ten files of test/data, the
  line, tag, colour and time cases, ISO 6937 both ways, and the reference file test/ref/test3.stl, which the model of the
  writer reproduces byte for byte. These are tests of the model, not proofs, and no claim rests on them.
  One assertion disagrees: test/ssa_reader_test.cc:231 puts the upper of two lines below the lower one
  (`900/1080 - vp(20)`); src/ssa_reader.cc:414-420 gives `+`, as `ssa_reader_test7` expects; the model follows the code.
* Floating point: `f32` and `f64` are rounding to 24 and 53 significant bits of exact rationals; C125_rounding shows that this is
  rounding to the nearest number of the format, ties to even. Exponents are unbounded. Model/Ieee.lean repeats all functions that calculate
  with floats with the limits of binary32 and binary64 (gradual underflow, overflow as an error), and C126 shows that they agree.
  Infinities and NaN are modelled only in the SSA and SubRip readers, in `collect`, in `dump` and in the places of lines in the STL writer (Model/SsaInf.lean, Model/SrtInf.lean, Model/OutInf.lean, C137-C139, C146), the signs of zero and NaN only from a SubRip file to the output of dumpsubs (Model/SignBits.lean, C150).
* The behaviour of library functions, as stated in the model: `std::getline`, `fgets` with a 256 byte buffer,
  `boost::algorithm` (`split` with and without token compression, `trim`, `replace_all`, `starts_with`), `boost::lexical_cast<int>`,
  `sscanf` (`%d`, `%x` with width, `%f`), `snprintf` (`%0nd`), `strtol`/`atoi`, `std::stable_sort`,
  `std::map` (insertion, lookup, order of `signed char`), `lrintf`/`rint` in the default rounding mode,
  `boost::locale::conv::utf_to_utf` (skips ill-formed input), `ostream << float` with default flags (`%g`, six digits),
  `getopt_long` of glibc without `POSIXLY_CORRECT`.
* Locale: `raw_convert` takes the C library's locale (decimal point, thousands separator) as a parameter. The readers use the "C" locale; Model/ReadLocale.lean
  repeats the SSA and SubRip readers with the locale as a parameter, and C140 says when that makes no difference. The C++ global locale is taken to be classic.

## What is modelled

| source | modelled | model file |
|---|---|---|
| sub_time, rational | all | Time, Float |
| every function with `float` or `double` | once more, with the exponent limits of IEEE 754 (proved equal, C126) | Ieee |
| collect | all | Collect |
| subtitle, raw_subtitle, vertical_position, horizontal_position, font_size, colour, effect, *_reference | all operators and conversions; `operator<<` of times | Subtitle, Time, Dump |
| util (get_line, getline, dump, remove_unicode_bom, ...), raw_convert, locale_convert | all; locale as a parameter (decimal point and thousands separator) | Text, Dump |
| compose.hpp | all, for string arguments | Compose |
| reader_factory, reader | all | Dump |
| tools/dumpsubs.cc | all; standard error and exit code as constructors of `Exit` | DumpSubs |
| exceptions | all; of a `ProgrammingError` the place is not kept | Exceptions |
| subrip_reader | all, from `FILE*` and from a string | SubRip |
| the regular expressions of subrip_reader and web_vtt_reader | their text, parsed, and a backtracking search (proved equal to the matchers of the rows above and below, C145) | Regex |
| web_vtt_reader | all, from `FILE*` and from a string | WebVtt |
| stl_text_reader, reader (warn) | all, with the warnings printed on std::cout | StlText |
| ssa_reader | all: sections, format lines, styles, events, override tags, line placement | Ssa |
| ssa_reader with a screen of no width or height, with `inf`, `nan` or any number | once more, with infinities and NaN (proved to agree with the row above where there are none, C137); every file has an outcome | SsaInf |
| subrip_reader and collect with such numbers | once more, likewise (C138, C139) | SrtInf |
| dump, dumpsubs and stl_binary_writer with such numbers | once more: places of lines; the frame rate stays finite (C146) | OutInf |
| subrip_reader, collect, dump and dumpsubs with the signs of zero and NaN | once more, with the sign bit of the vertical position (proved to make no other difference, C150) | SignBits |
| ssa_reader and subrip_reader in any locale | once more, with the locale as a parameter (C140) | ReadLocale |
| stl_binary_tables, stl_util | all tables in full, both directions | StlTables, StlUtil |
| stl_binary_reader | all, including metadata | StlReader |
| stl_binary_writer | all; the file as the byte string that is written | StlWriter |
| the ISO 6937 tables in a process that reads and writes several files | binary STL reader and writer once more, as programs that call the conversions (proved equal to the models above when each call finds fresh tables) | StlProcess |
| the same in several threads | threads that read and write binary STL files, each step of a conversion a step of its own, accesses to the tables recorded; allocation, streams and the C++ memory model itself are not modelled (a run with conflicting accesses counts as a race) | StlThreads |
| memory taken by write_stl_binary, files opened by reader_factory | steps of `new`, output and `delete[]` until the function returns or throws; number of files left open in a process with a limit | Resources |
| get_line_file, and so the readers that use it and dumpsubs, when a read error comes after any number of bytes | once more (C152); `fgets` as in glibc, the error is permanent | ReadError |
| colour (from hex) and the font tags of SubRip with the scanf of glibc, for which `0x` is a number | once more (C153: no difference for SubRip files) | HexGlibc |
| iso6937.py | all; Unicode data as any byte string, fetching it is not modelled | IsoGen |
| the file `write_stl_binary` writes to | a stream that cannot be opened or runs out of room after any number of bytes; the buffer of the stream is not modelled | Output |

Not modelled: the limit that Boost.Regex puts on the number of steps of a search (an exception for very long `<font` tags), the rest of the file system (read errors of streams; for those of a `FILE*` see ReadError), memory exhaustion, concurrency other than calls of the ISO 6937 conversions (Threads, C111) and of the binary STL reader and writer (StlThreads, C114) from several threads, directories given to `dumpsubs`, negative zero (IEEE values are rationals).

Simplified, and where it matters:

* Floats have unbounded exponents (no difference: C126), no infinities, no NaN (except in SsaInf, SrtInf and OutInf), no negative zero (except in SignBits). Division by zero is `Err.nonFinite`, text such
  as "inf" or "nan" given to `%f` is `Err.unmodelled`, and so is a number that is not 0 and not of a size between
  2^-90 and 2^90: from such a number the code could get an infinity or a subnormal. Both are distinct outcomes; no theorem calls them success.
  The models in SsaInf, SrtInf and OutInf have neither of them; there `%f` is as in glibc for `inf`, `infinity` and `nan`, and a number too large for `float` is UB.
* `%f` on a number with an exponent letter but no exponent ("1e") reads the number before the letter, as glibc did before
  version 2.42; ISO C makes it a matching failure.
* glibc's `%2x` accepts "0x" and yields 0, the model treats it as a matching failure (from_rgb_hex, C72), except in HexGlibc, which shows where this makes a difference (C153).
* The bytes of a `std::string` after a conversion to `int` by `atoi` are not limited to the range of `int`: `atoi` of a longer
  number is undefined in C; header fields have at most 5 digits, where it cannot happen.
* Sizes and counts are unbounded naturals, except where the code stores them in `int`.

## Where the code differs from what a user would expect

Each is a theorem about the model (names in MANIFEST.json).

* Times: comparison multiplies where it should divide by the rate (C03); add truncates (C09); scale and frames_at can give
  frames equal to the rate (C08, C10, C62); hours beyond the range of `int` overflow (C01).
* Positions: vertical position equality is neither reflexive nor transitive (C17), horizontal equality is not transitive (C19);
  merging lines drops differing horizontal positions (C20).
* SubRip: unmatched `</font>` is undefined behaviour (C25); a `{\...}` tag acts on text before it (C34); U+202B is
  stripped from the last run of a line only (C32); files read through `FILE*` are cut every 255 bytes (C30).
* Exceptions leak: blocks in write_stl_binary, and the open file when reader_factory meets a bad SubRip file (C131). A file that cannot be opened, or a full disk, goes unnoticed by write_stl_binary (C143).
* WebVTT: an empty file is accepted (C35). STL text: the digit before a comma is lost without a space (C38),
  line numbers go wrong after two `|` or a toggle (C39), the last line is dropped if it has no newline (C41).
* SSA: `\clip` is an error, `\fscx` sets the font size to 0 (C49); margins before the style column are lost (C79).
* ISO 6937: the bytes C9 and CC before a letter dereference a null pointer (C53), and so does any STL file with them (C63).
* Binary STL: 23.976 comes back as 23 (C56); text over 111 bytes does not come back as written (C57); lines that round to the
  same row or go up run together (C60); subtitles read from SubRip, WebVTT or STL text cannot be written: undefined behaviour (C61);
  rows 7 and 14 move when a file is read and written again (C80); line numbers can become negative (C65).
