{
 "C03": {
  "status": "partial",
  "note": "The full claim is refuted (C03_false: the code multiplies frames by the rate instead of dividing). Right for times in different seconds at any rates (C03_seconds_partial), of rates of equal value however written (C03_same_rate_partial, C03_same_value_partial) and when one is a whole second (C03_whole_partial); C03_exact_partial says exactly when within a second; C03_never_equal: at rates of different value equal instants other than whole seconds are never found equal."
 },
 "C09": {
  "status": "partial",
  "note": "\"Adding zero changes nothing\" is refuted (C09_zero_false: 1.001 s + 0 = 1.000 s). Proved: commutativity in value, the rate chosen, the one-frame bound, and for millisecond times success with the exact sum or one millisecond less."
 },
 "C20": {
  "status": "partial",
  "note": "The claim is refuted by C20_false; C20_first_partial: for every input each line has the position of the first raw subtitle of its group; C20_uniform_partial proves the claim when parts with equal vertical position have equal horizontal position; and C121_exact says exactly which raw subtitles share a line, so which of them lose their position."
 },
 "C72": {
  "status": "partial",
  "note": "Rejection of strings without three hex pairs is refuted (C72_reject_false: \"1 2 3\" is accepted, signs too); C72_reject_partial proves rejection with fewer than three (four) hex digits, C72_rgb_exact_partial and C72_rgba_exact_partial say exactly what is accepted, with which components. The rest is proved in full."
 },
 "C16": {
  "status": "proved",
  "note": "The exception is proved when no comparison of two of the times overflows int (C16_refuses_mixed); without that hypothesis collect still never returns (C16_mixed), for any sorting algorithm."
 },
 "C18": {
  "status": "proved",
  "note": "Order by exact distance is proved for distances differing by more than float rounding (2^-21 of the screen height)."
 },
 "C25": {
  "status": "proved",
  "note": "Holds per line: the stack of open font tags starts empty on each line (C25_carry_witness shows that a colour carried over from the line before is not restored by </font>), and a </font> without open tag is undefined behaviour (C25_ub_iff, C25_unmatched_witness)."
 },
 "C22": {
  "status": "proved",
  "note": "Rejection without exception is proved for all strings; C22_overflow_witness shows an accepted field (a huge hour) that overflows int."
 },
 "C30": {
  "status": "partial",
  "note": "Refuted in general by C30_long_witness (a 255-byte line), C30_nul_witness and C30_ssa_long_witness; C30_subrip_partial, C30_vtt_partial and C30_ssa_partial prove it for lines of at most 254 bytes and no NUL. The *_exact_partial theorems say for every file what a FILE* reader reads: the text `fileText s`, with lines broken after 255 bytes and without what follows a NUL in a line."
 },
 "C32": {
  "status": "partial",
  "note": "Refuted by C32_tag_witness (tag after the mark) and C32_invalid_witness (not UTF-8); proved for UTF-8 lines without tags. Exactly: U+202B is taken out of the last piece of a line alone (C116_line)."
 },
 "C34": {
  "status": "partial",
  "note": "Refuted by C34_before_witness; proved for tags at the start of a line. C34_joined_witness: two tags in the same braces do nothing. Exactly: a tag restyles the whole piece it stands in and what follows (C116_line)."
 },
 "C27": {
  "status": "proved",
  "note": ""
 },
 "C31": {
  "status": "proved",
  "note": "For lines inside the text of a subtitle, both parts not blank."
 },
 "C29": {
  "status": "proved",
  "note": "For WebVTT a byte order mark before an otherwise empty file is the exception (C29_vtt_empty_witness). Also proved for SSA, errors included (C29_ssa_crlf, C29_ssa_bom); there a byte order mark matters if white space follows it (C29_ssa_bom_witness)."
 },
 "C69": {
  "status": "partial",
  "note": "Integers and unsigned longs proved for every locale whose decimal point and separator do not start with a digit, space, sign or letter. Reading floats is refuted for strings that contain the locale's own decimal point (C69_comma_witness) and proved for all others (C69_float_partial)."
 },
 "C71": {
  "status": "proved",
  "note": "Numbers in %n up to 214748364 (beyond, the int computation overflows)."
 },
 "C38": {
  "status": "partial",
  "note": "Refuted by C38_false; C38_ignored_byte says exactly what is lost; C38_spaced_partial proves it when there is a space before the first comma."
 },
 "C39": {
  "status": "partial",
  "note": "Refuted by C39_false; C39_line_partial characterises exactly when the number is right."
 },
 "C41": {
  "status": "partial",
  "note": "Refuted by C41_false; C41_dropped proves that text after the last newline is never read; C41_newline_partial that a terminated last line is."
 },
 "C49": {
  "status": "partial",
  "note": "Refuted for tags that begin with the name of an implemented one (C49_false: \\clip is an error; C49_fscx: \\fscx sets the font size to zero); proved for all other tags."
 },
 "C46": {
  "status": "proved",
  "note": "Up to rounding: within (n+4)(2n*fontsize+|margin|)/2^22 of the ideal position, for dialogues without override blocks and margins and resolutions within 2^23."
 },
 "C50": {
  "note": "Lone combining marks are excluded as in the statement (C50_combining_witness)."
 },
 "C53": {
  "note": "The statement is false as a totality claim; C53_ub_iff characterises exactly when decoding is undefined (C9/CC applied to a byte) and C53_value gives the result in all other cases."
 },
 "C54": {
  "note": "Decoding: unconditional. Encoding: for texts without U+0000; C54_nul_witness shows the exception stated in the property."
 },
 "C55": {
  "note": "For any locale with sane separators; counts must fit in int. Each header field, its offset and its length are given by gsiSpec."
 },
 "C56": {
  "note": "The counts must fit their fields (C56_overflow_witness shows the truncation otherwise) and the rate comes back as its whole part (C56_rate_witness)."
 },
 "C60": {
  "status": "partial",
  "note": "False in general (C60_false, C60_close_witness). C60_exact_partial says exactly which lines run together, C60_apart_partial that all stay apart exactly if their rows are strictly increasing, C60_next_partial and C60_rows_partial at which distance."
 },
 "C61": {
  "status": "partial",
  "note": "False as stated (C61_false); false of everything read from SubRip files without SSA tags, WebVTT files and STL text files (C61_subrip, C61_webvtt, C61_stltext). C61_ssa_partial: defined for what is read from SSA files with times and sensible margins; C61_ssa_witness, C61_ssa_untimed_witness: not for others. Proved: defined for placed lines with rates (so for what is read from binary STL, C85); undefined or throwing in exactly the excluded cases (C61_line_number, C61_no_lines, C61_no_rate). C61_put: fields of the header are written in place or the behaviour is undefined. C61_subrip_places, C61_subrip_exact: with SSA tags, what is read from SubRip files can be written, at up to 999 frames per second, exactly if every line has a place from a tag the row of which is an int; C61_subrip_before_witness: not if only a later line has one. C61_ssa_exact: for SSA files, exactly if every subtitle has a start and an end and the row of every line is an int. C61_subrip_file, C61_ssa_file: the same for whole files."
 },
 "C62": {
  "status": "partial",
  "note": "False as stated (C62_false). Proved: below the rate except in the last half frame of a second, where the frame number is the rate itself (C62_last_half_frame)."
 },
 "C67": {
  "note": "Rates further than 1e-4 from the four known ones are written as 25."
 },
 "C68": {
  "note": "C68_group_false: the code U8 is read as the wrong language group, as the statement says."
 },
 "C57": {
  "status": "proved",
  "note": "C57_round_trip: for 24, 25 or 30 frames per second and times counted in them, whole files come back character by character (time, row, flags, alignment, character). C57_characters is the general form for any rate, with the frame numbers the writer computes. Lines must be one below the other on rows 0..23 and the encoded text must fit a block; C57_long_witness shows that longer text does not come back. Colours are not written at all."
 },
 "C63": {
  "status": "partial",
  "note": "C63_reads says exactly which files are read, C63_rejects that all others give STLError unless the text of a block makes the decoder look outside its table (null dereference, C63_ub_witness), which the English statement overlooks. C63_trailing: trailing data is ignored. C135 says with which message each other file fails."
 },
 "C64": {
  "status": "proved",
  "note": "Deleting the comment blocks (and lowering the count) leaves the result unchanged."
 },
 "C65": {
  "status": "proved",
  "note": "With a witness for negative line numbers, as the statement says."
 },
 "C66": {
  "status": "proved",
  "note": "C66_block and C66_file relate every emitted subtitle to its block, position and run of text; runs are those of an independent screen interpreter (play)."
 },
 "C80": {
  "status": "partial",
  "note": "False for rows 7 and 14 (C80_false, C80_file_witness); C80_rows_partial proves the rest."
 },
 "C81": {
  "status": "proved",
  "note": "C81_ordered: exact inverse for lists already in order; C81_any_order: any order, stable; C81_twice: collect is idempotent. Lines whose position does not equal itself (see C17) must have a single block."
 },
 "C82": {
  "status": "proved",
  "note": "Cues as in C23 (all tags the reader knows). Cues with the same start and end are merged by collect and not covered."
 },
 "C83": {
  "status": "proved",
  "note": "Items as in C36. Cues with the same start and end are merged by collect and not covered."
 },
 "C84": {
  "status": "partial",
  "note": "Proved for STL text and binary STL. False of SubRip and SSA (C84_subrip_false, C84_ssa_false). For SubRip and WebVTT only overflow can occur (C84_subrip_rates, C84_webvtt_rates), and C84_subrip_exact and C84_webvtt_exact say exactly when: two starts with more than 2147483 milliseconds are in the same second, or two ends of subtitles with the same start that follow each other. C84_ms_exact is the same for any list. C84_ssa_exact is the exact condition for SSA: besides, all starts or none must have been read before the text, and so the ends of subtitles with the same start. C130 says which times are stored."
 },
 "C85": {
  "status": "proved",
  "note": "Both cases: non-zero rows (C85_rewrite) and zero rows (C85_no_rows, division by zero, in C++ a conversion of infinity or NaN to int)."
 },
 "C86": {
  "status": "proved",
  "note": "C86_stltext, C86_webvtt, C86_subrip, C86_subrip_plain (no backslash), C86_ssa; each possible error has a witness beside the theorem. Binary STL: C63_errors. `.unmodelled` stands for the spellings of numbers that %f takes but the model does not (inf, nan). What the SubRip and WebVTT readers say they expected is one of srtExpected, vttExpected."
 },
 "C87": {
  "status": "proved",
  "note": "C87_dialogues (iff), C87_reorder, C87_ignored. Lines as given to SSAReader::read by get_line."
 },
 "C88": {
  "status": "proved",
  "note": "Pieces of text exclude braces, backslashes, CR and LF; backslash followed by another character is its own piece. The text is split from the event line by C47/C48. Unknown tags are any that begin like none of the known ones. \\c followed by something other than &Hbbggrr& is covered by C86."
 },
 "C89": {
  "status": "proved",
  "note": "C89_exact gives the value computed, C89_pos its distance from the ideal one. That the vertical margin is added to \\pos is what test/ssa_reader_test.cc expects (310/1080 for \\pos(400,300) with a margin of 10); C89_margin_witness shows it."
 },
 "C90": {
  "status": "partial",
  "note": "False for files with language group code U8, whose group is shown as \"Latin/Hebrew\" (C90_utf8_witness; the table gives U8 the enum of Hebrew, src/stl_binary_tables.cc:214). C90_metadata_partial: all entries otherwise; number fields are specified for fields of digits. C90_names: names distinct and in order."
 },
 "C91": {
  "status": "proved",
  "note": "C91_lines for the lines, C91_text for a string in memory, C91_file for a file with lines of at most 253 characters (longer ones are cut by get_line_file, see C30).  Numbers are limited to what single precision holds exactly (2^24, resolution 2^23)."
 },
 "C92": {
  "status": "proved",
  "note": "C92_subtitles.  Dialogues with tags that place text are covered up to the reader by C88 and C91."
 },
 "C93": {
  "status": "proved",
  "note": "C93_ordered and C93_any_order, for what the format can hold (Holds as in C57, and text on every line, without which a line is lost: C93_blank_witness). C66_block and C66_file now also say that pieces come in order of rows and only on rows that have ink."
 },
 "C94": {
  "status": "partial",
  "note": "C94_false: two accented letters are counted as four characters. C94_bytes says what is counted; C94_exact that (for lines of at most 99 bytes) the field is right exactly when there are no lines or one of the lines with the most bytes is of ASCII characters only; C94_ascii_partial follows for ASCII text. Missing: the rest, of which the claim is false."
 },
 "C95": {
  "status": "partial",
  "note": "C95_false: the second and third line of a subtitle of three lines are merged (C95_three_witness). C95_all_partial says of every file with pairwise different times what it comes to: a run belongs to the line with the number of | since the last text (also of an earlier subtitle), and neighbouring runs with the same number are one line. C95_two_rows_partial: this is as claimed if each subtitle has one line of any number of runs and at most one further line, of one run."
 },
 "C96": {
  "status": "proved",
  "note": "Diagnosis, BadTimes, GoodTimes and HugeTimes are specified apart from the model; C96_exactly_one: exactly one of them applies and the report is unique."
 },
 "C97": {
  "status": "partial",
  "note": "C97_decode_partial: all text without A0 and without accent+space. C97_encode: all text over the code table except latinLost. Witnesses: C97_false, C97_lost_witness, C97_lost_encode_witness. The specification's table is that of glibc's ISO_6937 with the documented additions (A4, second readings of D0 and E2); g with acute/cedilla left out."
 },
 "C98": {
  "status": "partial",
  "note": "C98_accepted_iff, C98_reported and C98_undefined_iff settle every line, C98_rejected_iff the exception for every file. C98_standard_partial: standard time lines with hours and none or four settings are accepted. C98_false, C98_settings_witness, C98_short_witness: all others with a first time without hours or with another number of settings are rejected. Specification: single spaces between the words."
 },
 "C99": {
  "status": "proved",
  "note": "C99_subrip, C99_vtt, C99_ssa (string and FILE*), C99_stl_text. The cut is at a line end; a cut within a line may leave half a time line, which C96/C98 settle."
 },
 "C100": {
  "status": "proved",
  "note": "C100_subrip, C100_vtt (iff), C100_subrip_all, C100_vtt_all (any number of files). C100_blank_witness, C100_arrow_witness: the blank line and the header without arrow are needed."
 },
 "C101": {
  "status": "proved",
  "note": "C101_style (iff), C101_count, C101_order, C101_number, C101_colour. Numbers that an int cannot hold are undefined behaviour of sscanf (not readable). An effect set by one BorderStyle column is not undone by a later one (example beside C101_style). Lines are split at commas; the text of the two lines after 'Format:'/'Style:' is what make receives (C47)."
 },
 "C102": {
  "status": "partial",
  "note": "False for SubRip (C102_subrip_false: rgba(510,0,0,0) gives 2) and SSA (C102_ssa_false: a style without PrimaryColour is (255,255,255) on a scale to 1). Proved: SubRip without '(' (C102_subrip_partial) and never negative (C102_subrip_nonneg); SSA when every format line of styles names PrimaryColour (C102_ssa_partial), and otherwise within or exactly (255,255,255) (C102_ssa); binary STL (C102_stl, C102_stl_within), STL text (C102_stltext), WebVTT (C102_webvtt) in full."
 },
 "C103": {
  "status": "partial",
  "note": "'Every subtitle is equal to itself' is false (C103_self_false: a line as its default constructor makes it is not equal to itself); C103_self says exactly which subtitles are (times comparable, every line placed), and C104_collected shows that this covers what readers report. The rest is proved: C103_block, C103_symm, C103_sound, C103_complete (tolerance up to 2^-30), C103_mixed, C103_errors. Floats are rationals: no NaN."
 },
 "C104": {
  "status": "proved",
  "note": "C104_subrip, C104_webvtt, C104_stltext, C104_ssa, C104_stl, C104_collected. Only the optional members are concerned; values are the subject of C39, C46, C65, C89."
 },
 "C105": {
  "status": "proved",
  "note": "C105_marked, C105_dump (for any formatting of proportions that yields no separator, which C106_chars/showFloat_plain show of ostream << float); C105_tag_witness and C105_newline_witness show that the conditions on the text are needed."
 },
 "C106": {
  "status": "proved",
  "note": "C106_nearest, C106_error, C106_chars, C106_fixed, for showFloat, the model of ostream << float with default flags. Negative zero (written -0) is not in the model."
 },
 "C107": {
  "status": "proved",
  "note": "C107_help, C107_usage, C107_no_file, C107_subrip; C107_failure_witness for the failures. getopt_long is modelled as in glibc without POSIXLY_CORRECT; a directory given as path and the wording on cerr are not modelled."
 },
 "C108": {
  "status": "proved",
  "note": "C108_again; C108_ends_witness, C108_row_witness and C108_utf8_witness show that the conditions are needed."
 },
 "C109": {
  "status": "proved",
  "note": "C109_subrip, C109_subrip_whole, C109_subrip_tells, C109_webvtt, C109_webvtt_tells, C109_webvtt_header, C109_programming; C109_composed: the messages the model writes out are what String::compose gives; C109_nul_witness: a NUL ends the message. Of a ProgrammingError raised in the model the place is not kept."
 },
 "C110": {
  "status": "proved",
  "note": "C110_reports, C110_unique, C110_ignored, C110_silent, C110_dumpsubs, C110_dumpsubs_binary; C110_blank_witness: an empty line is reported. C110_error: files that cannot be read."
 },
 "C111": {
  "status": "proved",
  "note": "C111_races, C111_results, C111_safe, C111_first, C111_alone (the steps are those of the sequential model), C111_ends; C111_writes and C111_reads: the accesses recorded for a step are all that it makes; C111_exchange: steps without conflicting accesses can be exchanged; C111_serial: a run without a race is like one with the threads one after another (C111_scheduled, C111_order, C111_inOrder). C111_box_witness: decoding the teletext code 0B writes to the global table, so it races with any other conversion. Whole steps are atomic in the model, which is sound for runs without races only; arguments are texts (no accent without a table: C53_ub_iff; no U+0000 to encode: C54_nul_witness)."
 },
 "C112": {
  "status": "proved",
  "note": "C112_conversion. The conditions are sharp in kind: C112_close_witness (lines less than a row apart run together), C112_merge_witness (dialogues less than a frame apart become one subtitle if collected again), C57_long_witness (text for two blocks)."
 },
 "C113": {
  "status": "proved",
  "note": "C113_action, C113_process. The exception is needed: C113_nul_witness (text with a NUL byte comes out differently after a file with a no-break space was read)."
 },
 "C114": {
  "status": "proved",
  "note": "C114_safe, C114_results (as by a process of its own), C114_races (exactly when), C114_first, C114_ends; C114_space_witness."
 },
 "C115": {
  "status": "proved",
  "note": "C115_exact (both directions), C115_unique, C115_string, C115_file. Uses C21 for the value of a time stamp."
 },
 "C116": {
  "status": "proved",
  "note": "C116_exact (both directions), C116_unique, C116_string, C116_file; C116_line for one line, C116_font for the colour of a font tag, C116_written_unique for what a line consists of. What a single override tag does is the declarative relation of C117."
 },
 "C117": {
  "status": "proved",
  "note": "C117_line (both directions) for lines, C117_tag for tags, C117_float, C117_int, C117_hex for numbers. Floats are rationals rounded as in the rest of the model; values outside 2^-90..2^90 are outside it."
 },
 "C118": {
  "status": "proved",
  "note": "C118_exact (both directions), C118_unique, C118_string, C118_file for files; C118_dialogue for a line of dialogue, C118_style for a style line, C118_time, C118_colour, C118_clean for their parts."
 },
 "C119": {
  "status": "proved",
  "note": "C119_exact (both directions), C119_unique."
 },
 "C120": {
  "status": "proved",
  "note": "C120_exact (both directions), C120_unique. IsoText is the specification of C53."
 },
 "C121": {
  "status": "proved",
  "note": "C121_exact (both directions), C121_succeeds. Equality of times and heights is that of the library (C02, C03, C17)."
 },
 "C122": {
  "status": "proved",
  "note": "C122_exact (both directions), C122_sound (without the assumption on SubRip times), C122_failed. Numbers with fractions are written as C106 says (showFloat). The getopt rules are those of C107 (Operands). The file system is a function from paths to what they lead to."
 },
 "C123": {
  "status": "proved",
  "note": "C123_exact, C123_subtitle (no hypotheses), C123_chars and C123_text (the two conversions, for all byte strings), C123_unique. UTF-8 is that of the Lean core library (String.utf8EncodeChar). Roundings to float and double are those of f32 and f64, described by the lemmas in Lemmas/Float.lean. UTF-8 conversion is that of Boost.Locale as modelled in Model/Utf8.lean."
 },
 "C124": {
  "status": "proved",
  "note": "C124_readable and C124_again. Subtitles beyond the first 99999 blocks are lost (firstFive; see C56_overflow_witness)."
 },
 "C125": {
  "status": "proved",
  "note": "C125_rounding characterises f32 and f64 without their definition; C125_frames, C125_seconds, C125_from_frames, C125_add, C125_scale are equivalences. Exponents are unbounded in the model (no infinities, no subnormal numbers)."
 },
 "C126": {
  "status": "proved",
  "note": "Model/Ieee.lean repeats the floating-point functions with limits; C126_rounding characterises its rounding. Numbers in SSA text outside 2^-90..2^90 are not covered by the main model (unmodelled), so nothing is said there."
 },
 "C127": {
  "status": "proved",
  "note": "Relates only bytes: which bytes are left out is the subject of the exact theorems C115-C120."
 },
 "C128": {
  "status": "proved",
  "note": "C128_equal_witness: order is kept, but not strictly. For times at one rate (operator< does not order times of different rates by instants, C03_false)."
 },
 "C129": {
  "status": "proved",
  "note": "C129_add_witness: adding nothing at all to times a millisecond apart merges two subtitles."
 },
 "C130": {
  "status": "proved",
  "note": "Makes the conditions of C84 ones that can be seen in the file. Beside the theorems: files with one digit more that cannot be collected, and an SSA file with the text first."
 },
 "C131": {
  "status": "proved",
  "note": "Part of the property is a defect: leaks on exceptions. Each use of new is taken to return a pointer not used before. Failure of new and of the output stream is not modelled; undefined behaviour of a reader is counted as an exception in C131_files."
 },
 "C132": {
  "status": "proved",
  "note": "C132_tags and C132_arrow are witnesses that the conditions on tags and on the arrow are needed."
 },
 "C133": {
  "status": "proved",
  "note": "C133_subrip, C133_vtt (both directions), C133_subrip_means (a file has a meaning, as in C116, unless it fails so), C133_line for a line of text, C133_tag and C133_font for tags. Numbers outside the range of the float model are failures of the model (unmodelled) and described as such."
 },
 "C134": {
  "status": "proved",
  "note": "C134_stl_text and C134_ssa (both directions), C134_dialogue, C134_style, C134_stamp and C134_text for the parts of an SSA file. A screen side of zero makes the C++ compute an infinity or NaN, which the model reports as the failure nonFinite (what the C++ then does is C137); floats outside the model are unmodelled; both are described as such."
 },
 "C135": {
  "status": "proved",
  "note": "C135_stl: both directions. The undefined behaviour is the null dereference in the ISO 6937 decoder described by BadBlock (C63)."
 },
 "C136": {
  "status": "proved",
  "note": "C136_write, C136_subtitle (both directions), C136_row, C136_time. Division by zero gives an infinity or NaN in C++ which is then converted to int; the model reports it as nonFinite."
 },
 "C137": {
  "status": "proved",
  "note": "C137_agree, C137_reads, C137_text, C137_sizes, C137_no_size, C137_ratio, C137_nowhere; C137_add, C137_sub, C137_mul, C137_div: arithmetic with infinities is the limit of that of numbers, and NaN exactly where there is none; C137_witness is a file whose subtitle has the position NaN. IEEE 754 in full except for the sign of zero. That \"infi\" and the like which are not \"infinity\" give 0 is what glibc does. Collecting such subtitles: C139."
 },
 "C138": {
  "status": "proved",
  "note": "C138_agree, C138_reads; C138_witness has a file of each kind. IEEE 754 in full except for the sign of zero."
 },
 "C139": {
  "status": "proved",
  "note": "C139_pieces, C139_own_line, C139_ssa, C139_agree; C139_witness is the file of the statement with both screens."
 },
 "C140": {
  "status": "proved",
  "note": "C140_ssa, C140_ssa_file, C140_subrip, C140_subrip_file under the line conditions SsaLineSafe and SrtLineSafe; C140_usual: enough that the file has no \\\\fs and no MarginV at the end of a line; C140_write; C140_witness: the exceptions happen. The C library's locale only: the C++ global locale (streams, is_any_of) is taken to be classic. The other readers do not use raw_convert."
 },
 "C141": {
  "status": "proved",
  "note": "C141_collect, C141_subrip, C141_vtt, C141_ssa, C141_stl; C141_together_witness: with equal start times the order of the file shows."
 },
 "C142": {
  "status": "proved",
  "note": "C142_select, C142_cut, C142_reels, C142_subrip; C142_end_witness: choosing by when subtitles end is different."
 },
 "C143": {
  "status": "proved",
  "note": "C143_thrown, C143_returns, C143_silent_witness, C143_cut_off, C143_noticed."
 },
 "C144": {
  "status": "proved",
  "note": "C144_tables, C144_find, C144_generates, C144_line_ends, C144_stops."
 },
 "C145": {
  "status": "proved",
  "note": "C145_sound, C145_complete (any expression), C145_colour, C145_lines; C145_steps: a search takes at most 69 (n+1)² steps, n being the length of the tag. Boost counts steps in its own way and gives up after a large number of them: that limit is not modelled."
 },
 "C146": {
  "status": "proved",
  "note": "C146_exact, C146_outcome, C146_agree (dump); C146_row, C146_row_agree, C146_undefined, C146_unwritten, C146_ssa, C146_write_agree (writer); C146_witness: a SubRip file that is shown with -inf and nan, and an SSA file whose screen has height 0, which cannot be written. The sign of NaN is not modelled (the program may print -nan), nor negative zero. The frame rate stays a finite number."
 },
 "C147": {
  "status": "proved",
  "note": "C147_order, C147_apart (codes of any two times of subtitles), C147_read, C147_duration (the file read again); C147_frame_witness: 60 ms and 100 ms are both frame 2 at 25 frames per second, so exactly a frame is not enough. The order in the model is that of instants, not operator<, which is wrong between rates (C03)."
 },
 "C148": {
  "status": "proved",
  "note": "C148_subrip, C148_webvtt; C148_blank_witness: without the blank line the next cue becomes text of the first. Tags are the same if the characters and tags of the lines are the same; arguments of font and SSA tags are not compared by meaning."
 },
 "C149": {
  "status": "proved",
  "note": "C149_alike (equality of results, errors and undefined behaviour included), C149_header; C149_matters_witness: alignment 1 and 2 differ, and 8A after 8F begins a row. Bytes 0 to 2, 12, 13, 238 to 254, 272 and 273 are numbers or the language group, where different bytes may mean the same (C90, C120)."
 },
 "C150": {
  "status": "proved",
  "note": "C150_sign (exact), C150_reading, C150_collect, C150_output, C150_no_minus, C150_last_tag, C150_value, C150_line; C150_witness shows both signs in the output. The sign of a horizontal position and of a font size is never printed."
 },
 "C151": {
  "status": "proved",
  "note": "C151_ssa (equality of results, errors included), C151_stl; C151_margin_witness: margin 0 may not be written 00. The text of a dialogue may be changed as in C154."
 },
 "C152": {
  "status": "proved",
  "note": "C152_read (equality with the shorter file, which C152_whole and C152_whole_unique show to exist and to be the only one), C152_unnoticed, C152_dumpsubs, C152_without; C152_witness: a subtitle is lost. The error is taken to be permanent. Binary STL and STL text files, which are read through a stream, are not part of this."
 },
 "C153": {
  "status": "proved",
  "note": "C153_rgb and C153_rgba (exact), C153_more, C153_same, C153_subrip; C153_witness: 0x1234."
 },
 "C154": {
  "status": "proved",
  "note": "C154_tag (one tag), C154_text (the whole text). C154_n_witness: a tag without effect that begins with n counts as a break and moves the text up, so the condition on the number of places is needed. C154_group_witness: an empty group inside a text divides it. C151_ssa uses this for the column Text."
 },
 "C155": {
  "status": "proved",
  "note": "C155_styles. C155_same_name_witness: the condition on the names is needed. C155_last: of two styles of the same name the last one counts. C155_sides: width and height in either order. C155_table and C155_columns: the columns of the styles may be in any order too; C155_columns_witness: only together with the format."
 },
 "C79": {
  "status": "proved",
  "note": "C79_table and C79_columns: the same for whole files, with the Format line and all dialogues changed together."
 }
}