{
 "claims": [
  {
   "property": "C01",
   "status": "proved",
   "theorems": [
    "LibSub.C01_fromHmsf_parts",
    "LibSub.C01_fromHms_parts",
    "LibSub.C01_recompose",
    "LibSub.C01_overflow"
   ],
   "note": ""
  },
  {
   "property": "C02",
   "status": "proved",
   "theorems": [
    "LibSub.C02_trichotomy",
    "LibSub.C02_gt_is_flipped_lt",
    "LibSub.C02_ne",
    "LibSub.C02_irrefl",
    "LibSub.C02_trans",
    "LibSub.C02_eq_trans",
    "LibSub.C02_lt_of_lt_of_eq",
    "LibSub.C02_defined",
    "LibSub.C02_overflow_witness"
   ],
   "note": ""
  },
  {
   "property": "C03",
   "status": "partial",
   "theorems": [
    "LibSub.C03_false",
    "LibSub.C03_same_rate_partial",
    "LibSub.C03_seconds_partial",
    "LibSub.C03_exact_partial",
    "LibSub.C03_same_value_partial",
    "LibSub.C03_whole_partial",
    "LibSub.C03_never_equal"
   ],
   "note": "The full claim is refuted (C03_false: the code multiplies frames by the rate instead of dividing). Right for times in different seconds at any rates (C03_seconds_partial), of rates of equal value however written (C03_same_rate_partial, C03_same_value_partial) and when one is a whole second (C03_whole_partial); C03_exact_partial says exactly when within a second; C03_never_equal: at rates of different value equal instants other than whole seconds are never found equal."
  },
  {
   "property": "C04",
   "status": "proved",
   "theorems": [
    "LibSub.C04_mixed",
    "LibSub.C04_only_mixed",
    "LibSub.C04_convert"
   ],
   "note": ""
  },
  {
   "property": "C05",
   "status": "proved",
   "theorems": [
    "LibSub.C05_fromFrames",
    "LibSub.C05_rejects"
   ],
   "note": ""
  },
  {
   "property": "C06",
   "status": "proved",
   "theorems": [
    "LibSub.C06_own_rate",
    "LibSub.C06_fromHms_milliseconds"
   ],
   "note": ""
  },
  {
   "property": "C07",
   "status": "proved",
   "theorems": [
    "LibSub.C07_milliseconds_round_trip",
    "LibSub.C07_bound_needed"
   ],
   "note": ""
  },
  {
   "property": "C08",
   "status": "proved",
   "theorems": [
    "LibSub.C08_half_frame",
    "LibSub.C08_monotone",
    "LibSub.C08_no_carry_witness"
   ],
   "note": ""
  },
  {
   "property": "C09",
   "status": "partial",
   "theorems": [
    "LibSub.C09_add_bounds",
    "LibSub.C09_add_milliseconds",
    "LibSub.C09_zero_false",
    "LibSub.C09_add_comm"
   ],
   "note": "\"Adding zero changes nothing\" is refuted (C09_zero_false: 1.001 s + 0 = 1.000 s). Proved: commutativity in value, the rate chosen, the one-frame bound, and for millisecond times success with the exact sum or one millisecond less."
  },
  {
   "property": "C10",
   "status": "proved",
   "theorems": [
    "LibSub.C10_scale_one",
    "LibSub.C10_scale_bounds",
    "LibSub.C10_not_normalised_witness"
   ],
   "note": ""
  },
  {
   "property": "C11",
   "status": "proved",
   "theorems": [
    "LibSub.C11_format",
    "LibSub.C11_injective"
   ],
   "note": ""
  },
  {
   "property": "C12",
   "status": "proved",
   "theorems": [
    "LibSub.C12_nothing_lost",
    "LibSub.C12_count"
   ],
   "note": ""
  },
  {
   "property": "C13",
   "status": "proved",
   "theorems": [
    "LibSub.C13_order",
    "LibSub.C13_subtitles_ordered"
   ],
   "note": ""
  },
  {
   "property": "C14",
   "status": "proved",
   "theorems": [
    "LibSub.C14_grouping",
    "LibSub.C14_empty"
   ],
   "note": ""
  },
  {
   "property": "C15",
   "status": "proved",
   "theorems": [
    "LibSub.C15_any_order"
   ],
   "note": ""
  },
  {
   "property": "C16",
   "status": "proved",
   "theorems": [
    "LibSub.C16_mixed",
    "LibSub.C16_errors",
    "LibSub.C16_refuses_mixed",
    "LibSub.C16_overflow_witness"
   ],
   "note": "The exception is proved when no comparison of two of the times overflows int (C16_refuses_mixed); without that hypothesis collect still never returns (C16_mixed), for any sorting algorithm."
  },
  {
   "property": "C17",
   "status": "proved",
   "theorems": [
    "LibSub.C17_symm",
    "LibSub.C17_refl_iff",
    "LibSub.C17_eq_sound",
    "LibSub.C17_not_transitive",
    "LibSub.C17_transitive_same_kind"
   ],
   "note": ""
  },
  {
   "property": "C18",
   "status": "proved",
   "theorems": [
    "LibSub.C18_ub_iff",
    "LibSub.C18_defined_iff",
    "LibSub.C18_fraction",
    "LibSub.C18_top_to_bottom",
    "LibSub.C18_lines",
    "LibSub.C18_lines_bottom",
    "LibSub.C18_strict_weak_order"
   ],
   "note": "Order by exact distance is proved for distances differing by more than float rounding (2^-21 of the screen height)."
  },
  {
   "property": "C19",
   "status": "proved",
   "theorems": [
    "LibSub.C19_refl",
    "LibSub.C19_symm",
    "LibSub.C19_ref",
    "LibSub.C19_tolerance",
    "LibSub.C19_not_transitive"
   ],
   "note": ""
  },
  {
   "property": "C20",
   "status": "partial",
   "theorems": [
    "LibSub.C20_false",
    "LibSub.C20_uniform_partial",
    "LibSub.C20_first_partial"
   ],
   "note": "The claim is refuted by C20_false; C20_first_partial: for every input each line has the position of the first raw subtitle of its group; C20_uniform_partial proves the claim when parts with equal vertical position have equal horizontal position; and C121_exact says exactly which raw subtitles share a line, so which of them lose their position."
  },
  {
   "property": "C21",
   "status": "proved",
   "theorems": [
    "LibSub.C21_value",
    "LibSub.C21_timestamp"
   ],
   "note": ""
  },
  {
   "property": "C22",
   "status": "proved",
   "theorems": [
    "LibSub.C22_wrong_colons",
    "LibSub.C22_wrong_separators",
    "LibSub.C22_wrong_field",
    "LibSub.C22_accepts_only",
    "LibSub.C22_no_throw",
    "LibSub.C22_defined",
    "LibSub.C22_overflow_witness"
   ],
   "note": "Rejection without exception is proved for all strings; C22_overflow_witness shows an accepted field (a huge hour) that overflows int."
  },
  {
   "property": "C23",
   "status": "proved",
   "theorems": [
    "LibSub.C23_styled",
    "LibSub.C23_no_final_newline",
    "LibSub.C23_round_trip"
   ],
   "note": ""
  },
  {
   "property": "C24",
   "status": "proved",
   "theorems": [
    "LibSub.C24_line",
    "LibSub.C24_runs",
    "LibSub.C24_text"
   ],
   "note": ""
  },
  {
   "property": "C25",
   "status": "proved",
   "theorems": [
    "LibSub.C25_ub_iff",
    "LibSub.C25_unmatched_witness",
    "LibSub.C25_nest",
    "LibSub.C25_open",
    "LibSub.C25_runs",
    "LibSub.C25_hex6",
    "LibSub.C25_hex8",
    "LibSub.C25_rgba",
    "LibSub.C25_bad",
    "LibSub.C25_carry_witness"
   ],
   "note": "Holds per line: the stack of open font tags starts empty on each line (C25_carry_witness shows that a colour carried over from the line before is not restored by </font>), and a </font> without open tag is undefined behaviour (C25_ub_iff, C25_unmatched_witness)."
  },
  {
   "property": "C26",
   "status": "proved",
   "theorems": [
    "LibSub.C26_scope"
   ],
   "note": ""
  },
  {
   "property": "C27",
   "status": "proved",
   "theorems": [
    "LibSub.C27_ssa",
    "LibSub.C27_stltext",
    "LibSub.C27_subrip"
   ],
   "note": ""
  },
  {
   "property": "C28",
   "status": "proved",
   "theorems": [
    "LibSub.C28_report"
   ],
   "note": ""
  },
  {
   "property": "C29",
   "status": "proved",
   "theorems": [
    "LibSub.C29_ssa_crlf",
    "LibSub.C29_ssa_bom",
    "LibSub.C29_ssa_bom_witness",
    "LibSub.C29_subrip_crlf",
    "LibSub.C29_subrip_bom",
    "LibSub.C29_vtt_crlf",
    "LibSub.C29_vtt_bom",
    "LibSub.C29_vtt_empty_witness"
   ],
   "note": "For WebVTT a byte order mark before an otherwise empty file is the exception (C29_vtt_empty_witness). Also proved for SSA, errors included (C29_ssa_crlf, C29_ssa_bom); there a byte order mark matters if white space follows it (C29_ssa_bom_witness)."
  },
  {
   "property": "C30",
   "status": "partial",
   "theorems": [
    "LibSub.C30_subrip_exact_partial",
    "LibSub.C30_vtt_exact_partial",
    "LibSub.C30_ssa_exact_partial",
    "LibSub.C30_ssa_partial",
    "LibSub.C30_ssa_long_witness",
    "LibSub.C30_subrip_partial",
    "LibSub.C30_long_witness",
    "LibSub.C30_nul_witness",
    "LibSub.C30_vtt_partial"
   ],
   "note": "Refuted in general by C30_long_witness (a 255-byte line), C30_nul_witness and C30_ssa_long_witness; C30_subrip_partial, C30_vtt_partial and C30_ssa_partial prove it for lines of at most 254 bytes and no NUL. The *_exact_partial theorems say for every file what a FILE* reader reads: the text `fileText s`, with lines broken after 255 bytes and without what follows a NUL in a line."
  },
  {
   "property": "C31",
   "status": "proved",
   "theorems": [
    "LibSub.C31_line_separator",
    "LibSub.C31_vtt_line_separator"
   ],
   "note": "For lines inside the text of a subtitle, both parts not blank."
  },
  {
   "property": "C32",
   "status": "partial",
   "theorems": [
    "LibSub.C32_removed_partial",
    "LibSub.C32_tag_witness",
    "LibSub.C32_invalid_witness"
   ],
   "note": "Refuted by C32_tag_witness (tag after the mark) and C32_invalid_witness (not UTF-8); proved for UTF-8 lines without tags. Exactly: U+202B is taken out of the last piece of a line alone (C116_line)."
  },
  {
   "property": "C33",
   "status": "proved",
   "theorems": [
    "LibSub.C33_plain"
   ],
   "note": ""
  },
  {
   "property": "C34",
   "status": "partial",
   "theorems": [
    "LibSub.C34_before_witness",
    "LibSub.C34_joined_witness",
    "LibSub.C34_start_partial",
    "LibSub.C34_faces_partial"
   ],
   "note": "Refuted by C34_before_witness; proved for tags at the start of a line. C34_joined_witness: two tags in the same braces do nothing. Exactly: a tag restyles the whole piece it stands in and what follows (C116_line)."
  },
  {
   "property": "C35",
   "status": "proved",
   "theorems": [
    "LibSub.C35_header",
    "LibSub.C35_nothing_else",
    "LibSub.C35_empty"
   ],
   "note": ""
  },
  {
   "property": "C36",
   "status": "proved",
   "theorems": [
    "LibSub.C36_round_trip",
    "LibSub.C36_final_blank"
   ],
   "note": ""
  },
  {
   "property": "C37",
   "status": "proved",
   "theorems": [
    "LibSub.C37_file"
   ],
   "note": ""
  },
  {
   "property": "C38",
   "status": "partial",
   "theorems": [
    "LibSub.C38_ignored_byte",
    "LibSub.C38_false",
    "LibSub.C38_spaced_partial"
   ],
   "note": "Refuted by C38_false; C38_ignored_byte says exactly what is lost; C38_spaced_partial proves it when there is a space before the first comma."
  },
  {
   "property": "C39",
   "status": "partial",
   "theorems": [
    "LibSub.C39_line_partial",
    "LibSub.C39_false"
   ],
   "note": "Refuted by C39_false; C39_line_partial characterises exactly when the number is right."
  },
  {
   "property": "C40",
   "status": "proved",
   "theorems": [
    "LibSub.C40_styles",
    "LibSub.C40_comment"
   ],
   "note": ""
  },
  {
   "property": "C41",
   "status": "partial",
   "theorems": [
    "LibSub.C41_dropped",
    "LibSub.C41_false",
    "LibSub.C41_newline_partial"
   ],
   "note": "Refuted by C41_false; C41_dropped proves that text after the last newline is never read; C41_newline_partial that a terminated last line is."
  },
  {
   "property": "C42",
   "status": "proved",
   "theorems": [
    "LibSub.C42_time",
    "LibSub.C42_fields"
   ],
   "note": ""
  },
  {
   "property": "C43",
   "status": "proved",
   "theorems": [
    "LibSub.C43_rest",
    "LibSub.C43_short",
    "LibSub.C43_text"
   ],
   "note": ""
  },
  {
   "property": "C44",
   "status": "proved",
   "theorems": [
    "LibSub.C44_text"
   ],
   "note": ""
  },
  {
   "property": "C45",
   "status": "proved",
   "theorems": [
    "LibSub.C45_tag",
    "LibSub.C45_style"
   ],
   "note": ""
  },
  {
   "property": "C46",
   "status": "proved",
   "theorems": [
    "LibSub.C46_stack"
   ],
   "note": "Up to rounding: within (n+4)(2n*fontsize+|margin|)/2^22 of the ideal position, for dialogues without override blocks and margins and resolutions within 2^23."
  },
  {
   "property": "C47",
   "status": "proved",
   "theorems": [
    "LibSub.C47_lookup",
    "LibSub.C47_apply"
   ],
   "note": ""
  },
  {
   "property": "C48",
   "status": "proved",
   "theorems": [
    "LibSub.C48_hex",
    "LibSub.C48_bgr",
    "LibSub.C48_decimal",
    "LibSub.C48_range",
    "LibSub.C48_tag",
    "LibSub.C48_bad",
    "LibSub.C48_reset"
   ],
   "note": ""
  },
  {
   "property": "C49",
   "status": "partial",
   "theorems": [
    "LibSub.C49_false",
    "LibSub.C49_fscx",
    "LibSub.C49_ignored_partial"
   ],
   "note": "Refuted for tags that begin with the name of an implemented one (C49_false: \\clip is an error; C49_fscx: \\fscx sets the font size to zero); proved for all other tags."
  },
  {
   "property": "C50",
   "status": "proved",
   "theorems": [
    "LibSub.C50_round_trip",
    "LibSub.C50_combining_witness",
    "LibSub.C50_ascii"
   ],
   "note": "Lone combining marks are excluded as in the statement (C50_combining_witness)."
  },
  {
   "property": "C51",
   "status": "proved",
   "theorems": [
    "LibSub.C51_fresh",
    "LibSub.C51_any_history"
   ],
   "note": ""
  },
  {
   "property": "C52",
   "status": "proved",
   "theorems": [
    "LibSub.C52_append",
    "LibSub.C52_substitute",
    "LibSub.C52_dropped"
   ],
   "note": ""
  },
  {
   "property": "C53",
   "status": "proved",
   "theorems": [
    "LibSub.C53_value",
    "LibSub.C53_ub_iff",
    "LibSub.C53_text"
   ],
   "note": "The statement is false as a totality claim; C53_ub_iff characterises exactly when decoding is undefined (C9/CC applied to a byte) and C53_value gives the result in all other cases."
  },
  {
   "property": "C54",
   "status": "proved",
   "theorems": [
    "LibSub.C54_decode",
    "LibSub.C54_encode",
    "LibSub.C54_nul_witness"
   ],
   "note": "Decoding: unconditional. Encoding: for texts without U+0000; C54_nul_witness shows the exception stated in the property."
  },
  {
   "property": "C55",
   "status": "proved",
   "theorems": [
    "LibSub.C55_layout",
    "LibSub.C55_fields",
    "LibSub.C55_refuses"
   ],
   "note": "For any locale with sane separators; counts must fit in int. Each header field, its offset and its length are given by gsiSpec."
  },
  {
   "property": "C56",
   "status": "proved",
   "theorems": [
    "LibSub.C56_number",
    "LibSub.C56_overflow_witness",
    "LibSub.C56_metadata",
    "LibSub.C56_rate_witness"
   ],
   "note": "The counts must fit their fields (C56_overflow_witness shows the truncation otherwise) and the rate comes back as its whole part (C56_rate_witness)."
  },
  {
   "property": "C57",
   "status": "proved",
   "theorems": [
    "LibSub.C57_characters",
    "LibSub.C57_round_trip",
    "LibSub.C57_long_witness"
   ],
   "note": "C57_round_trip: for 24, 25 or 30 frames per second and times counted in them, whole files come back character by character (time, row, flags, alignment, character). C57_characters is the general form for any rate, with the frame numbers the writer computes. Lines must be one below the other on rows 0..23 and the encoded text must fit a block; C57_long_witness shows that longer text does not come back. Colours are not written at all."
  },
  {
   "property": "C58",
   "status": "proved",
   "theorems": [
    "LibSub.C58_chunks"
   ],
   "note": ""
  },
  {
   "property": "C59",
   "status": "proved",
   "theorems": [
    "LibSub.C59_shown",
    "LibSub.C59_switched"
   ],
   "note": ""
  },
  {
   "property": "C60",
   "status": "partial",
   "theorems": [
    "LibSub.C60_next_partial",
    "LibSub.C60_exact_partial",
    "LibSub.C60_apart_partial",
    "LibSub.C60_rows_partial",
    "LibSub.C60_false",
    "LibSub.C60_close_witness"
   ],
   "note": "False in general (C60_false, C60_close_witness). C60_exact_partial says exactly which lines run together, C60_apart_partial that all stay apart exactly if their rows are strictly increasing, C60_next_partial and C60_rows_partial at which distance."
  },
  {
   "property": "C61",
   "status": "partial",
   "theorems": [
    "LibSub.C61_subrip",
    "LibSub.C61_webvtt",
    "LibSub.C61_stltext",
    "LibSub.C61_ssa_partial",
    "LibSub.C61_ssa_witness",
    "LibSub.C61_ssa_untimed_witness",
    "LibSub.C61_subrip_places",
    "LibSub.C61_subrip_exact",
    "LibSub.C61_subrip_before_witness",
    "LibSub.C61_ssa_exact",
    "LibSub.C61_subrip_file",
    "LibSub.C61_ssa_file",
    "LibSub.C61_put",
    "LibSub.C61_defined_partial",
    "LibSub.C61_line_number",
    "LibSub.C61_no_lines",
    "LibSub.C61_no_rate",
    "LibSub.C61_subrip_witness",
    "LibSub.C61_false"
   ],
   "note": "False as stated (C61_false); false of everything read from SubRip files without SSA tags, WebVTT files and STL text files (C61_subrip, C61_webvtt, C61_stltext). C61_ssa_partial: defined for what is read from SSA files with times and sensible margins; C61_ssa_witness, C61_ssa_untimed_witness: not for others. Proved: defined for placed lines with rates (so for what is read from binary STL, C85); undefined or throwing in exactly the excluded cases (C61_line_number, C61_no_lines, C61_no_rate). C61_put: fields of the header are written in place or the behaviour is undefined. C61_subrip_places, C61_subrip_exact: with SSA tags, what is read from SubRip files can be written, at up to 999 frames per second, exactly if every line has a place from a tag the row of which is an int; C61_subrip_before_witness: not if only a later line has one. C61_ssa_exact: for SSA files, exactly if every subtitle has a start and an end and the row of every line is an int. C61_subrip_file, C61_ssa_file: the same for whole files."
  },
  {
   "property": "C62",
   "status": "partial",
   "theorems": [
    "LibSub.C62_false",
    "LibSub.C62_bytes",
    "LibSub.C62_below_partial",
    "LibSub.C62_last_half_frame",
    "LibSub.C62_own_rate_partial"
   ],
   "note": "False as stated (C62_false). Proved: below the rate except in the last half frame of a second, where the frame number is the rate itself (C62_last_half_frame)."
  },
  {
   "property": "C63",
   "status": "partial",
   "theorems": [
    "LibSub.C63_reads",
    "LibSub.C63_rejects",
    "LibSub.C63_errors",
    "LibSub.C63_harmless",
    "LibSub.C63_trailing",
    "LibSub.C63_ub_witness"
   ],
   "note": "C63_reads says exactly which files are read, C63_rejects that all others give STLError unless the text of a block makes the decoder look outside its table (null dereference, C63_ub_witness), which the English statement overlooks. C63_trailing: trailing data is ignored. C135 says with which message each other file fails."
  },
  {
   "property": "C64",
   "status": "proved",
   "theorems": [
    "LibSub.C64_invisible"
   ],
   "note": "Deleting the comment blocks (and lowering the count) leaves the result unchanged."
  },
  {
   "property": "C65",
   "status": "proved",
   "theorems": [
    "LibSub.C65_on_screen",
    "LibSub.C65_negative_witness"
   ],
   "note": "With a witness for negative line numbers, as the statement says."
  },
  {
   "property": "C66",
   "status": "proved",
   "theorems": [
    "LibSub.C66_block",
    "LibSub.C66_file"
   ],
   "note": "C66_block and C66_file relate every emitted subtitle to its block, position and run of text; runs are those of an independent screen interpreter (play)."
  },
  {
   "property": "C67",
   "status": "proved",
   "theorems": [
    "LibSub.C67_read",
    "LibSub.C67_round_trip",
    "LibSub.C67_other",
    "LibSub.C67_accepted"
   ],
   "note": "Rates further than 1e-4 from the four known ones are written as 25."
  },
  {
   "property": "C68",
   "status": "proved",
   "theorems": [
    "LibSub.C68_language_code",
    "LibSub.C68_language",
    "LibSub.C68_language_description",
    "LibSub.C68_language_file",
    "LibSub.C68_justification",
    "LibSub.C68_cumulative",
    "LibSub.C68_comment",
    "LibSub.C68_codes",
    "LibSub.C68_reader_codes",
    "LibSub.C68_language_described",
    "LibSub.C68_descriptions",
    "LibSub.C68_group_false"
   ],
   "note": "C68_group_false: the code U8 is read as the wrong language group, as the statement says."
  },
  {
   "property": "C69",
   "status": "partial",
   "theorems": [
    "LibSub.C69_int",
    "LibSub.C69_float_partial",
    "LibSub.C69_comma_witness",
    "LibSub.C69_ulong"
   ],
   "note": "Integers and unsigned longs proved for every locale whose decimal point and separator do not start with a digit, space, sign or letter. Reading floats is refuted for strings that contain the locale's own decimal point (C69_comma_witness) and proved for all others (C69_float_partial)."
  },
  {
   "property": "C70",
   "status": "proved",
   "theorems": [
    "LibSub.C70_lines",
    "LibSub.C70_unlines"
   ],
   "note": ""
  },
  {
   "property": "C71",
   "status": "proved",
   "theorems": [
    "LibSub.C71_compose",
    "LibSub.C71_positional",
    "LibSub.C71_empty_shifts"
   ],
   "note": "Numbers in %n up to 214748364 (beyond, the int computation overflows)."
  },
  {
   "property": "C72",
   "status": "partial",
   "theorems": [
    "LibSub.C72_rgb_exact_partial",
    "LibSub.C72_rgba_exact_partial",
    "LibSub.C72_rgb",
    "LibSub.C72_rgba",
    "LibSub.C72_component",
    "LibSub.C72_reject_false",
    "LibSub.C72_negative_witness",
    "LibSub.C72_reject_partial",
    "LibSub.C72_errors"
   ],
   "note": "Rejection of strings without three hex pairs is refuted (C72_reject_false: \"1 2 3\" is accepted, signs too); C72_reject_partial proves rejection with fewer than three (four) hex digits, C72_rgb_exact_partial and C72_rgba_exact_partial say exactly what is accepted, with which components. The rest is proved in full."
  },
  {
   "property": "C73",
   "status": "proved",
   "theorems": [
    "LibSub.C73_srt",
    "LibSub.C73_stl",
    "LibSub.C73_other"
   ],
   "note": ""
  },
  {
   "property": "C74",
   "status": "proved",
   "theorems": [
    "LibSub.C74_balanced",
    "LibSub.C74_nesting_witness",
    "LibSub.C74_lines"
   ],
   "note": ""
  },
  {
   "property": "C75",
   "status": "proved",
   "theorems": [
    "LibSub.C75_points",
    "LibSub.C75_proportional",
    "LibSub.C75_points_to_proportional",
    "LibSub.C75_proportional_to_points",
    "LibSub.C75_unset"
   ],
   "note": ""
  },
  {
   "property": "C76",
   "status": "proved",
   "theorems": [
    "LibSub.C76_effect",
    "LibSub.C76_vertical_reference"
   ],
   "note": ""
  },
  {
   "property": "C77",
   "status": "proved",
   "theorems": [
    "LibSub.C77_white_space"
   ],
   "note": ""
  },
  {
   "property": "C78",
   "status": "proved",
   "theorems": [
    "LibSub.C78_composed",
    "LibSub.C78_marks"
   ],
   "note": ""
  },
  {
   "property": "C79",
   "status": "proved",
   "theorems": [
    "LibSub.C79_fixed",
    "LibSub.C79_times",
    "LibSub.C79_unknown",
    "LibSub.C79_swap",
    "LibSub.C79_order_witness",
    "LibSub.C79_table",
    "LibSub.C79_columns"
   ],
   "note": "C79_table and C79_columns: the same for whole files, with the Format line and all dialogues changed together."
  },
  {
   "property": "C80",
   "status": "partial",
   "theorems": [
    "LibSub.C80_false",
    "LibSub.C80_rows_partial",
    "LibSub.C80_file_witness"
   ],
   "note": "False for rows 7 and 14 (C80_false, C80_file_witness); C80_rows_partial proves the rest."
  },
  {
   "property": "C81",
   "status": "proved",
   "theorems": [
    "LibSub.C81_ordered",
    "LibSub.C81_any_order",
    "LibSub.C81_twice"
   ],
   "note": "C81_ordered: exact inverse for lists already in order; C81_any_order: any order, stable; C81_twice: collect is idempotent. Lines whose position does not equal itself (see C17) must have a single block."
  },
  {
   "property": "C82",
   "status": "proved",
   "theorems": [
    "LibSub.C82_subrip"
   ],
   "note": "Cues as in C23 (all tags the reader knows). Cues with the same start and end are merged by collect and not covered."
  },
  {
   "property": "C83",
   "status": "proved",
   "theorems": [
    "LibSub.C83_webvtt"
   ],
   "note": "Items as in C36. Cues with the same start and end are merged by collect and not covered."
  },
  {
   "property": "C84",
   "status": "partial",
   "theorems": [
    "LibSub.C84_stltext",
    "LibSub.C84_stl",
    "LibSub.C84_subrip_partial",
    "LibSub.C84_subrip_pairs_partial",
    "LibSub.C84_subrip_needs",
    "LibSub.C84_subrip_rates",
    "LibSub.C84_subrip_false",
    "LibSub.C84_webvtt_partial",
    "LibSub.C84_webvtt_pairs_partial",
    "LibSub.C84_webvtt_rates",
    "LibSub.C84_ssa_partial",
    "LibSub.C84_ssa_untimed",
    "LibSub.C84_ssa_false",
    "LibSub.C84_ms_exact",
    "LibSub.C84_subrip_exact",
    "LibSub.C84_webvtt_exact",
    "LibSub.C84_ssa_exact"
   ],
   "note": "Proved for STL text and binary STL. False of SubRip and SSA (C84_subrip_false, C84_ssa_false). For SubRip and WebVTT only overflow can occur (C84_subrip_rates, C84_webvtt_rates), and C84_subrip_exact and C84_webvtt_exact say exactly when: two starts with more than 2147483 milliseconds are in the same second, or two ends of subtitles with the same start that follow each other. C84_ms_exact is the same for any list. C84_ssa_exact is the exact condition for SSA: besides, all starts or none must have been read before the text, and so the ends of subtitles with the same start. C130 says which times are stored."
  },
  {
   "property": "C85",
   "status": "proved",
   "theorems": [
    "LibSub.C85_rewrite",
    "LibSub.C85_no_rows"
   ],
   "note": "Both cases: non-zero rows (C85_rewrite) and zero rows (C85_no_rows, division by zero, in C++ a conversion of infinity or NaN to int)."
  },
  {
   "property": "C86",
   "status": "proved",
   "theorems": [
    "LibSub.C86_stltext",
    "LibSub.C86_webvtt",
    "LibSub.C86_subrip",
    "LibSub.C86_subrip_plain",
    "LibSub.C86_ssa"
   ],
   "note": "C86_stltext, C86_webvtt, C86_subrip, C86_subrip_plain (no backslash), C86_ssa; each possible error has a witness beside the theorem. Binary STL: C63_errors. `.unmodelled` stands for the spellings of numbers that %f takes but the model does not (inf, nan). What the SubRip and WebVTT readers say they expected is one of srtExpected, vttExpected."
  },
  {
   "property": "C87",
   "status": "proved",
   "theorems": [
    "LibSub.C87_dialogues",
    "LibSub.C87_reorder",
    "LibSub.C87_ignored"
   ],
   "note": "C87_dialogues (iff), C87_reorder, C87_ignored. Lines as given to SSAReader::read by get_line."
  },
  {
   "property": "C88",
   "status": "proved",
   "theorems": [
    "LibSub.C88_runs",
    "LibSub.C88_lines"
   ],
   "note": "Pieces of text exclude braces, backslashes, CR and LF; backslash followed by another character is its own piece. The text is split from the event line by C47/C48. Unknown tags are any that begin like none of the known ones. \\c followed by something other than &Hbbggrr& is covered by C86."
  },
  {
   "property": "C89",
   "status": "proved",
   "theorems": [
    "LibSub.C89_exact",
    "LibSub.C89_pos",
    "LibSub.C89_margin_witness"
   ],
   "note": "C89_exact gives the value computed, C89_pos its distance from the ideal one. That the vertical margin is added to \\pos is what test/ssa_reader_test.cc expects (310/1080 for \\pos(400,300) with a margin of 10); C89_margin_witness shows it."
  },
  {
   "property": "C90",
   "status": "partial",
   "theorems": [
    "LibSub.C90_metadata_partial",
    "LibSub.C90_names",
    "LibSub.C90_utf8_witness"
   ],
   "note": "False for files with language group code U8, whose group is shown as \"Latin/Hebrew\" (C90_utf8_witness; the table gives U8 the enum of Hebrew, src/stl_binary_tables.cc:214). C90_metadata_partial: all entries otherwise; number fields are specified for fields of digits. C90_names: names distinct and in order."
  },
  {
   "property": "C91",
   "status": "proved",
   "theorems": [
    "LibSub.C91_lines",
    "LibSub.C91_text",
    "LibSub.C91_file"
   ],
   "note": "C91_lines for the lines, C91_text for a string in memory, C91_file for a file with lines of at most 253 characters (longer ones are cut by get_line_file, see C30).  Numbers are limited to what single precision holds exactly (2^24, resolution 2^23)."
  },
  {
   "property": "C92",
   "status": "proved",
   "theorems": [
    "LibSub.C92_subtitles"
   ],
   "note": "C92_subtitles.  Dialogues with tags that place text are covered up to the reader by C88 and C91."
  },
  {
   "property": "C93",
   "status": "proved",
   "theorems": [
    "LibSub.C93_ordered",
    "LibSub.C93_any_order",
    "LibSub.C93_blank_witness"
   ],
   "note": "C93_ordered and C93_any_order, for what the format can hold (Holds as in C57, and text on every line, without which a line is lost: C93_blank_witness). C66_block and C66_file now also say that pieces come in order of rows and only on rows that have ink."
  },
  {
   "property": "C94",
   "status": "partial",
   "theorems": [
    "LibSub.C94_bytes",
    "LibSub.C94_ascii_partial",
    "LibSub.C94_exact",
    "LibSub.C94_false"
   ],
   "note": "C94_false: two accented letters are counted as four characters. C94_bytes says what is counted; C94_exact that (for lines of at most 99 bytes) the field is right exactly when there are no lines or one of the lines with the most bytes is of ASCII characters only; C94_ascii_partial follows for ASCII text. Missing: the rest, of which the claim is false."
  },
  {
   "property": "C95",
   "status": "partial",
   "theorems": [
    "LibSub.C95_two_rows_partial",
    "LibSub.C95_three_witness",
    "LibSub.C95_false",
    "LibSub.C95_all_partial"
   ],
   "note": "C95_false: the second and third line of a subtitle of three lines are merged (C95_three_witness). C95_all_partial says of every file with pairwise different times what it comes to: a run belongs to the line with the number of | since the last text (also of an earlier subtitle), and neighbouring runs with the same number are one line. C95_two_rows_partial: this is as claimed if each subtitle has one line of any number of runs and at most one further line, of one run."
  },
  {
   "property": "C96",
   "status": "proved",
   "theorems": [
    "LibSub.C96_reported",
    "LibSub.C96_accepted_iff",
    "LibSub.C96_undefined_iff",
    "LibSub.C96_exactly_one"
   ],
   "note": "Diagnosis, BadTimes, GoodTimes and HugeTimes are specified apart from the model; C96_exactly_one: exactly one of them applies and the report is unique."
  },
  {
   "property": "C97",
   "status": "partial",
   "theorems": [
    "LibSub.C97_decode_partial",
    "LibSub.C97_lost_witness",
    "LibSub.C97_false",
    "LibSub.C97_encode",
    "LibSub.C97_lost_encode_witness"
   ],
   "note": "C97_decode_partial: all text without A0 and without accent+space. C97_encode: all text over the code table except latinLost. Witnesses: C97_false, C97_lost_witness, C97_lost_encode_witness. The specification's table is that of glibc's ISO_6937 with the documented additions (A4, second readings of D0 and E2); g with acute/cedilla left out."
  },
  {
   "property": "C98",
   "status": "partial",
   "theorems": [
    "LibSub.C98_reported",
    "LibSub.C98_accepted_iff",
    "LibSub.C98_undefined_iff",
    "LibSub.C98_rejected_iff",
    "LibSub.C98_standard_partial",
    "LibSub.C98_settings_witness",
    "LibSub.C98_short_witness",
    "LibSub.C98_false"
   ],
   "note": "C98_accepted_iff, C98_reported and C98_undefined_iff settle every line, C98_rejected_iff the exception for every file. C98_standard_partial: standard time lines with hours and none or four settings are accepted. C98_false, C98_settings_witness, C98_short_witness: all others with a first time without hours or with another number of settings are rejected. Specification: single spaces between the words."
  },
  {
   "property": "C99",
   "status": "proved",
   "theorems": [
    "LibSub.C99_subrip",
    "LibSub.C99_vtt",
    "LibSub.C99_ssa",
    "LibSub.C99_stl_text"
   ],
   "note": "C99_subrip, C99_vtt, C99_ssa (string and FILE*), C99_stl_text. The cut is at a line end; a cut within a line may leave half a time line, which C96/C98 settle."
  },
  {
   "property": "C100",
   "status": "proved",
   "theorems": [
    "LibSub.C100_subrip",
    "LibSub.C100_subrip_all",
    "LibSub.C100_vtt",
    "LibSub.C100_vtt_all",
    "LibSub.C100_arrow_witness",
    "LibSub.C100_blank_witness"
   ],
   "note": "C100_subrip, C100_vtt (iff), C100_subrip_all, C100_vtt_all (any number of files). C100_blank_witness, C100_arrow_witness: the blank line and the header without arrow are needed."
  },
  {
   "property": "C101",
   "status": "proved",
   "theorems": [
    "LibSub.C101_number",
    "LibSub.C101_colour",
    "LibSub.C101_style",
    "LibSub.C101_count",
    "LibSub.C101_order"
   ],
   "note": "C101_style (iff), C101_count, C101_order, C101_number, C101_colour. Numbers that an int cannot hold are undefined behaviour of sscanf (not readable). An effect set by one BorderStyle column is not undone by a later one (example beside C101_style). Lines are split at commas; the text of the two lines after 'Format:'/'Style:' is what make receives (C47)."
  },
  {
   "property": "C102",
   "status": "partial",
   "theorems": [
    "LibSub.C102_subrip_partial",
    "LibSub.C102_subrip_nonneg",
    "LibSub.C102_webvtt",
    "LibSub.C102_stltext",
    "LibSub.C102_stl",
    "LibSub.C102_stl_within",
    "LibSub.C102_ssa",
    "LibSub.C102_ssa_partial",
    "LibSub.C102_subrip_false",
    "LibSub.C102_ssa_false"
   ],
   "note": "False for SubRip (C102_subrip_false: rgba(510,0,0,0) gives 2) and SSA (C102_ssa_false: a style without PrimaryColour is (255,255,255) on a scale to 1). Proved: SubRip without '(' (C102_subrip_partial) and never negative (C102_subrip_nonneg); SSA when every format line of styles names PrimaryColour (C102_ssa_partial), and otherwise within or exactly (255,255,255) (C102_ssa); binary STL (C102_stl, C102_stl_within), STL text (C102_stltext), WebVTT (C102_webvtt) in full."
  },
  {
   "property": "C103",
   "status": "partial",
   "theorems": [
    "LibSub.C103_block",
    "LibSub.C103_symm",
    "LibSub.C103_sound",
    "LibSub.C103_complete",
    "LibSub.C103_self",
    "LibSub.C103_mixed",
    "LibSub.C103_errors",
    "LibSub.C103_self_false"
   ],
   "note": "'Every subtitle is equal to itself' is false (C103_self_false: a line as its default constructor makes it is not equal to itself); C103_self says exactly which subtitles are (times comparable, every line placed), and C104_collected shows that this covers what readers report. The rest is proved: C103_block, C103_symm, C103_sound, C103_complete (tolerance up to 2^-30), C103_mixed, C103_errors. Floats are rationals: no NaN."
  },
  {
   "property": "C104",
   "status": "proved",
   "theorems": [
    "LibSub.C104_subrip",
    "LibSub.C104_webvtt",
    "LibSub.C104_stltext",
    "LibSub.C104_ssa",
    "LibSub.C104_stl",
    "LibSub.C104_collected"
   ],
   "note": "C104_subrip, C104_webvtt, C104_stltext, C104_ssa, C104_stl, C104_collected. Only the optional members are concerned; values are the subject of C39, C46, C65, C89."
  },
  {
   "property": "C105",
   "status": "proved",
   "theorems": [
    "LibSub.C105_marked",
    "LibSub.C105_dump",
    "LibSub.C105_tag_witness",
    "LibSub.C105_newline_witness"
   ],
   "note": "C105_marked, C105_dump (for any formatting of proportions that yields no separator, which C106_chars/showFloat_plain show of ostream << float); C105_tag_witness and C105_newline_witness show that the conditions on the text are needed."
  },
  {
   "property": "C106",
   "status": "proved",
   "theorems": [
    "LibSub.C106_nearest",
    "LibSub.C106_error",
    "LibSub.C106_chars",
    "LibSub.C106_fixed"
   ],
   "note": "C106_nearest, C106_error, C106_chars, C106_fixed, for showFloat, the model of ostream << float with default flags. Negative zero (written -0) is not in the model."
  },
  {
   "property": "C107",
   "status": "proved",
   "theorems": [
    "LibSub.C107_help",
    "LibSub.C107_usage",
    "LibSub.C107_no_file",
    "LibSub.C107_subrip",
    "LibSub.C107_failure_witness"
   ],
   "note": "C107_help, C107_usage, C107_no_file, C107_subrip; C107_failure_witness for the failures. getopt_long is modelled as in glibc without POSIXLY_CORRECT; a directory given as path and the wording on cerr are not modelled."
  },
  {
   "property": "C108",
   "status": "proved",
   "theorems": [
    "LibSub.C108_again",
    "LibSub.C108_ends_witness",
    "LibSub.C108_row_witness",
    "LibSub.C108_utf8_witness"
   ],
   "note": "C108_again; C108_ends_witness, C108_row_witness and C108_utf8_witness show that the conditions are needed."
  },
  {
   "property": "C109",
   "status": "proved",
   "theorems": [
    "LibSub.C109_subrip",
    "LibSub.C109_subrip_whole",
    "LibSub.C109_subrip_tells",
    "LibSub.C109_nul_witness",
    "LibSub.C109_programming",
    "LibSub.C109_webvtt",
    "LibSub.C109_webvtt_tells",
    "LibSub.C109_webvtt_header",
    "LibSub.C109_composed"
   ],
   "note": "C109_subrip, C109_subrip_whole, C109_subrip_tells, C109_webvtt, C109_webvtt_tells, C109_webvtt_header, C109_programming; C109_composed: the messages the model writes out are what String::compose gives; C109_nul_witness: a NUL ends the message. Of a ProgrammingError raised in the model the place is not kept."
  },
  {
   "property": "C110",
   "status": "proved",
   "theorems": [
    "LibSub.C110_reports",
    "LibSub.C110_unique",
    "LibSub.C110_ignored",
    "LibSub.C110_silent",
    "LibSub.C110_error",
    "LibSub.C110_dumpsubs",
    "LibSub.C110_blank_witness",
    "LibSub.C110_dumpsubs_binary"
   ],
   "note": "C110_reports, C110_unique, C110_ignored, C110_silent, C110_dumpsubs, C110_dumpsubs_binary; C110_blank_witness: an empty line is reported. C110_error: files that cannot be read."
  },
  {
   "property": "C111",
   "status": "proved",
   "theorems": [
    "LibSub.C111_writes",
    "LibSub.C111_reads",
    "LibSub.C111_order",
    "LibSub.C111_exchange",
    "LibSub.C111_serial",
    "LibSub.C111_scheduled",
    "LibSub.C111_inOrder",
    "LibSub.C111_races",
    "LibSub.C111_results",
    "LibSub.C111_safe",
    "LibSub.C111_first",
    "LibSub.C111_alone",
    "LibSub.C111_ends",
    "LibSub.C111_box_witness"
   ],
   "note": "C111_races, C111_results, C111_safe, C111_first, C111_alone (the steps are those of the sequential model), C111_ends; C111_writes and C111_reads: the accesses recorded for a step are all that it makes; C111_exchange: steps without conflicting accesses can be exchanged; C111_serial: a run without a race is like one with the threads one after another (C111_scheduled, C111_order, C111_inOrder). C111_box_witness: decoding the teletext code 0B writes to the global table, so it races with any other conversion. Whole steps are atomic in the model, which is sound for runs without races only; arguments are texts (no accent without a table: C53_ub_iff; no U+0000 to encode: C54_nul_witness)."
  },
  {
   "property": "C112",
   "status": "proved",
   "theorems": [
    "LibSub.C112_conversion",
    "LibSub.C112_close_witness",
    "LibSub.C112_merge_witness"
   ],
   "note": "C112_conversion. The conditions are sharp in kind: C112_close_witness (lines less than a row apart run together), C112_merge_witness (dialogues less than a frame apart become one subtitle if collected again), C57_long_witness (text for two blocks)."
  },
  {
   "property": "C113",
   "status": "proved",
   "theorems": [
    "LibSub.C113_action",
    "LibSub.C113_process",
    "LibSub.C113_nul_witness"
   ],
   "note": "C113_action, C113_process. The exception is needed: C113_nul_witness (text with a NUL byte comes out differently after a file with a no-break space was read)."
  },
  {
   "property": "C114",
   "status": "proved",
   "theorems": [
    "LibSub.C114_safe",
    "LibSub.C114_results",
    "LibSub.C114_races",
    "LibSub.C114_first",
    "LibSub.C114_ends",
    "LibSub.C114_space_witness"
   ],
   "note": "C114_safe, C114_results (as by a process of its own), C114_races (exactly when), C114_first, C114_ends; C114_space_witness."
  },
  {
   "property": "C115",
   "status": "proved",
   "theorems": [
    "LibSub.C115_exact",
    "LibSub.C115_unique",
    "LibSub.C115_string",
    "LibSub.C115_file"
   ],
   "note": "C115_exact (both directions), C115_unique, C115_string, C115_file. Uses C21 for the value of a time stamp."
  },
  {
   "property": "C116",
   "status": "proved",
   "theorems": [
    "LibSub.C116_font",
    "LibSub.C116_written_unique",
    "LibSub.C116_line",
    "LibSub.C116_exact",
    "LibSub.C116_unique",
    "LibSub.C116_string",
    "LibSub.C116_file"
   ],
   "note": "C116_exact (both directions), C116_unique, C116_string, C116_file; C116_line for one line, C116_font for the colour of a font tag, C116_written_unique for what a line consists of. What a single override tag does is the declarative relation of C117."
  },
  {
   "property": "C117",
   "status": "proved",
   "theorems": [
    "LibSub.C117_float",
    "LibSub.C117_int",
    "LibSub.C117_hex",
    "LibSub.C117_line",
    "LibSub.C117_tag"
   ],
   "note": "C117_line (both directions) for lines, C117_tag for tags, C117_float, C117_int, C117_hex for numbers. Floats are rationals rounded as in the rest of the model; values outside 2^-90..2^90 are outside it."
  },
  {
   "property": "C118",
   "status": "proved",
   "theorems": [
    "LibSub.C118_time",
    "LibSub.C118_colour",
    "LibSub.C118_style",
    "LibSub.C118_dialogue",
    "LibSub.C118_exact",
    "LibSub.C118_string",
    "LibSub.C118_file",
    "LibSub.C118_unique",
    "LibSub.C118_clean"
   ],
   "note": "C118_exact (both directions), C118_unique, C118_string, C118_file for files; C118_dialogue for a line of dialogue, C118_style for a style line, C118_time, C118_colour, C118_clean for their parts."
  },
  {
   "property": "C119",
   "status": "proved",
   "theorems": [
    "LibSub.C119_exact",
    "LibSub.C119_unique"
   ],
   "note": "C119_exact (both directions), C119_unique."
  },
  {
   "property": "C120",
   "status": "proved",
   "theorems": [
    "LibSub.C120_exact",
    "LibSub.C120_unique"
   ],
   "note": "C120_exact (both directions), C120_unique. IsoText is the specification of C53."
  },
  {
   "property": "C121",
   "status": "proved",
   "theorems": [
    "LibSub.C121_succeeds",
    "LibSub.C121_sound",
    "LibSub.C121_exact"
   ],
   "note": "C121_exact (both directions), C121_succeeds. Equality of times and heights is that of the library (C02, C03, C17)."
  },
  {
   "property": "C122",
   "status": "proved",
   "theorems": [
    "LibSub.C122_sound",
    "LibSub.C122_exact",
    "LibSub.C122_failed"
   ],
   "note": "C122_exact (both directions), C122_sound (without the assumption on SubRip times), C122_failed. Numbers with fractions are written as C106 says (showFloat). The getopt rules are those of C107 (Operands). The file system is a function from paths to what they lead to."
  },
  {
   "property": "C123",
   "status": "proved",
   "theorems": [
    "LibSub.C123_chars",
    "LibSub.C123_text",
    "LibSub.C123_subtitle",
    "LibSub.C123_subtitles",
    "LibSub.C123_exact",
    "LibSub.C123_unique"
   ],
   "note": "C123_exact, C123_subtitle (no hypotheses), C123_chars and C123_text (the two conversions, for all byte strings), C123_unique. UTF-8 is that of the Lean core library (String.utf8EncodeChar). Roundings to float and double are those of f32 and f64, described by the lemmas in Lemmas/Float.lean. UTF-8 conversion is that of Boost.Locale as modelled in Model/Utf8.lean."
  },
  {
   "property": "C124",
   "status": "proved",
   "theorems": [
    "LibSub.C124_readable",
    "LibSub.C124_again"
   ],
   "note": "C124_readable and C124_again. Subtitles beyond the first 99999 blocks are lost (firstFive; see C56_overflow_witness)."
  },
  {
   "property": "C125",
   "status": "proved",
   "theorems": [
    "LibSub.C125_rounding",
    "LibSub.C125_frames",
    "LibSub.C125_seconds",
    "LibSub.C125_from_frames",
    "LibSub.C125_add",
    "LibSub.C125_scale"
   ],
   "note": "C125_rounding characterises f32 and f64 without their definition; C125_frames, C125_seconds, C125_from_frames, C125_add, C125_scale are equivalences. Exponents are unbounded in the model (no infinities, no subnormal numbers)."
  },
  {
   "property": "C126",
   "status": "proved",
   "theorems": [
    "LibSub.C126_rounding",
    "LibSub.C126_time",
    "LibSub.C126_ssa_string",
    "LibSub.C126_ssa_file",
    "LibSub.C126_subrip",
    "LibSub.C126_positions"
   ],
   "note": "Model/Ieee.lean repeats the floating-point functions with limits; C126_rounding characterises its rounding. Numbers in SSA text outside 2^-90..2^90 are not covered by the main model (unmodelled), so nothing is said there."
  },
  {
   "property": "C127",
   "status": "proved",
   "theorems": [
    "LibSub.C127_subrip",
    "LibSub.C127_webvtt",
    "LibSub.C127_ssa",
    "LibSub.C127_stl_text",
    "LibSub.C127_stl_binary",
    "LibSub.C127_fonts"
   ],
   "note": "Relates only bytes: which bytes are left out is the subject of the exact theorems C115-C120."
  },
  {
   "property": "C128",
   "status": "proved",
   "theorems": [
    "LibSub.C128_add",
    "LibSub.C128_scale",
    "LibSub.C128_equal_witness",
    "LibSub.C128_distance"
   ],
   "note": "C128_equal_witness: order is kept, but not strictly. For times at one rate (operator< does not order times of different rates by instants, C03_false)."
  },
  {
   "property": "C129",
   "status": "proved",
   "theorems": [
    "LibSub.C129_collect",
    "LibSub.C129_seconds",
    "LibSub.C129_add",
    "LibSub.C129_add_witness"
   ],
   "note": "C129_add_witness: adding nothing at all to times a millisecond apart merges two subtitles."
  },
  {
   "property": "C130",
   "status": "proved",
   "theorems": [
    "LibSub.C130_subrip_times",
    "LibSub.C130_webvtt_times",
    "LibSub.C130_subrip_digits",
    "LibSub.C130_webvtt_digits",
    "LibSub.C130_ssa_times",
    "LibSub.C130_ssa_digits"
   ],
   "note": "Makes the conditions of C84 ones that can be seen in the file. Beside the theorems: files with one digit more that cannot be collected, and an SSA file with the text first."
  },
  {
   "property": "C131",
   "status": "proved",
   "theorems": [
    "LibSub.C131_write",
    "LibSub.C131_throws",
    "LibSub.C131_leak",
    "LibSub.C131_files",
    "LibSub.C131_exhausted"
   ],
   "note": "Part of the property is a defect: leaks on exceptions. Each use of new is taken to return a pointer not used before. Failure of new and of the output stream is not modelled; undefined behaviour of a reader is counted as an exception in C131_files."
  },
  {
   "property": "C132",
   "status": "proved",
   "theorems": [
    "LibSub.C132_same",
    "LibSub.C132_tags",
    "LibSub.C132_arrow"
   ],
   "note": "C132_tags and C132_arrow are witnesses that the conditions on tags and on the arrow are needed."
  },
  {
   "property": "C133",
   "status": "proved",
   "theorems": [
    "LibSub.C133_line",
    "LibSub.C133_subrip",
    "LibSub.C133_subrip_means",
    "LibSub.C133_tag",
    "LibSub.C133_font",
    "LibSub.C133_vtt"
   ],
   "note": "C133_subrip, C133_vtt (both directions), C133_subrip_means (a file has a meaning, as in C116, unless it fails so), C133_line for a line of text, C133_tag and C133_font for tags. Numbers outside the range of the float model are failures of the model (unmodelled) and described as such."
  },
  {
   "property": "C134",
   "status": "proved",
   "theorems": [
    "LibSub.C134_text",
    "LibSub.C134_stamp",
    "LibSub.C134_dialogue",
    "LibSub.C134_style",
    "LibSub.C134_ssa",
    "LibSub.C134_stl_text"
   ],
   "note": "C134_stl_text and C134_ssa (both directions), C134_dialogue, C134_style, C134_stamp and C134_text for the parts of an SSA file. A screen side of zero makes the C++ compute an infinity or NaN, which the model reports as the failure nonFinite (what the C++ then does is C137); floats outside the model are unmodelled; both are described as such."
  },
  {
   "property": "C135",
   "status": "proved",
   "theorems": [
    "LibSub.C135_stl"
   ],
   "note": "C135_stl: both directions. The undefined behaviour is the null dereference in the ISO 6937 decoder described by BadBlock (C63)."
  },
  {
   "property": "C136",
   "status": "proved",
   "theorems": [
    "LibSub.C136_row",
    "LibSub.C136_time",
    "LibSub.C136_subtitle",
    "LibSub.C136_write"
   ],
   "note": "C136_write, C136_subtitle (both directions), C136_row, C136_time. Division by zero gives an infinity or NaN in C++ which is then converted to int; the model reports it as nonFinite."
  },
  {
   "property": "C137",
   "status": "proved",
   "theorems": [
    "LibSub.C137_agree",
    "LibSub.C137_text",
    "LibSub.C137_sizes",
    "LibSub.C137_no_size",
    "LibSub.C137_reads",
    "LibSub.C137_ratio",
    "LibSub.C137_nowhere",
    "LibSub.C137_witness",
    "LibSub.C137_add",
    "LibSub.C137_sub",
    "LibSub.C137_mul",
    "LibSub.C137_div"
   ],
   "note": "C137_agree, C137_reads, C137_text, C137_sizes, C137_no_size, C137_ratio, C137_nowhere; C137_add, C137_sub, C137_mul, C137_div: arithmetic with infinities is the limit of that of numbers, and NaN exactly where there is none; C137_witness is a file whose subtitle has the position NaN. IEEE 754 in full except for the sign of zero. That \"infi\" and the like which are not \"infinity\" give 0 is what glibc does. Collecting such subtitles: C139."
  },
  {
   "property": "C138",
   "status": "proved",
   "theorems": [
    "LibSub.C138_agree",
    "LibSub.C138_reads",
    "LibSub.C138_witness"
   ],
   "note": "C138_agree, C138_reads; C138_witness has a file of each kind. IEEE 754 in full except for the sign of zero."
  },
  {
   "property": "C139",
   "status": "proved",
   "theorems": [
    "LibSub.C139_agree",
    "LibSub.C139_pieces",
    "LibSub.C139_own_line",
    "LibSub.C139_ssa",
    "LibSub.C139_witness"
   ],
   "note": "C139_pieces, C139_own_line, C139_ssa, C139_agree; C139_witness is the file of the statement with both screens."
  },
  {
   "property": "C140",
   "status": "proved",
   "theorems": [
    "LibSub.C140_ssa",
    "LibSub.C140_ssa_file",
    "LibSub.C140_subrip",
    "LibSub.C140_subrip_file",
    "LibSub.C140_usual",
    "LibSub.C140_write",
    "LibSub.C140_witness"
   ],
   "note": "C140_ssa, C140_ssa_file, C140_subrip, C140_subrip_file under the line conditions SsaLineSafe and SrtLineSafe; C140_usual: enough that the file has no \\\\fs and no MarginV at the end of a line; C140_write; C140_witness: the exceptions happen. The C library's locale only: the C++ global locale (streams, is_any_of) is taken to be classic. The other readers do not use raw_convert."
  },
  {
   "property": "C141",
   "status": "proved",
   "theorems": [
    "LibSub.C141_collect",
    "LibSub.C141_subrip",
    "LibSub.C141_together_witness",
    "LibSub.C141_vtt",
    "LibSub.C141_ssa",
    "LibSub.C141_stl"
   ],
   "note": "C141_collect, C141_subrip, C141_vtt, C141_ssa, C141_stl; C141_together_witness: with equal start times the order of the file shows."
  },
  {
   "property": "C142",
   "status": "proved",
   "theorems": [
    "LibSub.C142_select",
    "LibSub.C142_cut",
    "LibSub.C142_reels",
    "LibSub.C142_subrip",
    "LibSub.C142_end_witness"
   ],
   "note": "C142_select, C142_cut, C142_reels, C142_subrip; C142_end_witness: choosing by when subtitles end is different."
  },
  {
   "property": "C143",
   "status": "proved",
   "theorems": [
    "LibSub.C143_thrown",
    "LibSub.C143_returns",
    "LibSub.C143_silent_witness",
    "LibSub.C143_cut_off",
    "LibSub.C143_noticed"
   ],
   "note": "C143_thrown, C143_returns, C143_silent_witness, C143_cut_off, C143_noticed."
  },
  {
   "property": "C144",
   "status": "proved",
   "theorems": [
    "LibSub.C144_tables",
    "LibSub.C144_find",
    "LibSub.C144_generates",
    "LibSub.C144_line_ends",
    "LibSub.C144_stops"
   ],
   "note": "C144_tables, C144_find, C144_generates, C144_line_ends, C144_stops."
  },
  {
   "property": "C145",
   "status": "proved",
   "theorems": [
    "LibSub.C145_sound",
    "LibSub.C145_complete",
    "LibSub.C145_colour",
    "LibSub.C145_lines",
    "LibSub.C145_steps"
   ],
   "note": "C145_sound, C145_complete (any expression), C145_colour, C145_lines; C145_steps: a search takes at most 69 (n+1)² steps, n being the length of the tag. Boost counts steps in its own way and gives up after a large number of them: that limit is not modelled."
  },
  {
   "property": "C146",
   "status": "proved",
   "theorems": [
    "LibSub.C146_exact",
    "LibSub.C146_outcome",
    "LibSub.C146_agree",
    "LibSub.C146_row_agree",
    "LibSub.C146_row",
    "LibSub.C146_undefined",
    "LibSub.C146_write_agree",
    "LibSub.C146_unwritten",
    "LibSub.C146_ssa",
    "LibSub.C146_witness"
   ],
   "note": "C146_exact, C146_outcome, C146_agree (dump); C146_row, C146_row_agree, C146_undefined, C146_unwritten, C146_ssa, C146_write_agree (writer); C146_witness: a SubRip file that is shown with -inf and nan, and an SSA file whose screen has height 0, which cannot be written. The sign of NaN is not modelled (the program may print -nan), nor negative zero. The frame rate stays a finite number."
  },
  {
   "property": "C147",
   "status": "proved",
   "theorems": [
    "LibSub.C147_order",
    "LibSub.C147_apart",
    "LibSub.C147_read",
    "LibSub.C147_duration",
    "LibSub.C147_frame_witness"
   ],
   "note": "C147_order, C147_apart (codes of any two times of subtitles), C147_read, C147_duration (the file read again); C147_frame_witness: 60 ms and 100 ms are both frame 2 at 25 frames per second, so exactly a frame is not enough. The order in the model is that of instants, not operator<, which is wrong between rates (C03)."
  },
  {
   "property": "C148",
   "status": "proved",
   "theorems": [
    "LibSub.C148_subrip",
    "LibSub.C148_webvtt",
    "LibSub.C148_blank_witness"
   ],
   "note": "C148_subrip, C148_webvtt; C148_blank_witness: without the blank line the next cue becomes text of the first. Tags are the same if the characters and tags of the lines are the same; arguments of font and SSA tags are not compared by meaning."
  },
  {
   "property": "C149",
   "status": "proved",
   "theorems": [
    "LibSub.C149_alike",
    "LibSub.C149_header",
    "LibSub.C149_matters_witness"
   ],
   "note": "C149_alike (equality of results, errors and undefined behaviour included), C149_header; C149_matters_witness: alignment 1 and 2 differ, and 8A after 8F begins a row. Bytes 0 to 2, 12, 13, 238 to 254, 272 and 273 are numbers or the language group, where different bytes may mean the same (C90, C120)."
  },
  {
   "property": "C150",
   "status": "proved",
   "theorems": [
    "LibSub.C150_sign",
    "LibSub.C150_reading",
    "LibSub.C150_collect",
    "LibSub.C150_output",
    "LibSub.C150_no_minus",
    "LibSub.C150_witness",
    "LibSub.C150_last_tag",
    "LibSub.C150_value",
    "LibSub.C150_line"
   ],
   "note": "C150_sign (exact), C150_reading, C150_collect, C150_output, C150_no_minus, C150_last_tag, C150_value, C150_line; C150_witness shows both signs in the output. The sign of a horizontal position and of a font size is never printed."
  },
  {
   "property": "C151",
   "status": "proved",
   "theorems": [
    "LibSub.C151_ssa",
    "LibSub.C151_margin_witness",
    "LibSub.C151_stl"
   ],
   "note": "C151_ssa (equality of results, errors included), C151_stl; C151_margin_witness: margin 0 may not be written 00. The text of a dialogue may be changed as in C154."
  },
  {
   "property": "C152",
   "status": "proved",
   "theorems": [
    "LibSub.C152_whole",
    "LibSub.C152_whole_unique",
    "LibSub.C152_without",
    "LibSub.C152_read",
    "LibSub.C152_unnoticed",
    "LibSub.C152_dumpsubs",
    "LibSub.C152_witness"
   ],
   "note": "C152_read (equality with the shorter file, which C152_whole and C152_whole_unique show to exist and to be the only one), C152_unnoticed, C152_dumpsubs, C152_without; C152_witness: a subtitle is lost. The error is taken to be permanent. Binary STL and STL text files, which are read through a stream, are not part of this."
  },
  {
   "property": "C153",
   "status": "proved",
   "theorems": [
    "LibSub.C153_rgb",
    "LibSub.C153_rgba",
    "LibSub.C153_more",
    "LibSub.C153_same",
    "LibSub.C153_subrip",
    "LibSub.C153_witness"
   ],
   "note": "C153_rgb and C153_rgba (exact), C153_more, C153_same, C153_subrip; C153_witness: 0x1234."
  },
  {
   "property": "C154",
   "status": "proved",
   "theorems": [
    "LibSub.C154_tag",
    "LibSub.C154_text",
    "LibSub.C154_n_witness",
    "LibSub.C154_group_witness"
   ],
   "note": "C154_tag (one tag), C154_text (the whole text). C154_n_witness: a tag without effect that begins with n counts as a break and moves the text up, so the condition on the number of places is needed. C154_group_witness: an empty group inside a text divides it. C151_ssa uses this for the column Text."
  },
  {
   "property": "C155",
   "status": "proved",
   "theorems": [
    "LibSub.C155_styles",
    "LibSub.C155_last",
    "LibSub.C155_sides",
    "LibSub.C155_same_name_witness",
    "LibSub.C155_table",
    "LibSub.C155_columns",
    "LibSub.C155_columns_witness"
   ],
   "note": "C155_styles. C155_same_name_witness: the condition on the names is needed. C155_last: of two styles of the same name the last one counts. C155_sides: width and height in either order. C155_table and C155_columns: the columns of the styles may be in any order too; C155_columns_witness: only together with the format."
  }
 ]
}