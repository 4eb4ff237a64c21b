{"id": "C01", "title": "Time of day decomposes and recomposes", "statement": "A Time built from hours h, minutes m in 0..59 and seconds s in 0..59 (h >= 0, result fits in int) reports exactly hours()=h, minutes()=m, seconds()=s; and for every non-negative Time 3600*hours()+60*minutes()+seconds() is its whole-second count with minutes(), seconds() in 0..59. If the whole-second count does not fit in an int the call is undefined behaviour.", "quantifier": "all h, m, s, f, rates", "why_tests_cant": "Unbounded integer domain; tests sample two values.", "anchors": ["src/sub_time.cc:Time::hours", "src/sub_time.cc:Time::minutes", "src/sub_time.cc:Time::seconds", "src/sub_time.cc:Time::from_hmsf", "src/sub_time.cc:Time::from_hms"]}
{"id": "C02", "title": "Time comparison is a strict total preorder", "statement": "On times that all have a (positive) frame rate, or all have none, operator< is irreflexive and transitive, exactly one of a<b, a==b, a>b holds, a>b is b<a, a!=b is the negation of a==b, and == is an equivalence. (std::stable_sort in collect relies on it.)", "quantifier": "all pairs and triples of such times", "why_tests_cant": "Quantifies over triples from an unbounded domain.", "anchors": ["src/sub_time.cc:operator<", "src/sub_time.cc:operator>", "src/sub_time.cc:operator==", "src/sub_time.cc:operator!="]}
{"id": "C03", "title": "Time comparison agrees with the instants denoted", "statement": "For two times with frame rates, a<b holds iff the instant of a (whole seconds + frames/rate) is earlier than that of b, and a==b iff the instants are the same. Expected to hold at least when both have the same rate; the code multiplies where it should divide, so it is false across different rates.", "quantifier": "all pairs of normalised times with frame rates", "why_tests_cant": "Needs every pair of rates; the unit tests compare only equal rates.", "anchors": ["src/sub_time.cc:operator<", "src/sub_time.cc:operator=="]}
{"id": "C04", "title": "Unknown frame rates are reported, not guessed", "statement": "Comparing a time that has a frame rate with one that has none: == and != always throw UnknownFrameRateError; < and > throw it exactly when the whole seconds are equal, otherwise they order by whole seconds. Asking for frames_at/milliseconds/all_as_seconds of a time without a rate always throws it.", "quantifier": "all pairs of times, one with and one without rate", "why_tests_cant": "All pairs, including the branch order inside each operator.", "anchors": ["src/sub_time.cc:operator<", "src/sub_time.cc:operator==", "src/sub_time.cc:Time::frames_at", "src/sub_time.cc:Time::all_as_seconds"]}
{"id": "C05", "title": "from_frames conserves the frame count", "statement": "from_frames(f, rate) with an integer rate r=num/den>0 gives seconds*r+frames = f with |frames|<r and both of f's sign; a zero denominator or a non-integer rate raises ProgrammingError and nothing else.", "quantifier": "all f and rates", "why_tests_cant": "Unbounded integers and both signs.", "anchors": ["src/sub_time.cc:Time::from_frames", "src/rational.cc:Rational::integer"]}
{"id": "C06", "title": "Frame count at a time's own rate is exact", "statement": "frames_at(rate) on a time with that same rate returns its own frame number, and milliseconds() of a from_hms time returns its ms argument, despite the double arithmetic, for all frame numbers and rates whose product fits in an int.", "quantifier": "all frames and rates", "why_tests_cant": "Exactness of floating point for all values.", "anchors": ["src/sub_time.cc:Time::frames_at", "src/sub_time.cc:Time::milliseconds"]}
{"id": "C07", "title": "Frames survive a trip through milliseconds", "statement": "For every integer frame rate below 1000, converting a frame number to milliseconds and back to frames at that rate gives the original frame number.", "quantifier": "all frame numbers (int range) and all integer rates 1..999", "why_tests_cant": "Two rounded double divisions; all values.", "anchors": ["src/sub_time.cc:Time::frames_at", "src/sub_time.cc:Time::milliseconds"]}
{"id": "C08", "title": "Rate conversion error is at most half a frame", "statement": "frames_at(r) differs from the exact real-valued frame count by at most 1/2 (plus double rounding), and is monotone in the frame number. Consequently a normalised time can convert to frame number r itself (no carry into seconds): 999 ms at 25 fps gives 25.", "quantifier": "all frames, all source/target rates", "why_tests_cant": "Bound over all inputs; the carry case is not covered by any test.", "anchors": ["src/sub_time.cc:Time::frames_at"]}
{"id": "C09", "title": "Adding times", "statement": "add() makes the time the sum of the two durations, expressed at the faster of the two rates; it is commutative in value and adding a zero duration changes nothing. The code truncates a double, so the last claim is false (1.001 s + 0 = 1.000 s); what holds is that the result is never more than the exact sum and less than one frame below it (up to double rounding).", "quantifier": "all pairs of times with integer rates", "why_tests_cant": "Truncation of an inexact double fails only for particular values.", "anchors": ["src/sub_time.cc:Time::add", "src/rational.cc:max"]}
{"id": "C10", "title": "Scaling times", "statement": "scale(1) leaves a millisecond time unchanged; scale(f) yields seconds + frames/rate within half a frame of f times the duration, with 0 <= frames <= rate. The frame number may equal the rate (not normalised), e.g. 0.999 s scaled by a factor just above 1.", "quantifier": "all normalised times and float factors", "why_tests_cant": "Floating point over all inputs.", "anchors": ["src/sub_time.cc:Time::scale"]}
{"id": "C11", "title": "Printed time format", "statement": "Streaming a time prints hours, minutes and seconds each zero-padded to at least two digits separated by colons, then the frame number, then ' @ num/den' iff a rate is known; printing is injective on non-negative times.", "quantifier": "all times", "why_tests_cant": "Injectivity quantifies over pairs.", "anchors": ["src/sub_time.cc:operator<<"]}
{"id": "C12", "title": "collect loses, invents and restyles nothing", "statement": "The sequence of blocks in collect's output, read in order, is exactly one block per raw subtitle, in from-time order (stable), each with the text, font, size, effect, colours and bold/italic/underline of its raw subtitle, and each inside a subtitle with the same from/to/fade times.", "quantifier": "all lists of raw subtitles with mutually comparable times", "why_tests_cant": "All lists, all orders.", "anchors": ["src/collect.h:collect", "src/subtitle.cc:Block::Block", "src/subtitle.cc:Subtitle::Subtitle"]}
{"id": "C13", "title": "collect output is ordered by start time", "statement": "Successive subtitles in collect's output have non-decreasing from times, and raw subtitles with equal from time keep their input order.", "quantifier": "all lists of raw subtitles", "why_tests_cant": "All lists.", "anchors": ["src/collect.h:collect", "src/raw_subtitle.cc:operator<"]}
{"id": "C14", "title": "collect groups maximally and never makes empty containers", "statement": "Every subtitle collect returns has at least one line and every line at least one block; two consecutive subtitles differ in from, to or a fade time; within a subtitle consecutive lines have different vertical positions; collect of the empty list is empty.", "quantifier": "all lists of raw subtitles", "why_tests_cant": "All lists.", "anchors": ["src/collect.h:collect", "src/subtitle.cc:Subtitle::same_metadata", "src/subtitle.cc:Line::same_metadata"]}
{"id": "C15", "title": "collect does not depend on input order of distinct start times", "statement": "If no two raw subtitles start at equal times, collect gives the same result for every permutation of its input.", "quantifier": "all lists and all their permutations", "why_tests_cant": "Factorially many orders.", "anchors": ["src/collect.h:collect"]}
{"id": "C16", "title": "collect refuses incomparable times", "statement": "If some raw subtitle has a frame rate and another has none, collect raises UnknownFrameRateError rather than returning a wrong grouping.", "quantifier": "all lists mixing rated and unrated times", "why_tests_cant": "All lists, any position of the offending element.", "anchors": ["src/collect.h:collect", "src/sub_time.cc:operator=="]}
{"id": "C17", "title": "Vertical position equality", "statement": "VerticalPosition == is symmetric; a position equals itself exactly when it has a reference and a proportion or line number. It is not transitive (a position with line but no line count equals positions with different line counts).", "quantifier": "all positions", "why_tests_cant": "All pairs/triples of optional fields.", "anchors": ["src/vertical_position.cc:VerticalPosition::operator=="]}
{"id": "C18", "title": "Vertical position order is top-to-bottom", "statement": "operator< orders positions by their distance from the top of the screen (proportional or line/lines, relative to top, centre or bottom), is a strict weak order, treats unspecified positions as top; evaluating it on a position that has a line but no line count is undefined behaviour.", "quantifier": "all pairs of positions", "why_tests_cant": "All values and the undefined case.", "anchors": ["src/vertical_position.cc:VerticalPosition::operator<", "src/vertical_position.cc:VerticalPosition::fraction_from_screen_top"]}
{"id": "C19", "title": "Horizontal position equality is a tolerance", "statement": "HorizontalPosition == is reflexive and symmetric, distinguishes references, and is not transitive.", "quantifier": "all positions", "why_tests_cant": "Tolerance relation over all values.", "anchors": ["src/horizontal_position.cc:HorizontalPosition::operator=="]}
{"id": "C20", "title": "Lines merged by collect keep each part's horizontal position", "statement": "A line's horizontal position is the one of every raw subtitle merged into it. False: only vertical position is compared, so the later parts' horizontal positions are lost.", "quantifier": "all lists of raw subtitles", "why_tests_cant": "All lists.", "anchors": ["src/subtitle.cc:Line::same_metadata", "src/collect.h:collect"]}
{"id": "C21", "title": "SubRip/WebVTT timestamps parse to the value written", "statement": "convert_time of h:m:s<sep>ms, each field any decimal int with any number of leading zeros, yields exactly from_hms(h,m,s,ms).", "quantifier": "all h, m, s, ms and paddings", "why_tests_cant": "Unbounded domain of strings.", "anchors": ["src/subrip_reader.cc:SubripReader::convert_time"]}
{"id": "C22", "title": "Malformed timestamps are rejected with a diagnosis", "statement": "convert_time returns a time only if its argument has exactly three ':' fields, the last with exactly one separator, all four parts being optionally signed decimal ints in range; otherwise it returns nothing and names the first offending part; it never throws.", "quantifier": "all strings", "why_tests_cant": "All strings.", "anchors": ["src/subrip_reader.cc:SubripReader::convert_time"]}
{"id": "C23", "title": "SubRip files round-trip", "statement": "Reading the SubRip text of any list of cues (non-blank counter, times, one or more non-empty lines of plain text) yields, in order, one raw subtitle per line with that text, the cue's from/to times and line numbers 0,1,2,... within the cue.", "quantifier": "all lists of cues, of any length and number of lines", "why_tests_cant": "All files.", "anchors": ["src/subrip_reader.cc:SubripReader::read"]}
{"id": "C24", "title": "SubRip inline style tags style exactly the text they enclose", "statement": "For any sequence of text runs and b/i/u tags (angle or brace form, any letter case), each emitted run carries exactly the bold/italic/underline flags in force at its text, and the texts concatenated equal the line without its tags.", "quantifier": "all sequences of runs and tags", "why_tests_cant": "All nestings and interleavings.", "anchors": ["src/subrip_reader.cc:SubripReader::convert_line"]}
{"id": "C25", "title": "SubRip font colours nest", "statement": "<font color=#rrggbb[aa]> and rgba(...) colour the text up to the matching </font>, after which the enclosing colour is restored. An unmatched </font> should be ignored; the code instead reads past an empty stack: undefined behaviour occurs iff some prefix of the line has more </font> than <font> tags.", "quantifier": "all lines of tags and text", "why_tests_cant": "All nestings; the undefined behaviour may not show in a test.", "anchors": ["src/subrip_reader.cc:SubripReader::convert_line"]}
{"id": "C26", "title": "SubRip style scope", "statement": "Style set by tags persists to later lines of the same subtitle and never leaks into the next subtitle.", "quantifier": "all files", "why_tests_cant": "All histories of tags.", "anchors": ["src/subrip_reader.cc:SubripReader::read"]}
{"id": "C27", "title": "SubRip and SSA never emit empty text", "statement": "Every raw subtitle produced by the SubRip, SSA and STL-text readers has non-empty text.", "quantifier": "all inputs on which the reader returns", "why_tests_cant": "All inputs.", "anchors": ["src/subrip_reader.cc:SubripReader::maybe_content", "src/ssa_reader.cc:SSAReader::parse_line", "src/stl_text_reader.cc:STLTextReader::maybe_push"]}
{"id": "C28", "title": "SubRip errors point at the offending line", "statement": "When a SubRip file is rejected, the reported line number is the 1-based number of the line that could not be parsed, the error context contains that line and at most the 4 lines before and 2 after it, and no line before it is at fault.", "quantifier": "all inputs", "why_tests_cant": "All positions of the error.", "anchors": ["src/subrip_reader.cc:SubripReader::read", "src/exceptions.cc:SubripError::SubripError"]}
{"id": "C29", "title": "Line endings and byte order marks do not matter", "statement": "A SubRip or WebVTT file read with LF or CRLF line endings, with or without a leading UTF-8 byte order mark, gives the same subtitles; so does an SSA file, if no white space follows the byte order mark.", "quantifier": "all files", "why_tests_cant": "All inputs.", "anchors": ["src/subrip_reader.cc:SubripReader::read", "src/util.cc:remove_unicode_bom"]}
{"id": "C30", "title": "Reading from FILE* and from string agree", "statement": "A reader constructed from a FILE* gives the same result as one constructed from a string with the same contents. True if no line exceeds 254 bytes and there are no NUL bytes; false otherwise because lines are read in 255-byte pieces.", "quantifier": "all file contents", "why_tests_cant": "Needs lines at the buffer boundary.", "anchors": ["src/util.cc:get_line_file", "src/util.cc:get_line_string"]}
{"id": "C31", "title": "Unicode line separators act as line breaks", "statement": "In SubRip and WebVTT text U+2028 separates lines: the parts become separate raw subtitles with consecutive line numbers, exactly as if written on separate lines.", "quantifier": "all lines", "why_tests_cant": "All inputs.", "anchors": ["src/subrip_reader.cc:SubripReader::read", "src/web_vtt_reader.cc:WebVTTReader::read"]}
{"id": "C32", "title": "SubRip strips right-to-left embedding marks", "statement": "No text emitted by the SubRip reader contains U+202B. True for lines without tags; false when a tag follows the mark.", "quantifier": "all lines", "why_tests_cant": "All inputs.", "anchors": ["src/subrip_reader.cc:SubripReader::convert_line"]}
{"id": "C33", "title": "SubRip plain text is passed through verbatim", "statement": "A non-empty subtitle line containing neither '<' nor '{' (nor U+202B/U+2028) becomes exactly one raw subtitle with exactly that text and default style.", "quantifier": "all such lines", "why_tests_cant": "All inputs.", "anchors": ["src/subrip_reader.cc:SubripReader::convert_line"]}
{"id": "C34", "title": "Embedded SSA override tags affect only following text (SubRip)", "statement": "A {\\...} tag in a SubRip line changes the style of the text after it only. False: text before the tag in the same run is restyled because it is not flushed.", "quantifier": "all lines", "why_tests_cant": "All inputs.", "anchors": ["src/subrip_reader.cc:SubripReader::convert_line", "src/ssa_reader.cc:SSAReader::parse_tag"]}
{"id": "C35", "title": "WebVTT files need their header", "statement": "Reading succeeds only if the first line starts with WEBVTT (after an optional BOM); otherwise WebVTTHeaderError is thrown and nothing else is looked at. An empty input gives no subtitles.", "quantifier": "all inputs", "why_tests_cant": "All inputs.", "anchors": ["src/web_vtt_reader.cc:WebVTTReader::read"]}
{"id": "C36", "title": "WebVTT files round-trip", "statement": "Reading the WebVTT text of any list of notes and cues yields, in order, one raw subtitle per cue line with its text, times and line number; notes, identifiers and other metadata contribute nothing.", "quantifier": "all lists of notes and cues", "why_tests_cant": "All files.", "anchors": ["src/web_vtt_reader.cc:WebVTTReader::read"]}
{"id": "C37", "title": "STL text lines round-trip", "statement": "A line 'h:m:s:f , h:m:s:f , text' (separated by space-comma-space) in a textual STL file produces the written from and to times and the text split at '|' and at style toggles.", "quantifier": "all times and texts", "why_tests_cant": "All inputs.", "anchors": ["src/stl_text_reader.cc:STLTextReader::STLTextReader", "src/stl_text_reader.cc:STLTextReader::time"]}
{"id": "C38", "title": "STL text: spacing around the first comma is insignificant", "statement": "The from time is read completely whether or not a space precedes the comma. False: the byte before the comma is always discarded, so the last digit of the frame is lost.", "quantifier": "all lines", "why_tests_cant": "All inputs.", "anchors": ["src/stl_text_reader.cc:STLTextReader::STLTextReader"]}
{"id": "C39", "title": "STL text: line numbers count the | separators", "statement": "Each part of a subtitle has as line number the number of '|' before it in that subtitle. True for at most one '|' without toggles; false for a third line, after a toggle, and in the subtitle following a trailing '|'.", "quantifier": "all subtitle texts and sequences of them", "why_tests_cant": "All histories.", "anchors": ["src/stl_text_reader.cc:STLTextReader::maybe_push"]}
{"id": "C40", "title": "STL text: ^B ^I ^U toggle, $ variables set", "statement": "Each part's bold/italic/underline equals the value last set by a $ variable xor the parity of the toggles since; font name and size are the last set ones; comments (//) change nothing.", "quantifier": "all files", "why_tests_cant": "All histories.", "anchors": ["src/stl_text_reader.cc:STLTextReader::set", "src/stl_text_reader.cc:STLTextReader::STLTextReader"]}
{"id": "C41", "title": "STL text: every line of the file is read", "statement": "The last line of a textual STL file is read even if it has no newline at its end. False: it is dropped.", "quantifier": "all files", "why_tests_cant": "All inputs.", "anchors": ["src/stl_text_reader.cc:STLTextReader::STLTextReader"]}
{"id": "C42", "title": "SSA timestamps", "statement": "parse_time of h:m:s.cc gives from_hms(h, m, s, 10*cc) for all non-negative in-range fields; any other number of fields raises ProgrammingError.", "quantifier": "all times", "why_tests_cant": "All values.", "anchors": ["src/ssa_reader.cc:SSAReader::parse_time"]}
{"id": "C43", "title": "SSA dialogue text may contain commas", "statement": "With n format fields, the n-th (last) field of a Dialogue line is everything after the (n-1)-th comma, unchanged but for surrounding white space.", "quantifier": "all dialogue lines", "why_tests_cant": "All inputs.", "anchors": ["src/ssa_reader.cc:SSAReader::read"]}
{"id": "C44", "title": "SSA text is preserved", "statement": "The texts emitted for a dialogue line, concatenated, are exactly the characters outside {...} blocks and backslash escapes, in order, without CR/LF; override tags never leak into text.", "quantifier": "all dialogue lines", "why_tests_cant": "All inputs.", "anchors": ["src/ssa_reader.cc:SSAReader::parse_line"]}
{"id": "C45", "title": "SSA alignment tags form the numeric-keypad grid", "statement": "\\anK for K=1..9 sets the vertical reference to bottom/centre/top by row and the horizontal reference to left/centre/right by column, and the horizontal offset from the corresponding margin, for both \\an tags and style Alignment.", "quantifier": "all K, margins, resolutions", "why_tests_cant": "All margins and resolutions.", "anchors": ["src/ssa_reader.cc:SSAReader::parse_tag", "src/ssa_reader.cc:Style::Style", "src/ssa_reader.cc:Context::update_horizontal_position"]}
{"id": "C46", "title": "SSA lines are stacked one line height apart", "statement": "In a dialogue of n lines separated by \\N, the k-th line (k from 0) is at margin+(n-1-k)*h from the bottom, margin+k*h from the top, or k*h-n*h/2 from the centre, h being 1.2 times the font size; so the last line of a bottom-aligned subtitle sits on the margin.", "quantifier": "all numbers of lines, margins, font sizes", "why_tests_cant": "All n.", "anchors": ["src/ssa_reader.cc:SSAReader::parse_line"]}
{"id": "C47", "title": "SSA style lookup", "statement": "A dialogue uses the style it names (ignoring leading asterisks), or Default if that is undefined, or no style; the last definition of a style name wins.", "quantifier": "all style sections and names", "why_tests_cant": "All histories of definitions.", "anchors": ["src/ssa_reader.cc:SSAReader::read"]}
{"id": "C48", "title": "SSA colours", "statement": "&Hbbggrr / &Haabbggrr and decimal colours give red, green, blue components rr/255, gg/255, bb/255, always within [0,1]; a \\c tag not of that form raises SSAError.", "quantifier": "all 2^32 colours and all strings", "why_tests_cant": "All values.", "anchors": ["src/ssa_reader.cc:h_colour", "src/ssa_reader.cc:Style::colour"]}
{"id": "C49", "title": "Unknown SSA override tags are ignored", "statement": "An override tag the reader does not implement changes nothing and is not an error. False for tags that share a prefix with an implemented one: \\clip raises SSAError, \\fscx sets the font size to zero.", "quantifier": "all tags", "why_tests_cant": "All strings.", "anchors": ["src/ssa_reader.cc:SSAReader::parse_tag"]}
{"id": "C50", "title": "ISO 6937 round-trips every character it can represent", "statement": "Decoding the ISO 6937 encoding of any string over the representable characters (the whole main table except lone combining marks, and all accented letters) gives the string back.", "quantifier": "all strings over the character set", "why_tests_cant": "All strings; adjacency of characters.", "anchors": ["src/iso6937.cc:utf16_to_iso6937", "src/iso6937.cc:iso6937_to_utf16", "src/iso6937_tables.cc:make_iso6937_tables"]}
{"id": "C51", "title": "Encoded text can never contain STL control codes", "statement": "No byte produced by utf16_to_iso6937 lies in 00-07 or 80-8F, so subtitle text cannot inject line breaks, style codes or end-of-text into a binary STL file.", "quantifier": "all wide strings, including unrepresentable characters", "why_tests_cant": "All strings.", "anchors": ["src/iso6937.cc:utf16_to_iso6937"]}
{"id": "C52", "title": "Unrepresentable characters degrade predictably", "statement": "The low quote, dashes, hyphens and prime are replaced by their documented substitutes and every other unrepresentable character is dropped without affecting its neighbours: encoding a concatenation is the concatenation of encodings.", "quantifier": "all wide strings", "why_tests_cant": "All strings.", "anchors": ["src/iso6937.cc:utf16_to_iso6937"]}
{"id": "C53", "title": "ISO 6937 decoding is total", "statement": "Decoding never fails, whatever the bytes. False: C9 or CC followed by another byte dereferences a null pointer; this is the only failure.", "quantifier": "all byte strings", "why_tests_cant": "All strings.", "anchors": ["src/iso6937.cc:iso6937_to_utf16"]}
{"id": "C54", "title": "ISO 6937 conversions do not depend on earlier calls", "statement": "The result of decoding or encoding a string is the same whatever was converted before in the process. (Decoding inserts entries for unknown bytes into the shared table; only the encoding of U+0000 can change.)", "quantifier": "all histories of calls", "why_tests_cant": "All call histories.", "anchors": ["src/iso6937.cc:iso6937_to_utf16", "src/iso6937.cc:utf16_to_iso6937"]}
{"id": "C55", "title": "Binary STL files have the specified layout", "statement": "write_stl_binary produces exactly 1024 + 128*n bytes, n being the number of text blocks, and each header field occupies exactly its specified byte range with its specified value; over-long arguments raise ProgrammingError and no file is written.", "quantifier": "all subtitle lists and metadata", "why_tests_cant": "All sizes; later fields may overwrite earlier ones.", "anchors": ["src/stl_binary_writer.cc:write_stl_binary", "src/stl_binary_writer.cc:put_string"]}
{"id": "C56", "title": "Binary STL metadata round-trips", "statement": "Reading a file written by write_stl_binary gives back language, titles, translator, publisher, editor and country (padded with spaces), dates, revision number, block and subtitle counts and frame rate code. Counts over 5 digits and rows over 99 characters are corrupted.", "quantifier": "all metadata values and subtitle lists", "why_tests_cant": "All values.", "anchors": ["src/stl_binary_writer.cc:write_stl_binary", "src/stl_binary_reader.cc:STLBinaryReader::read"]}
{"id": "C57", "title": "Binary STL subtitles round-trip", "statement": "Reading back a written list of subtitles (integer frame rate, representable non-empty text of at most 111 encoded bytes, times under 256 hours) yields the same times, texts, italic/underline flags, line order and horizontal alignment.", "quantifier": "all such subtitle lists", "why_tests_cant": "All lists.", "anchors": ["src/stl_binary_writer.cc:make_tti_blocks", "src/stl_binary_reader.cc:STLBinaryReader::read"]}
{"id": "C58", "title": "Long subtitles are split over blocks without loss", "statement": "For each subtitle the 112-byte text fields of its consecutive blocks, concatenated, are its encoded text padded with 8F; there is at least one block; extension block numbers count 0,1,2,... with FF exactly on the last. (Numbers wrap when there are more than 255 blocks.)", "quantifier": "all texts of any length", "why_tests_cant": "All lengths, notably multiples of 112.", "anchors": ["src/stl_binary_writer.cc:make_tti_blocks"]}
{"id": "C59", "title": "Style codes in a written subtitle are balanced", "statement": "Within each written subtitle's text, italic-on/off and underline-on/off codes alternate starting with on, every on is followed by an off, and each block's text is preceded by exactly the codes that put its own flags in force.", "quantifier": "all subtitles", "why_tests_cant": "All sequences of blocks.", "anchors": ["src/stl_binary_writer.cc:make_tti_blocks"]}
{"id": "C60", "title": "Distinct lines stay distinct in binary STL", "statement": "Two lines of a subtitle are separated by at least one line break in the written text. False when their positions round to the same of the 23 rows, or are not in top-to-bottom order.", "quantifier": "all subtitles", "why_tests_cant": "All positions.", "anchors": ["src/stl_binary_writer.cc:make_tti_blocks", "src/stl_binary_writer.cc:vertical_position"]}
{"id": "C61", "title": "Writing never has undefined behaviour", "statement": "write_stl_binary is defined for every list of subtitles collect can produce. False for subtitles without lines, for lines with a line number but no line count (everything read from SubRip, WebVTT, STL text), and for times without a rate it throws.", "quantifier": "all subtitle lists", "why_tests_cant": "Undefined behaviour is invisible to tests.", "anchors": ["src/stl_binary_writer.cc:vertical_position", "src/stl_binary_writer.cc:make_tti_blocks"]}
{"id": "C62", "title": "Written timecodes are valid", "statement": "The frame byte of a written timecode is below the frame rate. False: rounding can give exactly the rate (999 ms at 25 fps).", "quantifier": "all times and rates", "why_tests_cant": "All values.", "anchors": ["src/stl_binary_writer.cc:make_tti_blocks", "src/sub_time.cc:Time::frames_at"]}
{"id": "C63", "title": "Damaged binary STL files are rejected", "statement": "A file shorter than its header plus the announced number of blocks, or with an unknown disk format, display standard, language, timecode status or comment code, makes the reader throw STLError, never return partial data; extra trailing data is ignored.", "quantifier": "all byte strings", "why_tests_cant": "All truncation points.", "anchors": ["src/stl_binary_reader.cc:STLBinaryReader::read", "src/stl_binary_tables.cc:file_to_enum", "src/stl_util.cc:stl_dfc_to_frame_rate"]}
{"id": "C64", "title": "Comment blocks are invisible", "statement": "Blocks flagged as comments contribute no subtitles and do not affect the others.", "quantifier": "all files", "why_tests_cant": "All interleavings of blocks.", "anchors": ["src/stl_binary_reader.cc:STLBinaryReader::read"]}
{"id": "C65", "title": "Line numbers stay on screen", "statement": "After reading, every line number is at most the maximum number of rows, and relative line distances are those in the file. They can become negative.", "quantifier": "all files", "why_tests_cant": "All combinations of positions.", "anchors": ["src/stl_binary_reader.cc:STLBinaryReader::read"]}
{"id": "C66", "title": "Binary STL text decoding", "statement": "Within a block text is split at 8A into lines, cut at 8F, colour codes 00-07 apply to the rest of the line only, italic/underline codes carry over lines of the block but not to other blocks, and the emitted texts concatenated are the decoded remaining bytes.", "quantifier": "all 112-byte text fields", "why_tests_cant": "All byte strings.", "anchors": ["src/stl_binary_reader.cc:STLBinaryReader::read"]}
{"id": "C67", "title": "Disk format codes", "statement": "stl_dfc_to_frame_rate inverts stl_frame_rate_to_dfc on 23.976, 24, 25 and 30 (within 1e-4), every other rate is written as 25 fps, any other code is rejected.", "quantifier": "all float rates and all strings", "why_tests_cant": "All values.", "anchors": ["src/stl_util.cc:stl_frame_rate_to_dfc", "src/stl_util.cc:stl_dfc_to_frame_rate"]}
{"id": "C68", "title": "Code tables are mutually inverse", "statement": "For every language, language_file_to_enum(language_enum_to_file(l)) = l and language_description_to_enum(language_enum_to_description(l)) = l, and likewise for justification, cumulative status, comment and timecode status. False for language group U8, which reads as Hebrew.", "quantifier": "all enum values and codes", "why_tests_cant": "Whole tables and all unknown codes.", "anchors": ["src/stl_binary_tables.cc:STLBinaryTables::STLBinaryTables", "src/stl_binary_tables.cc:file_to_enum", "src/stl_binary_tables.cc:enum_to_file"]}
{"id": "C69", "title": "Numeric conversion is locale independent", "statement": "raw_convert between strings and numbers gives the same value in every locale, whatever its decimal point and thousands separator, and converting an unsigned long to string and back to int is the identity below 2^31.", "quantifier": "all locales and numbers", "why_tests_cant": "All locales.", "anchors": ["src/raw_convert.cc:make_local", "src/raw_convert.cc:make_raw", "src/locale_convert.cc"]}
{"id": "C70", "title": "Line splitting loses nothing", "statement": "Calling get_line_string until exhaustion yields lines without newlines which, joined by newlines, are the original string (up to a final newline).", "quantifier": "all strings", "why_tests_cant": "All strings.", "anchors": ["src/util.cc:get_line_string"]}
{"id": "C71", "title": "Message composition substitutes positionally, once", "statement": "compose replaces each %n by the n-th argument; placeholder-like text inside arguments is not substituted again; %% gives %. An empty argument shifts the following ones.", "quantifier": "all format strings and arguments", "why_tests_cant": "All strings.", "anchors": ["src/compose.hpp:Composition"]}
{"id": "C72", "title": "Hex colours", "statement": "from_rgb_hex/from_rgba_hex of 6/8 hex digits (any case) give components in [0,1] equal to each pair/255; distinct colours stay distinct; fewer than three (four) hex pairs raise XMLError.", "quantifier": "all strings", "why_tests_cant": "All strings.", "anchors": ["src/colour.cc:Colour::from_rgb_hex", "src/colour.cc:Colour::from_rgba_hex"]}
{"id": "C73", "title": "Reader choice by file name and content", "statement": "reader_factory picks by case-insensitive extension: .srt SubRip; .stl binary iff bytes 3-5 are 'STL' and at least 11 bytes exist, else text; anything else gives no reader.", "quantifier": "all extensions and contents", "why_tests_cant": "All contents.", "anchors": ["src/reader_factory.cc:reader_factory"]}
{"id": "C74", "title": "Dump output is balanced", "statement": "In each dumped line, style tags balance: <i> and </i> alternate and match, as do <u> and </u>; there is one output line per subtitle line and one header per subtitle. The tags need not nest properly.", "quantifier": "all subtitle lists", "why_tests_cant": "All sequences of blocks.", "anchors": ["src/util.cc:dump"]}
{"id": "C75", "title": "Font sizes convert consistently", "statement": "A size set in points reports those points at any screen height, a proportional size reports that proportion; points(h) of a points-derived size does not depend on h; an unset size must not be converted (undefined behaviour).", "quantifier": "all sizes and heights", "why_tests_cant": "All values.", "anchors": ["src/font_size.cc:FontSize::proportional", "src/font_size.cc:FontSize::points"]}
{"id": "C76", "title": "Keyword conversions", "statement": "string_to_effect and string_to_vertical_reference accept exactly their listed keywords and raise XMLError on every other string.", "quantifier": "all strings", "why_tests_cant": "All strings.", "anchors": ["src/effect.cc:string_to_effect", "src/vertical_reference.cc:string_to_vertical_reference"]}
{"id": "C77", "title": "White-space test", "statement": "empty_or_white_space is true exactly for strings of spaces, newlines and tabs (including the empty string).", "quantifier": "all strings", "why_tests_cant": "All strings.", "anchors": ["src/util.cc:empty_or_white_space"]}
{"id": "C78", "title": "ISO 6937 accents are the Unicode ones", "statement": "A diacritical byte followed by a letter decodes to U+0000 or to the precomposed Unicode character that is canonically equivalent to that letter with that mark; lone marks in the main table are the corresponding combining marks, except that CE stands for U+032B instead of the ogonek U+0328.", "quantifier": "all diacritical bytes and all following bytes, in any state of the tables", "why_tests_cant": "The tables have some 150 accented letters and can be changed by earlier calls.", "anchors": ["src/iso6937_tables.cc:make_iso6937_tables", "src/iso6937.cc:iso6937_to_utf16"]}
{"id": "C79", "title": "SSA event columns", "statement": "Every subtitle made from a dialogue line begins at the time in the Start column and ends at the time in the End column, wherever the Format line puts them; tags in the text cannot change the times, font or effect; columns with other names have no influence; the order of the columns does not matter except that margins must follow the style and the text is last.", "quantifier": "all formats, dialogue lines and styles", "why_tests_cant": "The test files all have their columns in one order.", "anchors": ["src/ssa_reader.cc:SSAReader::read", "src/ssa_reader.cc:SSAReader::parse_line"]}
{"id": "C80", "title": "Rows survive re-writing an STL file", "statement": "A line read from row n of a 23-row binary STL file is written back to row n. False for rows 7 and 14, where the float proportion times 23 is truncated to 6 and 13; true for all other rows from 0 to 23.", "quantifier": "all rows", "why_tests_cant": "Depends on the rounding of each of the quotients; the failing rows are two among 24.", "anchors": ["src/stl_binary_writer.cc:vertical_position", "src/stl_binary_reader.cc:STLBinaryReader::read"]}
{"id": "C81", "title": "collect rebuilds grouped subtitles", "statement": "Subtitles that are taken apart into one raw subtitle per block and given to collect in any order of subtitles come back unchanged (same lines, same blocks, same positions), in order of their start times; collecting the result of collect again changes nothing.", "quantifier": "all lists of subtitles with lines at different vertical positions, no two with all times equal, times comparable without overflow", "why_tests_cant": "Needs all groupings into subtitles, lines and blocks and all orders.", "anchors": ["src/collect.h:collect", "src/subtitle.cc:Subtitle::same_metadata", "src/subtitle.cc:Line::same_metadata"]}
{"id": "C82", "title": "From SubRip file to subtitles", "statement": "A SubRip file of any cues in any order comes through SubripReader and collect as one subtitle for each cue with text: the times of the cue, one line for each line with text, one block for each run of text in one style; in order of the start times.", "quantifier": "all files of well-formed cues, no two with both start and end in common", "why_tests_cant": "Tests compare a few files; the claim is about all cues, styles, line counts and orders, and about reader and collect together.", "anchors": ["src/subrip_reader.cc:SubripReader::read", "src/collect.h:collect"]}
{"id": "C83", "title": "From WebVTT file to subtitles", "statement": "A WebVTT file of notes, cues and other lines in any order comes through WebVTTReader and collect as one subtitle for each cue with text, with the times and the lines of the cue, in order of the start times.", "quantifier": "all files of well-formed items, no two cues with both start and end in common", "why_tests_cant": "As for C82.", "anchors": ["src/web_vtt_reader.cc:WebVTTReader::read", "src/collect.h:collect"]}
{"id": "C84", "title": "What a reader returns can be collected", "statement": "collect on the raw subtitles that any of the readers returns succeeds: no UnknownFrameRate exception and no integer overflow in the comparisons of times.", "quantifier": "all files, for each of the five readers", "why_tests_cant": "Whether times can be compared depends on every pair of times in a file; tests cover a handful of files.", "anchors": ["src/collect.h:collect", "src/sub_time.cc:operator==", "src/subrip_reader.cc:SubripReader::convert_time", "src/stl_text_reader.cc:STLTextReader::time", "src/stl_binary_reader.cc:STLBinaryReader::read", "src/ssa_reader.cc:SSAReader::read"]}
{"id": "C85", "title": "Binary STL can be written again", "statement": "Subtitles read from any binary STL file that gives a non-zero number of rows, whatever its rows and times, can be collected and turned into TTI blocks again without undefined behaviour or exception; with zero rows the writer divides by zero.", "quantifier": "all files that can be read, all frame rates of 0 to 1000 for writing", "why_tests_cant": "The project tests the writer on one list of subtitles made by hand, not on what the reader returned; the claim covers rows beyond the screen, negative rows after correction, and frame numbers above the rate.", "anchors": ["src/stl_binary_reader.cc:STLBinaryReader::read", "src/stl_binary_writer.cc:vertical_position", "src/stl_binary_writer.cc:make_tti_blocks"]}
{"id": "C86", "title": "Readers fail only in known ways", "statement": "Whatever the input, the STL text reader fails only with boost::bad_lexical_cast or on a number that does not fit an int; the WebVTT reader only with its own two exceptions or on a number that does not fit; the SubRip reader only with its own exception, on a number (of seconds, or in a colour) that does not fit, on one </font> too many, or on an SSA tag ({\\...}) that is wrong, and without backslashes in the file the last does not happen; the SSA reader only with a ProgrammingError, an SSAError, a number that does not fit, or a resolution of zero.  In particular none of these readers ever dereferences an empty optional, and none reports an error of another format.", "quantifier": "for all files (lists of lines) and all errors", "why_tests_cant": "A test shows that one bad file is rejected in one way; that no file at all makes a reader use an empty optional or throw something that the caller does not catch is about every input, and depends on invariants of the loop state kept across lines.", "anchors": ["src/stl_text_reader.cc:STLTextReader::STLTextReader", "src/web_vtt_reader.cc:WebVTTReader::read", "src/subrip_reader.cc:SubripReader::read", "src/ssa_reader.cc:SSAReader::read", "src/ssa_reader.cc:SSAReader::parse_tag"]}
{"id": "C87", "title": "Lines of an SSA file act independently", "statement": "Once the headers have been read, each Dialogue line of an SSA file adds its subtitles independently of the other Dialogue lines: the file is read iff each line can be, the result is the concatenation, and permuting the lines permutes the result. Blank lines, comments and lines of unknown type can be inserted anywhere without effect.", "quantifier": "all files, all dialogue lines, all orders", "why_tests_cant": "Tests read a few fixed files; state leaking from one dialogue to the next shows only for particular neighbours.", "anchors": ["src/ssa_reader.cc:SSAReader::read"]}
{"id": "C88", "title": "What override tags do to SSA text", "statement": "The text of an SSA dialogue made of plain text, override blocks (comments, \\i \\b \\u \\an \\pos \\fs \\c and unknown tags) and line breaks becomes one subtitle per run of text between blocks and line breaks. Each has the style of the dialogue changed by exactly the tags before it, and stands at the height given by its reference, margin, number of lines and line breaks before it, up to rounding in single precision.", "quantifier": "all sequences of pieces, all tags, all numbers in them that are 0 or of a size between 2^-90 and 2^90, all styles, up to 2^20 lines", "why_tests_cant": "Tests try particular lines; here every interleaving of text, tags and line breaks is covered, with a bound on accumulated rounding error.", "anchors": ["src/ssa_reader.cc:SSAReader::parse_line", "src/ssa_reader.cc:SSAReader::parse_tag", "src/ssa_reader.cc:h_colour"]}
{"id": "C89", "title": "Where \\pos puts text", "statement": "\\pos(x,y) puts the text at x/PlayResX from the left of the screen and at y/PlayResY plus the vertical margin of the style or event from the top (as the project's own test expects), up to rounding in single precision.", "quantifier": "all positions with coordinates that are 0 or of a size between 2^-90 and 2^90, all styles, all resolutions", "why_tests_cant": "The project tests one position with one margin; the claim is about all positions, decimal or negative, with all margins and resolutions.", "anchors": ["src/ssa_reader.cc:SSAReader::parse_tag", "src/ssa_reader.cc:SSAReader::parse_line"]}
{"id": "C90", "title": "Metadata of a binary STL file", "statement": "The metadata map of a binary STL file has exactly one entry for each field of the header, in the order of their names, whose value is what the header has at the place given by the standard: text as it is, numbers without leading zeros, 12 rows for 99, and codes by their meaning. It fails for the language group of files in UTF-8, which is shown as Latin/Hebrew.", "quantifier": "all files that can be read", "why_tests_cant": "29 fields at different offsets, all values of each; the tests compare dumps of a few private files.", "anchors": ["src/stl_binary_reader.cc:STLBinaryReader::metadata", "src/stl_binary_reader.cc:STLBinaryReader::read", "src/stl_binary_tables.cc:STLBinaryTables::STLBinaryTables"]}
{"id": "C91", "title": "SSA files end to end", "statement": "An SSA/ASS file with a script resolution, styles in the columns that Aegisub writes, and dialogues with plain text, line breaks, override blocks and escapes is always read. What is read are the runs of text of its dialogues in order, each with the times written in the file (to hundredths of a second), the font, size, colours, bold, italic, underline, effect and alignment of the style of its dialogue (the last defined with that name, else Default), changed by the tags before it, and at the height that margins, alignment, line number and \\pos give, up to rounding to single precision; from memory or from a file, with either kind of line end.", "quantifier": "all documents: any resolution, any number of styles and dialogues, all names, sizes, colours, margins, times, texts and tags (numbers in tags that are 0 or of a size between 2^-90 and 2^90)", "why_tests_cant": "The tests parse chosen lines and files; the claim combines styles, margins, fields, tags and positions for all documents.", "anchors": ["src/ssa_reader.cc:SSAReader::read", "src/ssa_reader.cc:SSAReader::parse_line", "src/ssa_reader.cc:SSAReader::parse_tag", "src/ssa_reader.cc:SSAReader::parse_time"]}
{"id": "C92", "title": "From SSA file to subtitles", "statement": "An SSA file whose dialogues have no \\an or \\pos tags, and no two of which have both start and end in common, comes through SSAReader and collect as one subtitle for each dialogue with text: its times, one line for each line of text that is not empty, all runs of a line in the same line and different lines never merged, one block per run in its style; in order of the start times.", "quantifier": "all such documents (up to 1000 lines per dialogue, non-zero font size, margin up to 300 times the font size)", "why_tests_cant": "Whether lines merge depends on equality of rounded floating point positions for every font size, resolution, margin and number of lines.", "anchors": ["src/ssa_reader.cc:SSAReader::parse_line", "src/ssa_reader.cc:SSAReader::read", "src/collect.h:collect", "src/vertical_position.cc:VerticalPosition::operator=="]}
{"id": "C93", "title": "Binary STL: written, read and collected subtitles are the same", "statement": "Subtitles that the binary STL format can hold (times in frames of the file, characters of its set, lines going down the screen, text of one block), with some text on every line, are written, read again and collected as the same subtitles: as many, with the same times, the same lines on their rows, and in each line the same characters with italic and underline, aligned as the first line of the subtitle. In order if they were written in order of their start times and neighbours differ in some time; else, if no two have both times in common, in order of start, those that start together as written.", "quantifier": "all lists of fewer than 100000 such subtitles, all locales, files of 24, 25 and 30 frames per second", "why_tests_cant": "The test of the writer writes one file and does not look at it, those of the reader check chosen files; nothing writes, reads and collects. Whether lines are merged or split depends on the empty pieces the reader makes at style codes.", "anchors": ["src/stl_binary_writer.cc:write_stl_binary", "src/stl_binary_writer.cc:make_tti_blocks", "src/stl_binary_reader.cc:STLBinaryReader::read", "src/collect.h:collect"]}
{"id": "C94", "title": "Character count in the binary STL header", "statement": "The field \"maximum number of displayable characters in any text row\" of a written binary STL file is the number of characters of the longest line of the subtitles. (False: the writer counts bytes of UTF-8, so accented letters count double; proved for ASCII text.)", "quantifier": "all lists of subtitles, all texts", "why_tests_cant": "The test of the writer writes one file of ASCII text and does not look at it.", "anchors": ["src/stl_binary_writer.cc:write_stl_binary"]}
{"id": "C95", "title": "From STL text file to subtitles", "statement": "A textual STL file of comments, settings and subtitles, of which no two have both start and end in common, comes through reader and collect as one subtitle for each line with text, with its times, one line for each part between | signs, and in each line the runs of text in the style in force; in order of the start times. (False of subtitles of three lines: the second and the third become one; proved for a first line of any number of runs and at most one further line of a single run.)", "quantifier": "all files of any number of lines, all texts, styles and times, in any order", "why_tests_cant": "The test reads and collects one chosen file. The line number is a state kept from one run, line and subtitle to the next; whether it is right depends on everything before.", "anchors": ["src/stl_text_reader.cc:STLTextReader::STLTextReader", "src/stl_text_reader.cc:STLTextReader::maybe_push", "src/collect.h:collect"]}
{"id": "C96", "title": "A bad SubRip time line is reported, a good one accepted", "statement": "Where a time line is expected in a SubRip file, the line is accepted if and only if it has three or seven words of which the first and the third are time stamps h:m:s,ms in range. Any other line stops the reading with a report of its line number, the offending word (or line), what was expected there and the last five lines (with the next two if the number of words is wrong), whatever follows. A time stamp of the right form with a number of hours, minutes or seconds too large for an int is undefined behaviour.", "quantifier": "all files read without error up to that line, all lines, all continuations", "why_tests_cant": "The only test of a malformed file checks that some SubripError is thrown; there are infinitely many wrong lines and the message depends on which of the several tests fails first.", "anchors": ["src/subrip_reader.cc:SubripReader::read", "src/subrip_reader.cc:SubripReader::convert_time", "src/exceptions.cc:SubripError::SubripError"]}
{"id": "C97", "title": "The code table is that of ISO 6937", "statement": "Text in ISO 6937 is decoded to what the standard's code table says, and text over the characters of the standard is encoded accordingly, whatever was converted before. (False of the no-break space A0 and of accents standing by themselves, accent and space: these are decoded to U+0000 and dropped on encoding; also dropped is U+00D0. Proved for everything else in the code table.)", "quantifier": "all byte strings and all wide strings over the code table, in any state of the tables", "why_tests_cant": "The tables have about 330 entries in two bytes, are searched backwards for encoding, and can be changed by earlier calls; the test converts a few strings.", "anchors": ["src/iso6937_tables.cc:make_iso6937_tables", "src/iso6937.cc:iso6937_to_utf16", "src/iso6937.cc:utf16_to_iso6937"]}
{"id": "C98", "title": "Which WebVTT time lines are accepted", "statement": "Between cues, a line of a WebVTT file with an arrow in it is accepted if and only if it has three or seven words of which the first and the third are time stamps h:m:s.ms in range; any other is reported with the offending word, what was expected there and the last five lines. In particular every time line of the WebVTT standard is accepted. (False: the hours are optional in the standard, but a time without hours is rejected; and any number of settings may follow, but only none or exactly four are accepted. Proved for times with hours and none or four settings; the others are proved to be rejected.)", "quantifier": "all files read without error up to that line, all lines, all continuations", "why_tests_cant": "The test reads one well-formed file; there are infinitely many time lines and settings, and the place in the file depends on all lines before.", "anchors": ["src/web_vtt_reader.cc:WebVTTReader::read", "src/subrip_reader.cc:SubripReader::convert_time", "src/exceptions.cc:WebVTTError::WebVTTError"]}
{"id": "C99", "title": "A file cut short gives the first of its subtitles", "statement": "If a SubRip, WebVTT, SSA or STL text file can be read, then so can the part of it up to and including any line end, and the subtitles of that part are the first of the subtitles of the whole: nothing that has been read is changed or dropped because of what follows.", "quantifier": "all files that can be read (string and FILE* input), all line ends in them", "why_tests_cant": "The tests read whole files; a file of n lines has n places to be cut, and the claim relates two runs of the reader.", "anchors": ["src/subrip_reader.cc:SubripReader::read", "src/web_vtt_reader.cc:WebVTTReader::read", "src/ssa_reader.cc:SSAReader::read", "src/stl_text_reader.cc:STLTextReader::STLTextReader", "src/util.cc:get_line_file"]}
{"id": "C100", "title": "Files put together", "statement": "If a SubRip text that ends with a blank line can be read, then whatever follows it is read exactly as if it were a file of its own: together they can be read if and only if the second can, and the subtitles are those of the first followed by those of the second. For WebVTT the same holds with a header line before the second; and WebVTT files, each with a header without an arrow, can be put one after the other.", "quantifier": "all texts, all continuations, any number of files, string and FILE* input", "why_tests_cant": "It relates three runs of the reader over unboundedly many pairs of files; state left over from the first (subtitle under construction, counters, context) could show in the second.", "anchors": ["src/subrip_reader.cc:SubripReader::read", "src/web_vtt_reader.cc:WebVTTReader::read"]}
{"id": "C101", "title": "SSA style definitions: each property comes from the column of its name", "statement": "A style line with as many values as the format line has names gives a style if and only if its number and colour columns can be read. Then each property of the style is taken from the last column of its name (space around names and values ignored), properties without a column keep their defaults, other columns have no effect, and the order of columns with different names is irrelevant. Numbers are read from the start of the text (0 without one); a wrong number of values raises the programming-error exception.", "quantifier": "all column lists and all value lists (any length, any bytes other than commas), all permutations", "why_tests_cant": "The tests use a few fixed format lines; here any order, repetition, omission and unknown columns, with any values, are covered.", "anchors": ["src/ssa_reader.cc:Style::Style", "src/ssa_reader.cc:Style::colour", "src/raw_convert.cc:raw_convert"]}
{"id": "C102", "title": "Colours that readers report have components within 0 to 1", "statement": "Every colour (of text or of an outline) that a reader reports has its red, green and blue components within [0, 1]. For binary STL each is 0 or 1, for STL text and WebVTT the colour is white.", "quantifier": "all input files (any bytes), all reported subtitles", "why_tests_cant": "The tests check components of a few colours; nothing there asks whether a file exists for which a component is out of range, and there are such files for SubRip (rgba above 255) and SSA (style without a PrimaryColour column).", "anchors": ["src/subrip_reader.cc:SubripReader::convert_line", "src/ssa_reader.cc:Style::Style", "src/ssa_reader.cc:SSAReader::parse_line", "src/stl_binary_reader.cc:STLBinaryReader::read", "src/colour.cc:Colour::from_rgb_hex"]}
{"id": "C103", "title": "When subtitles compare equal", "statement": "Blocks compare equal if and only if all their data are the same. Comparison of subtitles is symmetric, also in failing. Subtitles with times at one rate that compare equal have the same times, the same number of lines, and in each line the same blocks at agreeing places (horizontally within one 1998th of the screen width); conversely such subtitles compare equal. Every subtitle is equal to itself. Comparison fails only for unknown frame rates or overflow of frame counts.", "quantifier": "all pairs of subtitles, lines and blocks", "why_tests_cant": "The tests never compare subtitles, lines or blocks with ==; symmetry, reflexivity and sensitivity to each of some 20 fields are statements about all pairs.", "anchors": ["src/subtitle.cc:operator==", "src/subtitle.h:Line::Line", "src/font_size.cc:operator==", "src/colour.cc:operator==", "src/vertical_position.cc:VerticalPosition::operator==", "src/horizontal_position.cc:HorizontalPosition::operator=="]}
{"id": "C104", "title": "Everything reported has a place", "statement": "Every piece of text that a reader reports has a vertical reference together with a line number (SubRip, WebVTT, STL text, binary STL) or a proportion of the screen (SSA); in binary STL also the number of lines. Collecting keeps this for every line, so that collected subtitles with comparable times are equal to themselves.", "quantifier": "all input files (any bytes), all reported pieces, all collected lines", "why_tests_cant": "The tests check the positions of selected subtitles. That no input leaves the optional position members empty is needed by every user who dereferences them and is a statement about all inputs.", "anchors": ["src/subrip_reader.cc:SubripReader::convert_line", "src/web_vtt_reader.cc:WebVTTReader::read", "src/stl_text_reader.cc:STLTextReader::STLTextReader", "src/ssa_reader.cc:SSAReader::parse_line", "src/stl_binary_reader.cc:STLBinaryReader::read", "src/collect.h:collect"]}
{"id": "C105", "title": "A dump can be read back", "statement": "In each line of a dump, the tags <i>, </i>, <u>, </u> put every character in exactly the italic and underline of its block. If two dumps are the same text, then the metadata are the same, there are as many subtitles, and one by one they have the same times, as many lines, the same reported positions and the same characters in the same italic and underline; this holds for metadata and text without newline and text without '<'. With '<' or newline in the text it is false: different subtitles have the same dump.", "quantifier": "all metadata lists and lists of raw subtitles that collect, texts without newline and '<' (any other bytes)", "why_tests_cant": "No test reads a dump back; that no two different lists of subtitles have the same dump is a statement about all pairs of inputs.", "anchors": ["src/util.cc:dump", "src/sub_time.cc:operator<<"]}
{"id": "C106", "title": "Proportions in a dump", "statement": "A proportion of the screen is written in a dump as a decimal number of at most six significant digits, and no number of at most six significant digits is nearer to it; so the relative error is at most 1/200000. Only digits, point, 'e' and signs occur. From 1/10000 up to below 100000 there is no exponent, and no zero at the end of a fraction.", "quantifier": "all rational numbers (in particular all finite values of float)", "why_tests_cant": "The only compared dump comes from a binary STL file, which has no proportions; nearest-ness is a statement about all numbers.", "anchors": ["src/util.cc:dump"]}
{"id": "C107", "title": "The program dumpsubs", "statement": "dumpsubs shows its syntax with success exactly if an argument before -- asks for help, and with failure exactly if otherwise there is not exactly one file name. A file that does not exist, or whose extension is neither .stl nor .srt in any case, gives an error message and failure. For a SubRip file that follows the grammar it writes each subtitle with its number from 0, its times to the millisecond, and its lines with every character in its italic and underline, in order of the start times. Not so: a .srt file that cannot be opened or read ends it with an exception that is not caught, and a .stl file that cannot be opened or has fewer than 11 bytes gives an empty dump and success.", "quantifier": "all argument lists, all file systems, all SubRip documents of the grammar with lines of at most 254 bytes, without NUL, and without '<' in the text", "why_tests_cant": "The program has no test; the statement is about all arguments and all files.", "anchors": ["tools/dumpsubs.cc:main", "tools/dumpsubs.cc:help", "src/reader_factory.cc:reader_factory", "src/util.cc:dump"]}
{"id": "C108", "title": "Writing again what was read from an STL file gives the same file", "statement": "Subtitles that a binary STL file can hold are written, the file is read, the pieces are collected, and what was collected is written with the same other arguments: the second file equals the first byte for byte. The subtitles have text on every line, every line but the last of a subtitle ends in text, no line is on row 7 or 14, the text is UTF-8, start times are in order and neighbours differ in a time. Each of the last-named conditions on lines, rows and encoding is needed: without it there are subtitles for which the second file differs.", "quantifier": "all lists of such subtitles, at 24, 25 or 30 frames per second, all other arguments, all sane locales", "why_tests_cant": "The tests write one fixed list and read fixed files; none writes what was read. The statement is about all lists of subtitles.", "anchors": ["src/stl_binary_writer.cc:make_tti_blocks", "src/stl_binary_writer.cc:write_stl_binary", "src/stl_binary_reader.cc:STLBinaryReader::STLBinaryReader", "src/collect.h:collect"]}
{"id": "C109", "title": "Error messages tell where a file is wrong", "statement": "When the SubRip reader rejects a file, the text of the exception gives the number of the first line that cannot be accepted, quotes a part of that line and names what was expected, and nothing in the file (such as \"%1\" or the words of the message itself) can disturb it: two messages are the same only if line number, quoted text and expectation are the same, except that an empty text and the words \"an empty string\" are not told apart. The same holds, without line numbers, for WebVTT. A NUL in the file ends the message.", "quantifier": "for every SubRip file and every WebVTT file that is rejected, and for every pair of rejected files", "why_tests_cant": "The tests check only that an exception is thrown for one file; they never look at a message. A file can hold any text in the rejected line, including the place holders of the message and its own words.", "anchors": ["src/exceptions.cc:SubripError::SubripError", "src/exceptions.cc:WebVTTError::WebVTTError", "src/exceptions.cc:ProgrammingError::ProgrammingError", "src/compose.hpp:Composition::arg", "src/subrip_reader.cc:SubripReader::read", "src/web_vtt_reader.cc:WebVTTReader::read"]}
{"id": "C110", "title": "The STL text reader says which lines it passes over", "statement": "When an STL text file can be read, the reader prints on standard output a message for exactly those lines that are no comment, no \"$name=value\" and no subtitle with two times of four fields (also for empty lines), in the order of the file; these lines have no effect on the subtitles: without them the same subtitles are read and nothing is printed. When it cannot be read, the reader prints those messages for the lines before the one with which reading fails, of that line at most that its first time is not recognised, and nothing of later lines. The output of dumpsubs is these messages and then the dump; for binary STL and SubRip files it is the dump alone. (The claim that standard output is the dump alone is false of an STL text file with an empty line.)", "quantifier": "for every STL text file, and for every way of calling dumpsubs with one file name", "why_tests_cant": "The test of the STL text reader compares the subtitles of one good file and does not look at what is printed; there is no test of dumpsubs. Which lines of any file are passed over in silence, and whether a line with a message changes the settings for the following ones, is a claim about all files.", "anchors": ["src/reader.cc:Reader::warn", "src/stl_text_reader.cc:STLTextReader::STLTextReader", "src/stl_text_reader.cc:STLTextReader::time", "src/reader_factory.cc:reader_factory", "tools/dumpsubs.cc:main"]}
{"id": "C111", "title": "Text conversion in several threads", "statement": "The two conversions between ISO 6937 and UTF-16 share global tables without synchronisation. If two threads make calls before any call has returned there is a data race. Afterwards there is one exactly if a thread decodes a byte that is missing from a table and another thread uses that table; so threads whose texts contain known characters only never race, and every call then returns what it would have returned alone, whatever the interleaving.", "quantifier": "for every number of threads, every list of calls of each, every reachable state of the tables, every interleaving", "why_tests_cant": "The project has no test with threads, and a test sees one interleaving; a data race is undefined behaviour even if the result happens to be right. Which calls can race is a claim about all texts and all schedules.", "anchors": ["src/iso6937.cc:iso6937_to_utf16", "src/iso6937.cc:utf16_to_iso6937", "src/iso6937_tables.cc:make_iso6937_tables"]}
{"id": "C112", "title": "From SSA file to binary STL file", "statement": "An SSA file whose dialogues a binary STL file can hold (lines on the screen and more than a row apart, characters of ISO 6937, text for one block, no two dialogues with both times in common) can be read, collected, written at 24, 25 or 30 frames per second and read again. On the screen are then its dialogues in order of their start times: their characters with italic and underline, each at the nearest frame and on the row nearest to where the SSA file places it.", "quantifier": "for every such SSA document (any number of styles, dialogues, lines, tags that do not place text), every valid header, every sane locale", "why_tests_cant": "The project tests the SSA reader and the STL writer apart, each on a few examples; no test converts one format to the other. The claim composes two parsers, a sort, two rounding steps in floating point and a printer over all documents.", "anchors": ["src/ssa_reader.cc:SSAReader::read", "src/collect.h:collect", "src/stl_binary_writer.cc:write_stl_binary", "src/stl_binary_writer.cc:vertical_position", "src/stl_binary_reader.cc:STLBinaryReader::read"]}
{"id": "C113", "title": "Files a process has handled before do not matter", "statement": "The ISO 6937 tables are shared by everything a process does, and conversions add to them. Nevertheless, in a process that reads and writes any number of binary STL files one after another, each file is read or written exactly as by a process that does nothing else, including exceptions, as long as no text to be written has a NUL byte.", "quantifier": "for every sequence of reads of arbitrary files and writes of arbitrary subtitles without NUL bytes, in any order; up to the first undefined behaviour", "why_tests_cant": "A test sees one order of calls from one starting state. The hidden state takes any value that a sequence of conversions can leave, and the claim needs an invariant of all of them and that it is kept by the whole reader and the whole writer.", "anchors": ["src/iso6937.cc:iso6937_to_utf16", "src/iso6937.cc:utf16_to_iso6937", "src/stl_binary_reader.cc:STLBinaryReader::read", "src/stl_binary_writer.cc:make_tti_blocks"]}
{"id": "C114", "title": "Binary STL files in several threads", "statement": "Threads may read binary STL files and write subtitles to binary STL files at the same time if some conversion has been made before they begin and the texts have only characters that ISO 6937 tables of the library have: then nothing writes to the shared tables, and each thread reads and writes what a process of its own would. Otherwise there are data races: always if two threads read or write text before any conversion has been made; afterwards exactly if one thread meets a character missing from a table that another thread uses (a no-break space is enough).", "quantifier": "for every number of threads, all lists of files and subtitles, every interleaving", "why_tests_cant": "The project has no test with threads, and tests could not show the absence of races: the claim is about every interleaving of the steps of any number of threads, each of which goes on according to what its calls have returned.", "anchors": ["src/iso6937_tables.cc:make_iso6937_tables", "src/iso6937.cc:iso6937_to_utf16", "src/iso6937.cc:utf16_to_iso6937", "src/stl_binary_reader.cc:STLBinaryReader::read", "src/stl_binary_writer.cc:write_stl_binary"]}
{"id": "C115", "title": "What a WebVTT file means, exactly", "statement": "A WebVTT file is read with given subtitles if and only if they are what a small grammar says: the first line starts with WEBVTT (a file without lines has no subtitles); after that a line starting with NOTE begins a comment up to the next blank line; any other line that contains --> must have three or seven words, the first and third being time stamps, and begins a cue with these times whose text goes up to the next blank line; every other line is passed over. A cue gives one subtitle for each part of its lines between U+2028 characters, numbered from 0 from the top. Nothing else is accepted.", "quantifier": "for all lists of lines and all lists of subtitles", "why_tests_cant": "The tests read a few whole files. That nothing else is accepted, that nothing is carried over from one cue to the next, and that the grammar gives one meaning to each file are claims about all files.", "anchors": ["src/web_vtt_reader.cc:WebVTTReader::read", "src/subrip_reader.cc:SubripReader::convert_time"]}
{"id": "C116", "title": "What a SubRip file means, exactly", "statement": "A SubRip file is read with given subtitles if and only if they are what a small grammar says. Blank lines separate cues. A cue is a line that is not blank, a line of three or seven words of which the first and third are time stamps, and text up to the next blank line. The parts of the text lines between U+2028 characters are numbered from 0 from the top; each consists of characters, tags for bold, italic and underline in angle or curly brackets and in either case, font tags and SSA override tags in braces. A piece of text between tags of the first kinds is one subtitle, if it has any text, with the style after all the override tags in it; bold, italic, underline and what override tags set go on to the next line of the cue, the open font tags do not; closing a font tag goes back to the colour of the font tag around it, white at the outermost; one closing tag too many is not accepted. The argument of a tag that is not closed goes up to the end of the line. U+202B is taken out of the last piece of each line only. A font tag must have a colour of the form #rrggbb, #rrggbbaa or rgba(r,g,b,a), of which the last in the tag counts. Nothing else is accepted.", "quantifier": "for all lists of lines and all lists of subtitles", "why_tests_cant": "The tests read some whole files and some lines. That nothing else is accepted, that nothing but the style goes from one line to the next and nothing from one cue to the next, and that the grammar gives one meaning to each file are claims about all files.", "anchors": ["src/subrip_reader.cc:SubripReader::read", "src/subrip_reader.cc:SubripReader::convert_line", "src/subrip_reader.cc:SubripReader::convert_time", "src/subrip_reader.cc:SubripReader::maybe_content"]}
{"id": "C117", "title": "What a line of SSA dialogue, an override tag and a number mean, exactly", "statement": "A line of SSA dialogue is read with given subtitles if and only if they are what a small grammar says. A line consists of characters, breaks (\\n or \\N) and groups of tags in braces; carriage returns and line feeds count for nothing, a backslash before another character takes that character with it, text in braces before the first backslash is a comment, and the last tag in braces that are not closed is not read. Text between groups and breaks is one subtitle, if there is any. A break moves down one line height, 1.2 times the font size; at the end the block is placed with the margin at the top, centred, or above the margin at the bottom, where the height of the block counts every backslash before n or N in the line, also within tags. A tag turns italic, bold or underline on or off, sets one of the nine alignments, a position, a font size or a colour as its text says; other tags do nothing and malformed ones are not accepted. The float, int and hexadecimal numbers in tags are the longest ones at the start of the text after blanks, and what follows is ignored.", "quantifier": "for all contexts, styles without text, lines, tags, texts and results", "why_tests_cant": "The tests parse a few lines and tags. Which lines are accepted, that each tag does only one thing, and that the meaning does not depend on anything but the grammar are claims about all lines.", "anchors": ["src/ssa_reader.cc:SSAReader::parse_line", "src/ssa_reader.cc:SSAReader::parse_tag", "src/ssa_reader.cc:h_colour", "src/ssa_reader.cc:SSAReader::Context::update_horizontal_position", "src/raw_convert.h:raw_convert"]}
{"id": "C118", "title": "What an SSA file means, exactly", "statement": "An SSA file is read with given subtitles if and only if they are what a small grammar says. Lines count without white space at their ends and without a byte order mark; blank lines and comments count for nothing; every other line is a heading or has a colon after its type. Where a line of dialogue in the events section stands, the following are in force: the newest format of the events section, the newest screen sizes of the info section (288 by default), and for each name the newest style of that name, each read in the format that was the newest where it stands. The columns of a dialogue take effect from left to right, the last one having all the rest with its commas; the style is the one named (without stars) or the one called Default; a margin of 0 is that of the style; the text is read as in C117 with what the columns before it have set. A file is not accepted if a line has no colon, a screen size or a time or margin is not readable, a style or dialogue stands before its format or has too few columns, or the text of a dialogue is not accepted.", "quantifier": "for all lists of lines, all texts and all lists of subtitles", "why_tests_cant": "The tests read a handful of files. Which lines are in force at a given line, that nothing else matters, and that no other file is accepted are claims about all files.", "anchors": ["src/ssa_reader.cc:SSAReader::read", "src/ssa_reader.cc:SSAReader::parse_time", "src/ssa_reader.cc:Style::Style", "src/ssa_reader.cc:Style::colour"]}
{"id": "C119", "title": "What an STL text file means, exactly", "statement": "An STL text file is read with given subtitles if and only if they are what a small grammar says. Only lines which end with a newline count, and they count without white space at their ends. A line is a comment (//), a setting ($name=value with exactly one =), or from,to,text; anything else, and a line in which a time has more or fewer than three colons, says nothing. In from,to,text the byte before the first comma does not count, at least one byte must stand before it and one after the second comma, and each time is four whole numbers between colons. Text is cut at | and ^; ^B, ^I and ^U toggle a face, ^ before any other byte drops it. Each piece of text becomes a subtitle with the times of its line, the faces, font and size in force, and as line number the number of | since the last piece of text in the file. A file is not accepted exactly if a time with three colons or a font size is not made of whole numbers, or a number does not fit in an int.", "quantifier": "for all texts and all lists of subtitles", "why_tests_cant": "The test reads one file in which every line is well formed. Which other files are accepted, what they mean, and what makes a file unacceptable are claims about all files.", "anchors": ["src/stl_text_reader.cc:STLTextReader::STLTextReader", "src/stl_text_reader.cc:STLTextReader::time", "src/stl_text_reader.cc:STLTextReader::set", "src/stl_text_reader.cc:STLTextReader::maybe_push"]}
{"id": "C120", "title": "What a binary STL file means, exactly", "statement": "A binary STL file is read with given metadata and subtitles if and only if they are what a small grammar says. A file is 1024 bytes of header, as many blocks of 128 bytes as the header announces, and anything after them. Every field of the header has its place and its kind (text, number at the start of the field, one of the known codes). A block marked as a comment says nothing. Any other block is four bytes of time in, four of time out, a row, an alignment and 112 bytes of text; 8A goes to the next row, 8F ends a row, 00 to 07 choose a colour for the rest of the row, 80 to 83 switch italic and underline for the rest of the block, and each of these codes ends a piece even if it is empty. Every piece is a text in ISO 6937, becomes one subtitle in UTF-8 with the times, the alignment and the ink in force, and its row. If the lowest row used in the file is beyond the number of rows, all rows are moved up by the difference.", "quantifier": "for all files, metadata and lists of subtitles", "why_tests_cant": "The tests read three files that are not in the repository and compare one dump, a range of row numbers and fourteen colours. Which other files are accepted and what all their bytes mean are claims about all files.", "anchors": ["src/stl_binary_reader.cc:STLBinaryReader::read", "src/iso6937.cc:iso6937_to_utf16", "src/stl_binary_tables.cc:file_to_enum", "src/stl_util.cc:stl_dfc_to_frame_rate"]}
{"id": "C121", "title": "What collect returns, exactly", "statement": "If any two times of the raw subtitles can be compared, collect succeeds, and a list of subtitles is what it returns if and only if it is made as follows: sort the raw subtitles by start time, keeping the order of those that start together; cut them into the longest runs whose times (from, to and fades) equal those of the first of the run, a subtitle for each; cut each of these into the longest runs at the height of the first of them, a line for each, placed where its first is; and make of each raw subtitle a block with its text and style.", "quantifier": "for all lists of raw subtitles whose start times are of one kind (all with positive frame rates or all without) and whose times can be compared, and all lists of subtitles", "why_tests_cant": "The tests collect a few hand-made lists. That the result is determined by these rules, for every input and in every order, is a claim about all lists.", "anchors": ["src/collect.h:collect", "src/subtitle.cc:Subtitle::same_metadata", "src/subtitle.cc:Line::same_metadata"]}
{"id": "C122", "title": "What dumpsubs writes, exactly", "statement": "dumpsubs ends well with a text on standard output if and only if its arguments name one file and the text is the dump of that file, by these rules. A name in .srt: the SubRip file that C116 describes. A name in .stl with at least eleven bytes: binary STL (C120) if bytes 3 to 5 are STL, with the 29 fields of the header first, by name; else STL text (C119), with what the reader has to say of lines it does not understand first. A .stl file that is shorter or cannot be opened gives nothing. The subtitles are those of C121, numbered from 0, with times as hours, minutes, seconds and frames, one line of output for each line with its place and its text, in which tags mark changes of italics and underlining. If it fails, the file was a .srt file that cannot be opened, means nothing or has times that cannot be compared, or a .stl file of at least eleven bytes that means nothing; and then nothing is printed except by the reader of STL text.", "quantifier": "for all file systems, all argument lists and all output texts; in the direction from the rules to the program, for SubRip files whose times can be compared", "why_tests_cant": "No test runs the tool; the tests of dump compare with two stored files. The claim is about every file and says there is no other output.", "anchors": ["tools/dumpsubs.cc:main", "src/util.cc:dump", "src/reader_factory.cc:reader_factory", "src/sub_time.cc:operator<<"]}
{"id": "C123", "title": "What write_stl_binary writes, exactly", "statement": "write_stl_binary writes a file if and only if its arguments are acceptable (C55) and every subtitle can be coded, and then the file is the header of C55, zeros up to 1024 bytes and the blocks of the subtitles in order. A subtitle can be coded if it has lines, its lines have rows, and its times have rates. The row of a line at a proportion of the screen is the nearest of 23 (the even one of two), of a line numbered among so many the product without its fraction, and 0 if the line has no place or is placed from the top of the subtitle. The text is that of the lines in order, down as many rows as the row of a line is below that of the line before, with codes where italics or underlining change, all of them off at the end, and 8F. Each block of text is converted character by character: a character of ISO 6937 gives its code or its two codes, seven others a substitute, any other nothing; malformed UTF-8 is left out. The text is cut into pieces of 112 bytes numbered from 0 (modulo 256), the last numbered FF and filled with 8F. Each piece has the times in hours, minutes, seconds and frames at the rate of the file, the least row, and the alignment of the first line.", "quantifier": "for all locales that C55 covers, all arguments, all files; the number of blocks, of subtitles and the longest line must fit int", "why_tests_cant": "The one writer test compares one file with a stored one. The claim is about all subtitles, characters and malformed texts, positions, rates and lengths, and says what is refused or undefined.", "anchors": ["src/stl_binary_writer.cc:make_tti_blocks", "src/stl_binary_writer.cc:vertical_position", "src/stl_binary_writer.cc:write_stl_binary", "src/iso6937.cc:utf16_to_iso6937", "src/sub_time.cc:Time::frames_at"]}
{"id": "C124", "title": "Every binary STL file that is written can be read again", "statement": "Whatever subtitles and texts write_stl_binary accepts, the file it writes is accepted by the reader: its codes are known to the reader, its blocks are all there, and no text in it, however little of the original it can represent, makes the reader go outside its tables. The reader reads as many blocks as the five digits of the count say: all of them if there are fewer than 100000, and otherwise the number made by the first five digits. What is read can be collected, and the result can be coded and written again at any frame rate between 0 and 1000.", "quantifier": "for all locales that C55 covers, all arguments for which a file is written (with counts that fit int), all frame rates from 0 to 1000", "why_tests_cant": "The tests write one file and do not read it. The claim concerns all texts, also those with characters, malformed bytes and combining marks that the character set cannot hold, and all positions, times and lengths.", "anchors": ["src/stl_binary_writer.cc:write_stl_binary", "src/stl_binary_reader.cc:STLBinaryReader::read", "src/iso6937.cc:iso6937_to_utf16", "src/collect.h:collect"]}
{"id": "C125", "title": "What time arithmetic gives, exactly", "statement": "frames_at, all_as_seconds, from_frames, add and scale give exactly the values that follow from correctly rounded double arithmetic: each product, quotient and sum is the double nearest to the exact result (of two equally near ones the one with even significand), each conversion to int is to the nearest whole number or drops the fraction as written in the code, quotient and remainder of whole numbers are those of C++, and the sum is counted in frames of the faster rate. They succeed exactly when such values exist and fit int. The rounding itself is characterised by nearness alone, for float and double, so that the arithmetic used everywhere in this model is IEEE 754 rounding (for numbers within the exponent range).", "quantifier": "for all times, frame rates, counts of frames, factors and rational numbers", "why_tests_cant": "The tests compare a handful of results, one of them only to 0.001 per cent. An arithmetic with another order of operations, a lost rounding or another treatment of ties agrees with the code on nearly all inputs and differs on some.", "anchors": ["src/sub_time.cc:Time::frames_at", "src/sub_time.cc:Time::all_as_seconds", "src/sub_time.cc:Time::from_frames", "src/sub_time.cc:Time::add", "src/sub_time.cc:Time::scale", "src/rational.h:Rational::fraction"]}
{"id": "C126", "title": "The limits of float and double never matter", "statement": "Model/Float.lean calculates with an unbounded exponent. With IEEE 754 binary32 and binary64 instead (smallest exponents, gradual underflow, overflow), specified by nearness alone, the results are the same: for all of Time and Rational on all int values (and any float as the factor of Time::scale); for every SubRip file; for every SSA script in a file, and for every one given as a string of fewer than 2^31 bytes, as long as each decimal number used for a position is 0 or between 2^-90 and 2^90 in size; and for positions, font sizes and frame rates that are ints or floats up to 2^96.", "quantifier": "all times, rates and float factors; all byte strings; all positions, sizes and frame rates", "why_tests_cant": "Underflow and overflow occur only for extreme inputs, and a script can move a position by a line any number of times; that no sequence of lines, tags and line breaks ever leaves the range of normal floats needs an invariant over all of them.", "anchors": ["src/sub_time.cc:Time::frames_at", "src/sub_time.cc:Time::all_as_seconds", "src/sub_time.cc:Time::add", "src/sub_time.cc:Time::scale", "src/ssa_reader.cc:SSAReader::parse_line", "src/ssa_reader.cc:SSAReader::parse_tag", "src/ssa_reader.cc:SSAReader::read", "src/subrip_reader.cc:SubripReader::convert_line", "src/colour.cc:Colour::from_rgb_hex", "src/vertical_position.cc:VerticalPosition::fraction_from_screen_top", "src/stl_binary_writer.cc:vertical_position"]}
{"id": "C127", "title": "Readers invent no text", "statement": "The texts that the SubRip, WebVTT, SSA and STL text readers report, one after another, are what remains of the file when some of its bytes are left out: nothing is added, doubled or moved. For binary STL the same holds of the ISO 6937 text that they stand for, taken from behind the header. So there are never more bytes of text than bytes in the file (three times as many for binary STL, because of UTF-8), and never more subtitles than bytes. The name of every font is to be found in the file in one piece.", "quantifier": "all byte strings on which a reader returns, string and FILE* input", "why_tests_cant": "It is a relation between every file and everything reported for it; a leak of text from one subtitle into the next, or text reported twice, happens only for particular sequences of tags and lines.", "anchors": ["src/subrip_reader.cc:SubripReader::read", "src/subrip_reader.cc:SubripReader::convert_line", "src/web_vtt_reader.cc:WebVTTReader::read", "src/ssa_reader.cc:SSAReader::read", "src/ssa_reader.cc:SSAReader::parse_line", "src/stl_text_reader.cc:STLTextReader::STLTextReader", "src/stl_binary_reader.cc:STLBinaryReader::read"]}
{"id": "C128", "title": "Shifting and scaling keep the order of times", "statement": "If one time is not later than another, then it is not later after the same time has been added to both, or both have been scaled by the same factor that is not negative: as the instants that the times denote and as operator< sees them. Scaled times have frame numbers between 0 and the rate. Times may become equal (a millisecond can be lost by add), but the distance between two times in milliseconds changes by at most one, so times two milliseconds apart stay apart.", "quantifier": "all times at one positive rate with frames from 0 to the rate, all times added, all non-negative factors, whenever add and scale return", "why_tests_cant": "add and scale go through doubles that are rounded or truncated several times; whether two nearby times can ever change places is a question about all pairs of doubles.", "anchors": ["src/sub_time.cc:Time::add", "src/sub_time.cc:Time::scale", "src/sub_time.cc:Time::all_as_seconds", "src/sub_time.cc:Time::frames_at", "src/sub_time.cc:operator<"]}
{"id": "C129", "title": "Subtitles can be moved in time before or after collecting", "statement": "collect uses times only by comparing them with < and ==: if all times are changed in such a way that these comparisons give what they gave before, then collecting the changed subtitles gives what collecting gave, with the same change (and fails in the same way if it failed). So moving all subtitles by whole seconds commutes with collect, at any frame rates; and so does moving them by add, if they are in milliseconds and times that differ do so by two milliseconds or more. Otherwise add may make one subtitle of two.", "quantifier": "all lists of raw subtitles and all changes of their times that keep comparisons; all numbers of seconds", "why_tests_cant": "It compares two runs of collect on every input; a dependence on absolute times, or on the order of sorting equal times, would show up only in particular combinations.", "anchors": ["src/collect.h:collect", "src/subtitle.cc:Subtitle::same_metadata", "src/raw_subtitle.cc:operator<", "src/sub_time.cc:Time::add"]}
{"id": "C130", "title": "Times are those written in the file, and ordinary files can be collected", "statement": "Every subtitle that the SubRip or WebVTT reader returns has the two times written as first and third word on one line of the file; every subtitle that the SSA reader returns has times written among the values of one line of dialogue, provided that wherever a format names the columns Start and End come before Text. So a SubRip or WebVTT file without more than six digits in a row anywhere, and such an SSA file without more than five, can be collected without exception or overflow.", "quantifier": "all files that the reader accepts", "why_tests_cant": "Times are carried from a time line through all parts of a cue, tags, line breaks and styles; a stale or altered time shows up only in particular combinations, and overflow only for particular pairs of times.", "anchors": ["src/subrip_reader.cc:SubripReader::read", "src/subrip_reader.cc:SubripReader::convert_time", "src/web_vtt_reader.cc:WebVTTReader::read", "src/ssa_reader.cc:SSAReader::read", "src/ssa_reader.cc:SSAReader::parse_line", "src/collect.h:collect"]}
{"id": "C131", "title": "Memory and files are given back", "statement": "When write_stl_binary returns, every block of memory that it took with new has been in use as long as it was needed, has been freed exactly once, and what was output is the file. When it throws, nothing was output and the blocks of all subtitles before the first that cannot be written are never freed; that is some exactly if the arguments are valid and the first subtitle can be written. reader_factory leaves a SubRip file open exactly if the reader throws; so a process that has met as many bad SubRip files as it may have files open can read no SubRip file any more, and all STL files then seem to be empty.", "quantifier": "all arguments and locales; all sequences of files and all limits on open files", "why_tests_cant": "Leaks and uses of freed memory are invisible to assertions on results; exhaustion needs long runs.", "anchors": ["src/stl_binary_writer.cc:make_tti_blocks", "src/stl_binary_writer.cc:write_stl_binary", "src/reader_factory.cc:reader_factory"]}
{"id": "C132", "title": "A plain SubRip file and the WebVTT file made of it mean the same", "statement": "Take a SubRip file that the SubRip reader accepts, whose time lines have an arrow, whose counters are neither notes nor contain an arrow, and whose text has no angle bracket, brace, right-to-left embedding or empty part. Put WEBVTT and a blank line before it and change the commas of the time lines to full stops: the WebVTT reader then gives exactly the same subtitles (text, times, line numbers and all other attributes). With tags, or another word than the arrow, it need not.", "quantifier": "all files of that kind, of any length, with any line ends and a byte order mark", "why_tests_cant": "It relates two separately written readers on all files; the tests run each reader on its own few files.", "anchors": ["src/subrip_reader.cc:SubripReader::read", "src/subrip_reader.cc:SubripReader::convert_line", "src/web_vtt_reader.cc:WebVTTReader::read"]}
{"id": "C133", "title": "How reading a SubRip or WebVTT file fails, exactly", "statement": "Reading a SubRip or WebVTT file fails for a given reason exactly if it has a line that fails for that reason after lines which can be read. For SubRip: a line where times are expected which is not a time line (exception with what was seen, what was expected, the line number and the lines around it), numbers in it too large for int (undefined behaviour), or text with a font tag without a colour, with a colour that is not one, a closing font tag where none is open (undefined behaviour), an override tag that cannot be read, or too many parts of lines. For WebVTT: a first line which is not a WebVTT header, a bad or too large time line between cues, or too many parts of lines in a cue. Nothing else makes either reader fail, and which failure is reported is determined.", "quantifier": "all lists of lines, all reasons for failure; all override tags and font tags", "why_tests_cant": "The project's tests have one bad SubRip file and check only that it is refused; only a proof can say of every file whether and how it fails, and that no failure is missed or masked by another.", "anchors": ["src/subrip_reader.cc:SubripReader::read", "src/subrip_reader.cc:SubripReader::convert_line", "src/web_vtt_reader.cc:WebVTTReader::read", "src/ssa_reader.cc:SSAReader::parse_tag", "src/exceptions.cc:SubripError::SubripError"]}
{"id": "C134", "title": "How reading an STL text or SSA file fails, exactly", "statement": "Reading an STL text file or an SSA file fails for a given reason exactly if it has a line that fails for that reason after lines which can be read. For STL text: a time with four parts of which one is not a number (bad_lexical_cast) or is too large (undefined behaviour), a font size which is not a number, or too many lines in a subtitle. For SSA: a line which is neither blank, comment nor heading and has no colon; a width or height, margin or part of a time too large for int (undefined behaviour); a style or line of dialogue before its format line or with too few (for a style: not as many) values, or a time without three separators (assertions); a colour that begins with & but not with &H (exception with the colour in its message); a screen size of zero or overflowing margins; or the first override tag of a text which is wrong. The first such column or tag decides, and nothing else makes either reader fail: in particular moving down at line breaks and the final placement of SSA subtitles never fail.", "quantifier": "all contents of STL text files, all lists of lines of SSA files, all reasons for failure; all styles, lines of dialogue, times and texts", "why_tests_cant": "The project's tests have no STL text or SSA file that is refused; only a proof can say of every file whether and how it fails, and that no failure is missed or masked by another.", "anchors": ["src/stl_text_reader.cc:STLTextReader::STLTextReader", "src/stl_text_reader.cc:STLTextReader::set", "src/ssa_reader.cc:SSAReader::read", "src/ssa_reader.cc:SSAReader::parse_line", "src/ssa_reader.cc:SSAReader::parse_time", "src/ssa_reader.cc:h_colour"]}
{"id": "C135", "title": "How reading a binary STL file fails, exactly", "statement": "Reading a binary STL file fails for a given reason exactly if: it is shorter than 1024 bytes (\"Could not read GSI block ...\"); or its header has an unknown disk format code, display standard, language group, language or timecode status, and the message names the first of these, in this order, and quotes it; or one of the blocks it announces, after announced blocks which can be read, is not all there (\"Could not read TTI block ...\"), has a comment code other than 0 and 1 (which the message gives in decimal), or has text that sends the character decoder outside its table (undefined behaviour). Nothing else in the file makes reading fail.", "quantifier": "all byte strings and all reasons for failure", "why_tests_cant": "The project's tests read files that are well formed; only a proof can say of every file whether, where and with which message it fails.", "anchors": ["src/stl_binary_reader.cc:STLBinaryReader::STLBinaryReader", "src/stl_binary_tables.cc:STLBinaryTables::STLBinaryTables", "src/stl_util.cc:stl_dfc_to_frame_rate"]}
{"id": "C136", "title": "How writing a binary STL file fails, exactly", "statement": "write_stl_binary fails for a given reason exactly if an argument is not acceptable (assertion), or else the first subtitle that cannot be coded fails for that reason. A subtitle fails with the first of its lines without a row: one with a number but not of how many lines (undefined behaviour), of zero lines (division by zero), or whose row is no int (undefined behaviour); if all lines have rows, with a rate of the file that is too large, then with its start, then with its end: a time without a rate (UnknownFrameRateError), with a rate that overflows or is zero, or with more frames than an int holds; and lastly because it has no lines (undefined behaviour). The text never makes writing fail. A line fails exactly if it has no row, a time exactly if it cannot be coded.", "quantifier": "all arguments of write_stl_binary for which the header has room for the counts, all ordinary locales, all reasons for failure; all subtitles, lines and times", "why_tests_cant": "The tests write only subtitles that can be written; only a proof can say of every list of subtitles whether and how it fails.", "anchors": ["src/stl_binary_writer.cc:make_tti_blocks", "src/stl_binary_writer.cc:vertical_position", "src/stl_binary_writer.cc:write_stl_binary", "src/sub_time.cc:Time::frames_at"]}
{"id": "C137", "title": "SSA files with infinities, NaN and numbers of any size", "statement": "An SSA file whose PlayResX or PlayResY is 0 is read, not refused: the size of the screen is no reason for the reader to fail, and changing the given width or height (to any for which twice the width is an int) changes nothing in the subtitles (or in the error) other than the horizontal and vertical positions and font sizes. So such a file gives the same texts, times, styling, colours and references as the same file for an ordinary screen. Its positions and sizes are infinite or not a number: with a height of 0, text without line breaks which is placed from the bottom of the screen has the position NaN. A number in the file (\\pos, \\fs, MarginV) may also be inf, infinity or nan in any case, and otherwise is rounded to the nearest float however large or small it is; only one too large for a float is undefined behaviour. The reader thus does something definite for every file. Wherever the model with rationals only has a result, reading with infinities gives the same.", "quantifier": "all contents of SSA files from a string or a FILE*, all widths and heights, all texts with their tags", "why_tests_cant": "The tests have no file with a screen of no size; that texts and times are independent of the screen size is a statement about pairs of all files.", "anchors": ["src/ssa_reader.cc:SSAReader::read", "src/ssa_reader.cc:SSAReader::parse_line", "src/ssa_reader.cc:SSAReader::parse_tag", "src/ssa_reader.cc:SSAReader::Context::update_horizontal_position", "src/font_size.cc:FontSize::proportional", "src/locale_convert.cc"]}
{"id": "C138", "title": "SubRip files with infinities and numbers of any size", "statement": "Every SubRip file is read or refused according to IEEE arithmetic with infinities and NaN: places and sizes given as inf, infinity or nan, or so small or large that rounding reaches the ends of the format, give the infinite, not-a-number or subnormal value, and no such value makes the reader fail; a number too large for float is undefined behaviour of the scanning. Wherever no infinity arises, reading with infinities is reading without.", "quantifier": "all lists of lines of SubRip files", "why_tests_cant": "The tests have no number outside a narrow range; that the arithmetic of the other theorems is that of the machine on all other files is a statement about all files.", "anchors": ["src/subrip_reader.cc:SubripReader::read", "src/subrip_reader.cc:SubripReader::convert_line", "src/ssa_reader.cc:SSAReader::parse_tag"]}
{"id": "C139", "title": "Collecting subtitles at places that are no numbers", "statement": "Collecting raw subtitles whose places are infinite or not a number loses, invents and moves nothing: the blocks of the result are the raw subtitles stably sorted by start time, each in a line with the place of some raw subtitle. But a place that is not a number is not equal to itself: where all subtitles have a proportional vertical place with a reference, as all have that an SSA file gives, no two pieces of text at such a place share a line. So text with a change of style half way, which is one line of two blocks on an ordinary screen, is two lines if the file says that the screen has no height. Subtitles with finite places are collected as before.", "quantifier": "all lists of raw subtitles with places of any kind; all SSA files", "why_tests_cant": "The tests collect only subtitles at finite places; the claim is about all lists.", "anchors": ["src/collect.h:collect", "src/vertical_position.cc:VerticalPosition::operator==", "src/subtitle.cc:Line::same_metadata"]}
{"id": "C140", "title": "Reading and writing do not depend on the locale", "statement": "Reading an SSA or SubRip file, from a string or a FILE*, gives the same result in every locale, and so does writing a binary STL file, provided that the locale's decimal point and thousands separator are not parts of numbers. The one exception when reading is a locale whose decimal point is not a full stop together with a file that has that character in a fractional number: with a decimal comma that can only be a font size in an override tag, or a vertical margin in the last column of an SSA file. There the locale does matter: {\\fs14,4} is size 14 in most locales and size 14.4 where numbers have a comma.", "quantifier": "all locales whose decimal point and thousands separator have no characters of numbers, all files and all arguments of the writer", "why_tests_cant": "The tests read files in the locale of the machine and do not change it; the claim is about all locales and all files.", "anchors": ["src/raw_convert.cc:make_local", "src/raw_convert.cc:make_raw", "src/ssa_reader.cc:SSAReader::read", "src/ssa_reader.cc:SSAReader::parse_line", "src/subrip_reader.cc:SubripReader::read", "src/subrip_reader.cc:SubripReader::convert_line", "src/stl_binary_writer.cc:write_stl_binary"]}
{"id": "C141", "title": "The order of the subtitles in a file does not matter", "statement": "The parts of a SubRip or WebVTT file that end with a blank line, the dialogue lines at the end of an SSA file, and the blocks of a binary STL file can be put in any other order without changing the subtitles that collect makes of what is read, provided that subtitles of different parts start at different times. (Subtitles that start together are kept in the order of the file, so the proviso is needed.)", "quantifier": "all files of the four kinds, all ways of taking them apart and all orders of the parts", "why_tests_cant": "The tests read files whose subtitles are in order; the claim is about all files and all permutations.", "anchors": ["src/collect.h:collect", "src/subrip_reader.cc:SubripReader::read", "src/web_vtt_reader.cc:WebVTTReader::read", "src/ssa_reader.cc:SSAReader::read", "src/stl_binary_reader.cc:STLBinaryReader::read"]}
{"id": "C142", "title": "Cutting a programme in two", "statement": "Choosing subtitles by when they start can be done before collect or after it with the same result. In particular where all raw subtitles of one part start before all of another, collect of the two together gives the subtitles of the first part and then those of the second, whatever order they are given in; and the SubRip file of a second reel can be put after that of the first with a blank line between them. (It is not so for when subtitles end: three raw subtitles that start together, the second ending later, are three subtitles, but the first and the third on their own are one.)", "quantifier": "all lists of raw subtitles with comparable times, all ways of choosing by start time, all pairs of SubRip files", "why_tests_cant": "The tests collect a few fixed lists; the claim relates collect on a list to collect on every part of it chosen by start time.", "anchors": ["src/collect.h:collect", "src/subrip_reader.cc:SubripReader::read"]}
{"id": "C143", "title": "What is in the file after write_stl_binary", "statement": "If write_stl_binary throws, the file is as it was before. If it does not throw, it returns normally whatever becomes of the file: if the file cannot be opened it is as it was, and otherwise it has as many of the bytes that should be in it as there is room for. So a full disk goes unnoticed (the claim that the subtitles are in the file whenever the function returns is false), but not for long: reading a written file of fewer than 100000 blocks that is not all there fails with \"Could not read GSI block ...\" or \"Could not read TTI block ...\", as it does for any readable file that is cut off within its header or the blocks it announces.", "quantifier": "all arguments, locales, states of the disk, earlier contents of the file, and all places at which a readable file can be cut off", "why_tests_cant": "The tests write to a disk with room; what happens for each number of bytes that fit, and what the reader makes of each of them, is infinitely many cases.", "anchors": ["src/stl_binary_writer.cc:write_stl_binary", "src/stl_binary_reader.cc:STLBinaryReader::read"]}
{"id": "C144", "title": "The ISO 6937 tables are what their script makes of the Unicode data", "statement": "src/iso6937_tables.cc and src/iso6937_tables.h are byte for byte what src/iso6937.py makes of every file of Unicode character data in which the letters with marks have the codes that they have in the tables, whatever else is in the file and in whatever order: so the script can be run again with another version of the data. The script finds the code in the first row with a name; if a letter is missing it says which and stops, and it raises no exception on a file made of rows. The assignments in iso6937_tables.cc are the tables used by the model, all of them and in this order.", "quantifier": "all files of character data", "why_tests_cant": "No test runs the script; the claim is about all data files it may be given.", "anchors": ["src/iso6937.py:find_unicode", "src/iso6937.py:fill", "src/iso6937_tables.cc:make_iso6937_tables"]}
{"id": "C145", "title": "The regular expressions of the SubRip and WebVTT readers", "statement": "With the regular expressions as they are written in the source, and a search that takes the leftmost match and tries repetitions greedily with backtracking, the colour of every <font> tag and the lines into which every line is split at U+2028 are the ones described by the rest of this model (the last color= followed by a number with #, else the last color=\"rgba(...)\"; pieces between separators). For every expression of this syntax the search finds a string that the expression describes, none further left exists, and if it finds nothing no part of the text is described by the expression. The number of steps of a search in a tag grows with the square of its length at most.", "quantifier": "all tags, all lines; all expressions of the syntax used and all texts", "why_tests_cant": "A few tags are tested; the claim is about every tag, including several colours in one tag, quotes, spaces and malformed ones.", "anchors": ["src/subrip_reader.cc:SubripReader::convert_line", "src/subrip_reader.cc:SubripReader::read", "src/web_vtt_reader.cc:WebVTTReader::WebVTTReader"]}
{"id": "C146", "title": "Dumping and writing subtitles at places that are no numbers", "statement": "dumpsubs deals with every SubRip file, also with places that are infinite or not a number: it writes each line with its place as inf, -inf or nan, and no such place makes it fail; where all places are finite it writes what C122 says. But writing a binary STL file with a line at such a place (unless it is measured from the top of the subtitle) is undefined behaviour, as the writer makes an int of it; so no SSA file with one subtitle at such a place, for example any file whose screen has no height, can be written as STL. Lines at finite places are written as before.", "quantifier": "all file systems and arguments; all SubRip files; all lists of raw subtitles with a proportional place, in particular all SSA files", "why_tests_cant": "The tests have no such places, and undefined behaviour is invisible to tests.", "anchors": ["src/util.cc:dump", "tools/dumpsubs.cc:main", "src/stl_binary_writer.cc:vertical_position", "src/stl_binary_writer.cc:make_tti_blocks"]}
{"id": "C147", "title": "Time codes in a binary STL file are in the order of the times", "statement": "When subtitles are written to a binary STL file, whatever the rates of their times, the time code of the earlier instant is never greater than that of the later, also across the end of a second where the frame number may be the rate itself; instants more than a frame apart have different codes. So if subtitles were in the order of their starts when they were written, what is read from the file is in order, with no end before its start; and subtitles that last longer than a frame come back with a duration. (Exactly a frame is not enough.)", "quantifier": "all pairs of times of subtitles below 256 hours, with rates whose numerator is positive and at most 1000000 and frames within the second; all rates of the writer up to 255; all files so written", "why_tests_cant": "Order has to hold for every pair of times, at every pair of rates and through the rounding of doubles; the tests write a few times.", "anchors": ["src/sub_time.cc:Time::frames_at", "src/stl_binary_writer.cc:make_tti_blocks", "src/stl_binary_reader.cc:STLBinaryReader"]}
{"id": "C148", "title": "What may be changed in a SubRip or WebVTT file without changing its meaning", "statement": "Two SubRip files are read alike, or neither can be read, if they differ only in blank lines before, between and after cues, in the numbers of the cues (which need not be numbers), in a number without a cue at the end, in line ends and byte order marks, in what stands between and after the two times, in the way the times are written (leading zeros) and in the way tags are written (case, angle brackets or braces). Two WebVTT files are read alike if they differ only in the rest of the first line, in notes, cue identifiers, blank lines and other lines outside cues, in what stands between and after the times and in the way these are written. The blank line after a cue matters.", "quantifier": "all pairs of files related by any number of such changes, in any order and at any places", "why_tests_cant": "The changes can be combined and placed in unboundedly many ways in any file; the tests compare a few fixed files with fixed results.", "anchors": ["src/subrip_reader.cc:SubripReader::read", "src/subrip_reader.cc:SubripReader::convert_line", "src/web_vtt_reader.cc:WebVTTReader::read"]}
{"id": "C149", "title": "Which bytes of a binary STL file matter", "statement": "Reading a binary STL file gives the same, information, subtitles or error, whatever stands in the header after byte 372, in the first five bytes of a block (group, number, extension, cumulative status), in a comment other than its flag, in the rest of a row after a byte 8F, and after the last block that the header announces; of the alignment it only matters whether it is 1 or 3. In the header, no byte from 3 to 11, 14 to 237, 255 to 271 and 274 to 372 can be changed without changing the information.", "quantifier": "all files, whether they can be read or not, and all combinations of such changes in any number of blocks", "why_tests_cant": "The bytes that are not to matter can have any values, in any combination; a test fixes them, and cannot see that nothing depends on them.", "anchors": ["src/stl_binary_reader.cc:STLBinaryReader::read", "src/stl_binary_reader.cc:InputReader::get_string"]}
{"id": "C150", "title": "Signs of zero and of what is no number", "statement": "A vertical position that a SubRip file gives with a minus sign keeps it even if it is zero or NaN, and dumpsubs prints it: -0, -nan. The sign bit makes no other difference: reading, collecting and failures are as without it, and the output is the same but for a minus sign before some places 0 and nan. If no line of the file has both a backslash and a minus sign there are no such signs. A number has the sign bit exactly if, after blanks, it is written with a minus sign and there is a number after it. The sign and the place of a raw subtitle are those of the last tag \\pos before it, the sign agrees with the value where that is not zero, there is none without a place, and the first of the raw subtitles of a line gives the line its place and sign.", "quantifier": "all file systems, all arguments of dumpsubs, all contents of the file", "why_tests_cant": "Zero with a minus sign equals zero in every comparison a test would make; that it alters nothing but the two characters concerns all files.", "anchors": ["src/ssa_reader.cc:SSAReader::parse_tag", "src/util.cc:dump", "src/collect.h:collect", "src/locale_convert.cc:locale_convert"]}
{"id": "C151", "title": "What may be changed in an SSA or STL text file without changing its meaning", "statement": "An SSA file gives the same subtitles, or the same error, if lines are added or taken out that do nothing where they stand (blank lines, comments, unknown or repeated section headings, fields of other types than those of the section), if the size of the screen, a style, the names of columns or a line of dialogue are written in another way that means the same (blanks around values, other spellings of times and margins, stars before the name of a style, anything in columns that are not used, the text in one of the ways of C154), and whatever follows a wrong line. An STL text file gives the same subtitles if lines that say nothing are added or taken out and the others are replaced by ones that say the same, whatever stands after the last newline.", "quantifier": "all pairs of files, with any number of such changes anywhere", "why_tests_cant": "The lines that may be added and the other ways of writing are unlimited in number and combination, and which line does something depends on what stands before it.", "anchors": ["src/ssa_reader.cc:SSAReader::read", "src/ssa_reader.cc:SSAReader::parse_line", "src/stl_text_reader.cc:STLTextReader"]}
{"id": "C152", "title": "A read error is taken for the end of the file", "statement": "If a SubRip, WebVTT or SSA file that is read through a FILE* cannot be read beyond some byte, the reader does as if the file ended before the line with that byte: the subtitles and the errors are those of the shorter file. The read error itself is never reported: whenever the whole file can be read, so can the broken one, with the first of the subtitles as result, and dumpsubs ends with exit code 0. Without a read error nothing changes.", "quantifier": "all files, all places of the error", "why_tests_cant": "A test would need a failing device, and the error may be at any byte of any file; that no place of it is ever noticed is a statement about all of them.", "anchors": ["src/util.cc:get_line_file", "src/subrip_reader.cc:SubripReader::read", "src/web_vtt_reader.cc:WebVTTReader::read", "src/ssa_reader.cc:SSAReader::read", "src/reader_factory.cc:reader_factory"]}
{"id": "C153", "title": "Hex colours with the scanf of glibc", "statement": "In glibc, where %2x reads 0x as the number 0 though no digit follows, from_rgb_hex and from_rgba_hex accept exactly the strings that begin with three or four numbers, a number being as in ISO C or 0x. Whatever is a colour by ISO C is the same colour, and strings without a letter x are treated alike, errors included. The colours of SubRip files do not depend on this: font tags give the same colour or error.", "quantifier": "all strings; all font tags", "why_tests_cant": "That only strings with 0x at the start of a number make a difference, and that none of them gets through the regular expression of the SubRip reader, is a statement about all strings.", "anchors": ["src/colour.cc:Colour::from_rgb_hex", "src/colour.cc:Colour::from_rgba_hex", "src/subrip_reader.cc:SubripReader::convert_line"]}
{"id": "C154", "title": "What may be changed in the text of an SSA dialogue without changing its meaning", "statement": "A text of a dialogue gives the same subtitles, or the same error, if a break is written with n or N, if remarks in braces and line feeds are added or taken out, if tags without effect are added to or taken out of a group, if tags are spread over groups next to each other, if a group of tags without effect before a break or at the end is added or taken out, and if a size, place or colour is written in another way that means the same, as long as the number of places with a backslash before n or N stays the same.", "quantifier": "all contexts, all base styles and all pairs of texts, with any number of such changes anywhere", "why_tests_cant": "The changes are unlimited in number and combination, and what a character means depends on all that stands before it.", "anchors": ["src/ssa_reader.cc:SSAReader::parse_line", "src/ssa_reader.cc:SSAReader::parse_tag"]}
{"id": "C155", "title": "The order of the styles of an SSA file does not matter", "statement": "Lines one after the other that define styles of different names may be put in any order: the file gives the same subtitles, or an error in both cases. Of two styles of the same name the last one counts. The width and the height of the screen, one after the other, may be given in either order. The columns of a table of styles may be in any order, if their names differ and the format and all styles are changed together.", "quantifier": "all files, all places in them, all numbers of style lines, all permutations of them", "why_tests_cant": "The number of styles and of their orders is unlimited, and so are the lines after them that look styles up by name.", "anchors": ["src/ssa_reader.cc:SSAReader::read"]}
