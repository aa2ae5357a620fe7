{"id": "C01", "title": "HTML output preserves the source text", "statement": "When ulight_source_to_html returns OK, removing the emitted tags from the concatenation of all flushed text and decoding the three entities &lt; &gt; &amp; yields exactly the bytes of the source, in order, with nothing lost, duplicated or reordered.", "quantifier": "every byte string used as source, every modelled language, every flag combination, every token and text buffer capacity >= 1, every non-empty tag name and attribute name", "why_tests_cant": "The golden files cover a few hundred hand-written snippets with one buffer size; loss at a flush boundary or on malformed input only shows on inputs nobody wrote down.", "anchors": ["src/main/cpp/ulight.cpp:ulight_source_to_html", "src/main/cpp/ulight.cpp:append_html_escaped", "include/ulight/impl/buffer.hpp:Non_Owning_Buffer"]}
{"id": "C02", "title": "HTML output cannot be injected into", "statement": "The concatenated HTML output is a sequence of escaped text runs and elements of the exact shape <tag attr=id>escaped</tag>; no '<', '>' or '&' of the source ever reaches the output unescaped, and elements never nest.", "quantifier": "every source byte string, every modelled language, every flag combination and buffer capacity", "why_tests_cant": "A single unescaped byte in one code path is a cross-site-scripting hole; tests can only show its absence on sampled inputs.", "anchors": ["src/main/cpp/ulight.cpp:html_entity_of", "src/main/cpp/ulight.cpp:append_html_escaped", "src/main/cpp/ulight.cpp:ulight_source_to_html"]}
{"id": "C03", "title": "Text buffer capacity is unobservable", "statement": "The concatenation of the text chunks passed to flush_text does not depend on the capacity of the text buffer, every chunk is non-empty and no longer than the capacity, and every chunk except the last one is exactly full.", "quantifier": "every sequence of pushes and appends and every capacity >= 1", "why_tests_cant": "Boundary behaviour depends on the residue of the output length modulo the capacity; only a handful of residues are ever exercised.", "anchors": ["include/ulight/impl/buffer.hpp:Non_Owning_Buffer::append", "include/ulight/impl/buffer.hpp:Non_Owning_Buffer::push_back", "include/ulight/impl/buffer.hpp:Non_Owning_Buffer::flush"]}
{"id": "C04", "title": "Token stream delivery is lossless", "statement": "The concatenation of all token batches passed to flush_tokens is exactly the sequence of tokens the highlighter emitted (after coalescing with the still-buffered last token where that is enabled); batches are non-empty and at most the buffer length.", "quantifier": "every emission history, every token buffer length >= 1, coalescing on or off", "why_tests_cant": "Requires all histories of emissions interleaved with flushes.", "anchors": ["include/ulight/impl/buffer.hpp:Non_Owning_Buffer::emplace_back", "include/ulight/impl/highlighter.hpp:Highlighter_Base::emit", "src/main/cpp/ulight.cpp:ulight_source_to_tokens"]}
{"id": "C05", "title": "Coalescing keeps the highlighting of every byte", "statement": "With or without ULIGHT_COALESCE, and for every token buffer length, the map from source byte positions to highlight types described by the token stream is the same; with the flag and a buffer that never overflows, no two adjacent touching tokens have the same type.", "quantifier": "every emission history of well-formed tokens, every buffer length >= 1, both flag values", "why_tests_cant": "The effect depends on where flushes fall relative to runs of equal types, an unbounded combination.", "anchors": ["include/ulight/impl/highlighter.hpp:Highlighter_Base::emit", "include/ulight/ulight.h:ULIGHT_COALESCE"]}
{"id": "C06", "title": "Token streams are well formed", "statement": "Every token emitted has non-zero length, lies inside the source, and tokens are in increasing order without overlap.", "quantifier": "every source byte string, every modelled language and flag combination", "why_tests_cant": "Consumers index the source with token offsets; a single out-of-range or overlapping token on a malformed input is memory-unsafe. The repository's exhaustive test stops at three characters.", "anchors": ["include/ulight/ulight.h:ulight_token", "include/ulight/impl/highlighter.hpp:Highlighter_Base", "src/main/cpp/lang"]}
{"id": "C07", "title": "Highlighting is total", "statement": "ulight_source_to_tokens terminates with status OK for every byte string in every modelled language: no assertion fails, no out-of-range access happens and no loop runs forever.", "quantifier": "every byte string including malformed UTF-8, embedded zero bytes and unterminated constructs; both flags", "why_tests_cant": "Termination and absence of assertion failures on all inputs are not testable.", "anchors": ["src/main/cpp/ulight.cpp:ulight_source_to_tokens", "include/ulight/impl/highlight.hpp:highlight", "src/main/cpp/lang"]}
{"id": "C08", "title": "Invalid states are rejected with the documented status", "statement": "ulight_source_to_tokens and ulight_source_to_html return BAD_STATE, BAD_BUFFER or BAD_LANG exactly for the documented invalid states, checked in a fixed order, before anything is flushed and without touching the source; any other state proceeds to highlighting.", "quantifier": "every combination of null/non-null pointers, zero/non-zero lengths and every language number", "why_tests_cant": "The decision table has hundreds of combinations and an unbounded language number.", "anchors": ["src/main/cpp/ulight.cpp:check_flush_validity", "src/main/cpp/ulight.cpp:ulight_source_to_tokens", "src/main/cpp/ulight.cpp:ulight_source_to_html", "include/ulight/ulight.h:ulight_status"]}
{"id": "C09", "title": "Language lookup by name is exact", "statement": "ulight_get_lang returns language L for a name exactly when the (name, L) pair is in the published list, and NONE for every other string; names in the list are unique, lower-case and non-empty, and every language except NONE has at least one name.", "quantifier": "every byte string as name", "why_tests_cant": "The lookup is a binary search whose correctness depends on the order of the whole table and holds or fails per query string.", "anchors": ["src/main/cpp/ulight.cpp:ulight_get_lang", "src/main/cpp/ulight.cpp:ulight_lang_list"]}
{"id": "C10", "title": "Language lookup by path uses the extension", "statement": "ulight_lang_from_path looks up exactly the characters after the last '.' of the path and returns NONE for a path with no '.'; the u8 overload is documented to do the same.", "quantifier": "every byte string as path", "why_tests_cant": "Quantifies over all paths.", "anchors": ["src/main/cpp/ulight.cpp:ulight_lang_from_path", "src/main/cpp/ulight.cpp:ulight_lang_from_path_u8"]}
{"id": "C11", "title": "Highlight type strings identify the type", "statement": "ulight_highlight_type_long_string and _short_string return a non-empty string that is a legal unquoted HTML attribute value for every published highlight type and the empty string for every other number, and different types have different strings.", "quantifier": "every value of the highlight type (all integers) and all pairs of types", "why_tests_cant": "Injectivity is a statement about all pairs; tests spot-check a few.", "anchors": ["src/main/cpp/ulight.cpp:ulight_highlight_type_long_string", "src/main/cpp/ulight.cpp:ulight_highlight_type_short_string", "include/ulight/ulight.hpp:ULIGHT_HIGHLIGHT_TYPE_ENUM_DATA"]}
{"id": "C12", "title": "UTF-8 validation is exactly the Unicode definition", "statement": "utf8::is_valid accepts a byte string exactly when it is a concatenation of encodings of Unicode scalar values (no overlong forms, surrogates, or values above U+10FFFF).", "quantifier": "every byte string of any length", "why_tests_cant": "Infinitely many strings; classical validators fail on rare combinations such as E0 80 80 or F4 90.", "anchors": ["include/ulight/impl/unicode.hpp:is_valid", "include/ulight/impl/unicode.hpp:is_valid_second_utf8_byte"]}
{"id": "C13", "title": "UTF-8 encode and decode are inverse", "statement": "Decoding the encoding of any scalar value returns that value and its length, encoding is injective, and encoding what a valid sequence decodes to reproduces the sequence.", "quantifier": "every Unicode scalar value; every valid UTF-8 sequence", "why_tests_cant": "1.1 million scalars and all their sequences; unit tests check a few.", "anchors": ["include/ulight/impl/unicode.hpp:encode8_unchecked", "include/ulight/impl/unicode.hpp:decode_and_length", "include/ulight/impl/unicode.hpp:decode_unchecked"]}
{"id": "C14", "title": "Lenient decoding always makes progress and never over-reads", "statement": "utf8::decode_and_length_or_replacement on a non-empty string consumes between one and four bytes, never more than are present, returns the scalar value when the string starts with a valid sequence and U+FFFD otherwise, never swallows a byte that starts a new valid sequence, and repeated decoding consumes the string exactly.", "quantifier": "every non-empty byte string", "why_tests_cant": "Malformed input space is unbounded; termination of every identifier scanner depends on it.", "anchors": ["include/ulight/impl/unicode.hpp:decode_and_length_or_replacement"]}
{"id": "C15", "title": "Unicode search matches its specification", "statement": "utf8::find_if returns the byte offset of the first code point satisfying the predicate (or npos), with the four-byte fast loop and the tail loop agreeing with plain one-by-one decoding; length_if / length_if_not / all_of / any_of / none_of are consistent with it.", "quantifier": "every byte string and every predicate on code points", "why_tests_cant": "The two loops split the input at a position that depends on its length.", "anchors": ["include/ulight/impl/unicode_algorithm.hpp:find_if", "include/ulight/impl/unicode_algorithm.hpp:length_if"]}
{"id": "C16", "title": "ASCII search matches its specification", "statement": "ascii::find_if / find_if_not / length_if / length_if_not / length_if_head_tail / length_before / length_until return the length of the longest prefix described by their documentation.", "quantifier": "every byte string, every predicate, every start offset", "why_tests_cant": "Prefix maximality quantifies over all positions and strings.", "anchors": ["include/ulight/impl/ascii_algorithm.hpp"]}
{"id": "C17", "title": "Identifier tables are searched correctly", "statement": "is_xid_start and is_xid_continue return true exactly when the code point lies in one of the ranges of the published tables; the tables are sorted and disjoint, and every XID_Start character is also XID_Continue.", "quantifier": "every 32-bit code point value", "why_tests_cant": "Binary search over several hundred ranges; each boundary is a potential off-by-one.", "anchors": ["src/main/cpp/chars.cpp:Is_XID_Start", "src/main/cpp/chars.cpp:Is_XID_Continue"]}
{"id": "C18", "title": "Character sets behave like sets", "statement": "Charset union, intersection, difference, complement and symmetric difference act pointwise on membership; construction from a predicate, a character or a string contains exactly the intended characters; range_before(i, j) and range_until(i, j) contain exactly the characters of the half-open or closed range.", "quantifier": "every character below 256 and every pair of sets or bounds", "why_tests_cant": "Sets are stored as packed machine words; limb boundaries and shift amounts are the classic failure.", "anchors": ["include/ulight/impl/charset.hpp:Charset"]}
{"id": "C19", "title": "Case-insensitive comparison is a congruent order", "statement": "ascii::compare_to_lower, equals_ignore_case, starts_with_ignore_case and contains_ignore_case agree with lower-casing the relevant side and comparing bytes.", "quantifier": "every pair of byte strings", "why_tests_cant": "All pairs of strings.", "anchors": ["include/ulight/impl/ascii_algorithm.hpp:compare_to_lower", "include/ulight/impl/ascii_algorithm.hpp:equals_ignore_case", "include/ulight/impl/ascii_algorithm.hpp:contains_ignore_case"]}
{"id": "C20", "title": "Edit scripts are correct", "statement": "Applying the script computed by shortest_edit_script to the old sequence yields the new sequence: common steps keep equal elements, deletions remove from the old one and insertions add from the new one, and every element of both sequences is consumed exactly once.", "quantifier": "every pair of finite sequences over any type with decidable equality", "why_tests_cant": "All pairs of sequences of any length.", "anchors": ["include/ulight/impl/string_diff.hpp:shortest_edit_script"]}
{"id": "C21", "title": "Edit scripts are shortest and ordered", "statement": "No insertion/deletion script from old to new has fewer insertions and deletions than the computed one, and inside every maximal run of changes all deletions come before all insertions.", "quantifier": "every pair of sequences and every competing script", "why_tests_cant": "Optimality quantifies over all alternative scripts.", "anchors": ["include/ulight/impl/string_diff.hpp:shortest_edit_script"]}
{"id": "C22", "title": "Line splitting is lossless", "statement": "split_lines joined with newlines gives back the text; match_crlf_line returns a content length without any line break followed by exactly one LF or CRLF terminator (or the end of input), so that repeated matching partitions the text.", "quantifier": "every byte string", "why_tests_cant": "All strings, in particular every placement of CR and LF at the end of input.", "anchors": ["include/ulight/impl/string_diff.hpp:split_lines", "src/main/cpp/parse_utils.cpp:match_crlf_line"]}
{"id": "C23", "title": "Number literal matching accounts for every character", "statement": "When match_common_number matches, the lengths of sign, prefix, integer part, radix point, fractional part, exponent separator, exponent digits and suffix sum to the matched length, and the matched length is at most the length of the string.", "quantifier": "every byte string and every option set", "why_tests_cant": "The option space times the input space is unbounded.", "anchors": ["src/main/cpp/parse_utils.cpp:match_common_number", "include/ulight/impl/numbers.hpp:Common_Number_Result"]}
{"id": "C24", "title": "Misplaced digit separators are reported", "statement": "match_separated_digits matches the longest run of digits and separators and reports it erroneous exactly when a separator is leading, trailing or doubled.", "quantifier": "every byte string, base and separator", "why_tests_cant": "What follows the literal matters, so every context has to be considered.", "anchors": ["src/main/cpp/parse_utils.cpp:match_separated_digits"]}
{"id": "C25", "title": "Blank line sequences end with a newline", "statement": "find_blank_line_sequence returns a range that lies inside the string, contains at least one blank line, consists only of whitespace and line breaks, and whose last character is a line feed; it returns length zero only when there is no blank line.", "quantifier": "every byte string", "why_tests_cant": "All strings; the state machine has to be right for every interleaving of whitespace, newlines and text.", "anchors": ["src/main/cpp/parse_utils.cpp:find_blank_line_sequence"]}
{"id": "C26", "title": "Integer literal parsing returns the value", "statement": "parse_uinteger_literal and parse_integer_literal return the mathematical value of the literal in its base, and no value when it does not fit.", "quantifier": "every byte string", "why_tests_cant": "All digit strings, including those around 2^63 and 2^64.", "anchors": ["src/main/cpp/parse_utils.cpp:parse_uinteger_literal", "src/main/cpp/parse_utils.cpp:parse_integer_literal"]}
{"id": "C27", "title": "Enclosed constructs are matched to the first terminator", "statement": "match_enclosed (block comments, strings) matches iff the string starts with the prefix; it ends right after the first suffix that follows the prefix, or covers the whole string and is flagged unterminated when there is none.", "quantifier": "every byte string, prefix and suffix", "why_tests_cant": "First-occurrence claims quantify over every earlier position.", "anchors": ["include/ulight/impl/parse_utils.hpp:match_enclosed"]}
{"id": "C28", "title": "Escape matching stays in bounds and classifies correctly", "statement": "match_common_escape returns a length no greater than the string, zero only when there is no such escape, and marks it erroneous exactly when it has too few hexadecimal digits (or an unclosed brace).", "quantifier": "every byte string, escape kind and start offset", "why_tests_cant": "All strings, especially truncated ones.", "anchors": ["include/ulight/impl/escapes.hpp:match_common_escape"]}
{"id": "C29", "title": "JSON parsing events are balanced and complete", "statement": "parse_json reports push/pop of objects, arrays and strings in balanced, properly nested order with non-decreasing positions inside the source; it returns true only for text that starts with a JSON value, and reports an error through the visitor whenever it returns false.", "quantifier": "every byte string, both comment settings and every visitor", "why_tests_cant": "Nesting is unbounded and error positions depend on every prefix.", "anchors": ["include/ulight/json.hpp:parse_json", "src/main/cpp/lang/json.cpp:Parser"]}
{"id": "C30", "title": "JSON highlighting of valid documents has no errors", "statement": "For every valid JSON document the token stream contains no error token, and every string, number, literal and punctuation character receives its documented type.", "quantifier": "every syntactically valid JSON document of any nesting depth", "why_tests_cant": "Unbounded nesting and content.", "anchors": ["src/main/cpp/lang/json.cpp:Highlighter"]}
{"id": "C31", "title": "Token boundaries do not split characters", "statement": "For a source that is valid UTF-8, every token begins and ends at a code point boundary, so that the text between HTML tags is valid UTF-8.", "quantifier": "every valid UTF-8 source, every modelled language and flag combination", "why_tests_cant": "Only shows for non-ASCII characters at specific lexical positions in each language.", "anchors": ["src/main/cpp/lang", "include/ulight/impl/highlighter.hpp:Highlighter_Base::emit"]}
{"id": "C32", "title": "Setters write the fields they name", "statement": "Every State setter changes exactly the fields it is documented to set and the matching getter returns the value that was set.", "quantifier": "every state and every argument value", "why_tests_cant": "Frame conditions quantify over all other fields and values.", "anchors": ["include/ulight/ulight.hpp:State"]}
{"id": "C33", "title": "Keyword tables are looked up exactly", "statement": "A word is classified through a language's table of keywords and symbols exactly when it is one of the words that the language is said to have, with the highlight type of that word.", "quantifier": "every byte string as word, every language with a table", "why_tests_cant": "Binary search correctness depends on global table order and on every possible query word.", "anchors": ["src/main/cpp/lang/llvm.cpp:classify_keyword", "src/main/cpp/lang/lua.cpp:lua_token_type_by_code", "src/main/cpp/lang/nasm.cpp:binary_search_case_insensitive", "include/ulight/impl/lang/cpp.hpp:ULIGHT_CPP_TOKEN_ENUM_DATA", "src/main/cpp/lang"]}
{"id": "C34", "title": "Diff highlighting classifies every line", "statement": "The diff language emits exactly one token per non-empty line, covering the line without its terminator, whose type is determined by the line's leading characters as documented for unified and context diffs.", "quantifier": "every byte string", "why_tests_cant": "All line sequences and terminators.", "anchors": ["src/main/cpp/lang/diff.cpp"]}
{"id": "C35", "title": "TeX highlighting follows the lexical rules", "statement": "The TeX language emits a command token for a backslash followed by letters (longest match), an escape token for a backslash followed by another character, an error for a trailing backslash, bracket tokens for brackets and braces, operator tokens for special characters and nothing for other text.", "quantifier": "every byte string", "why_tests_cant": "All strings.", "anchors": ["src/main/cpp/lang/tex.cpp"]}
{"id": "C36", "title": "EBNF highlighting accounts for every visible character", "statement": "The EBNF language covers every byte except whitespace with a token, comments and quoted strings extend to their first closing delimiter or the end of input, and names are classified as declarations before '=' and as references after it.", "quantifier": "every byte string", "why_tests_cant": "Depends on unbounded left context.", "anchors": ["src/main/cpp/lang/ebnf.cpp"]}
{"id": "C37", "title": "Incomplete numbers are reported", "statement": "match_common_number marks a match erroneous when a mandatory part is missing: digits after a base prefix, digits after an exponent separator, or an integer or fractional part that the options declare mandatory.", "quantifier": "every string and every set of options", "why_tests_cant": "The options combine freely and the missing part can be anywhere in strings of any length; tests check a few literals.", "anchors": ["src/main/cpp/parse_utils.cpp:match_common_number", "include/ulight/impl/numbers.hpp:Common_Number_Options"]}
{"id": "C38", "title": "LLVM IR tokens are what their types say", "statement": "For every source, highlighting LLVM IR succeeds, the tokens are in order and do not overlap, text without a token is whitespace, and every token is what its type says: comments extend to the end of the line or to the closing delimiter, names and words are the longest match and words have the type the keyword table gives them, escapes in strings are two hexadecimal digits or marked erroneous, symbols are the character in question.", "quantifier": "every byte string", "why_tests_cant": "Whether a token is right depends on all text before it; tests check a few files.", "anchors": ["src/main/cpp/lang/llvm.cpp"]}
{"id": "C39", "title": "Bash tokens are what their types say", "statement": "For every source, highlighting Bash succeeds, the tokens are in order and do not overlap, text without a token is whitespace, and every token is what its type says: operators are the longest match, comments extend to the end of the line, single-quoted strings to the next quote, words to the next terminator or substitution, variables are the longest name, options begin with a hyphen.", "quantifier": "every byte string, with any nesting of substitutions", "why_tests_cant": "Substitutions nest without bound and the state carries over lines.", "anchors": ["src/main/cpp/lang/bash.cpp"]}
{"id": "C41", "title": "Python tokens are what their types say", "statement": "For every source, highlighting Python succeeds, the tokens are in order and do not overlap, text without a token is whitespace, and every token is what its type says: comments extend to the end of the line, identifiers are the longest match and have the type the keyword table gives them, operators are the longest match, numbers and escapes follow the grammar or are marked erroneous for a stated reason, string contents end at the first unescaped closing quote.", "quantifier": "every byte string", "why_tests_cant": "Whether a token is right depends on all text before it; tests check a few files.", "anchors": ["src/main/cpp/lang/python.cpp", "include/ulight/impl/lang/python.hpp"]}
{"id": "C42", "title": "CSS tokens are what their types say", "statement": "For every well-formed source, highlighting CSS succeeds, the tokens are in order and do not overlap, text without a token is whitespace, a non-ASCII character or a character that begins nothing, and every token is what its type says: comments extend to the closing delimiter, parts of identifiers are the longest match, a function name is directly followed by a parenthesis, numbers follow the grammar and are as long as possible, escapes have one to six hexadecimal digits or one character, strings end at the first unescaped quote or at the end of the line.", "quantifier": "every well-formed UTF-8 text, every combination of options", "why_tests_cant": "The type of an identifier depends on all text before it, and escapes can occur anywhere; tests check a few files.", "anchors": ["src/main/cpp/lang/css.cpp", "include/ulight/impl/lang/css.hpp"]}
{"id": "C43", "title": "Java tokens are what their types say", "statement": "Highlighting any Java text succeeds, and every reported token is what its type says: comments end where Java comments end, keywords and names are complete identifiers classified by the keyword table, symbols are the longest possible, the parts of numbers are digits, separators, prefixes, exponents and suffixes, string text stops at escapes and closing quotation marks, escape sequences are valid and as long as possible, annotation names are identifiers, and error tokens have a reason. Everything else is whitespace.", "quantifier": "every byte string and every option setting", "why_tests_cant": "the statement is about every text, including malformed UTF-8 and unterminated literals; tests sample a few files", "anchors": ["src/main/cpp/lang/java.cpp: highlight_java", "include/ulight/impl/lang/java.hpp: ULIGHT_JAVA_TOKEN_ENUM_DATA"]}
{"id": "C44", "title": "Kotlin tokens are what their types say", "statement": "Highlighting any Kotlin text succeeds, and every reported token is what its type says: comments end where they should, keywords and names are complete identifiers classified by the keyword table, symbols are the longest possible, the parts of numbers are digits, separators, prefixes, exponents and suffixes, string text stops at escapes, interpolations and closing quotation marks, interpolated expressions are delimited by `${` and `}`, back-quoted names stay on one line, annotation names are identifiers, and error tokens have a reason. Everything else is whitespace.", "quantifier": "every byte string and every option setting", "why_tests_cant": "the statement is about every text, including unterminated literals and interpolations nested to any depth; tests sample a few files", "anchors": ["src/main/cpp/lang/kotlin.cpp: highlight_kotlin", "include/ulight/impl/lang/kotlin.hpp: ULIGHT_KOTLIN_TOKEN_ENUM_DATA"]}
{"id": "C45", "title": "Rust tokens are what their types say", "statement": "When a Rust file is highlighted, every token is what its highlight type says: keywords and other identifiers, macros, lifetimes and labels, numbers with their prefixes, separators and suffixes, character and string literals with their delimiters, prefixes and escape sequences, comments and symbols (the longest that fits). An error token is there for a reason: an escape sequence of no known form, a suffix that is not allowed, a number with a fractional part in another base, or a character that cannot begin anything. Text without a token is whitespace.", "quantifier": "all byte strings, all options, debug and release builds", "why_tests_cant": "Tests compare a few annotated files; raw strings, lifetimes and character literals interact in unboundedly many ways.", "anchors": ["src/main/cpp/lang/rust.cpp: highlight_rust", "include/ulight/impl/lang/rust.hpp", "src/main/cpp/lang/rust.cpp: expect_lifetime_token"]}
{"id": "C46", "title": "NASM tokens are what their types say", "statement": "When a NASM file is highlighted, every token is what its highlight type says: comments and directives up to the end of the line, labels, types, registers, instructions and other words, operators (the longest that fits), brackets, numbers with their prefixes or suffixes, strings with their delimiters and escape sequences. An error token is there for a reason: an escape sequence of no known form, digits that do not fit their base, or a byte that cannot begin anything. Text without a token is whitespace.", "quantifier": "all byte strings, all options, debug and release builds", "why_tests_cant": "Tests compare one annotated file; the meaning of a word depends on what precedes it on its line, and whether a word is a number depends on its last letter.", "anchors": ["src/main/cpp/lang/nasm.cpp: highlight_nasm", "include/ulight/impl/lang/nasm.hpp", "src/main/cpp/lang/nasm.cpp: expect_suffixed_number"]}
{"id": "C47", "title": "Lua tokens are what their types say", "statement": "When a Lua file is highlighted, every token that is not empty is what its highlight type says: keywords and other identifiers, numbers in base 10 or 16 (as long as possible), strings in quotation marks and in long brackets of any level, comments up to the end of the line and in long brackets, attributes, and symbols (the longest that fits, and not the beginning of anything else). Text without a token is white space.", "quantifier": "all byte strings, all options, debug and release builds", "why_tests_cant": "Tests compare a few annotated files; the closing bracket must match the level of the opening one, for every level and every text in between.", "anchors": ["src/main/cpp/lang/lua.cpp: highlight_lua", "include/ulight/impl/lang/lua.hpp"]}
{"id": "C48", "title": "HTML tokens are what they say", "statement": "Highlighting an HTML file succeeds, and every reported token is what its type says by the HTML syntax: comments, document types, CDATA, tags, attributes, values and character references, with the content of style and script elements highlighted by the CSS and JavaScript highlighters and shifted to its place in the file. Text without tokens is ordinary text, whitespace or raw text. This holds for files without a character reference at the very end in which the names of raw text elements are not part of longer names; for other files the highlighter may read out of bounds.", "quantifier": "all byte strings meeting the two conditions, all options, debug and release builds, all nested highlighters that do their job", "why_tests_cant": "The claim covers every file and every way to nest CSS and JavaScript in it; the failures occur only for particular bytes at the end of the file.", "anchors": ["src/main/cpp/lang/html.cpp:highlight_html", "include/ulight/impl/lang/html.hpp", "include/ulight/impl/highlighter.hpp:consume_nested_language"]}
{"id": "C49", "title": "XML tokens are what they say", "statement": "Highlighting an XML file succeeds, and every reported token is what its type says by the XML syntax: comments, declarations, CDATA, processing instructions, tags, attributes, values, references, names as long as possible, and keywords of declarations. Text without tokens is ordinary text, whitespace or the content of sections and instructions.", "quantifier": "all byte strings, all options, debug and release builds", "why_tests_cant": "The claim covers every file, including malformed ones, and every way to interrupt a construct.", "anchors": ["src/main/cpp/lang/xml.cpp:XML_Highlighter", "include/ulight/impl/lang/xml.hpp"]}
{"id": "C50", "title": "COWEL tokens are what they say", "statement": "Highlighting a COWEL document succeeds, and every reported token is what its type says: escape sequences, comments, commands, attributes followed by an equals sign, keywords, numbers, strings, variables and symbols (the longest that fits). Text without tokens is ordinary text, whitespace, or something between parentheses that is none of these.", "quantifier": "all byte strings, all options, debug and release builds, any depth of nesting", "why_tests_cant": "The constructs nest without limit, and the code looks ahead over whitespace, comments and quoted names before it decides; the lookahead must agree with what is then highlighted, for every text.", "anchors": ["src/main/cpp/lang/cowel.cpp:highlight_cowel", "include/ulight/impl/lang/cowel.hpp"]}
{"id": "C51", "title": "C and C++ tokens are what they say", "statement": "Highlighting valid UTF-8 text as C or C++ succeeds, and every reported token is what its type says: comments (with line splices), directives and header names, literals with their prefixes, delimiters, escape sequences and suffixes, raw strings up to their own terminator, parts of preprocessing numbers, the keywords of the selected language, identifiers, and symbols (the longest that fits). Text without tokens is whitespace or begins with none of these.", "quantifier": "all valid UTF-8 byte strings, all options, both languages, debug and release builds", "why_tests_cant": "Splices, raw string delimiters and prefixes combine without limit, and numbers are scanned twice with different rules, which must agree for every text.", "anchors": ["src/main/cpp/lang/cpp.cpp:highlight_cpp", "src/main/cpp/lang/cpp.cpp:highlight_c", "include/ulight/impl/lang/cpp.hpp"]}
{"id": "C52", "title": "JavaScript and TypeScript tokens are what they say", "statement": "Highlighting a text as TypeScript succeeds if no escape sequence in a string extends over the end of its string, and every reported token is what its type says: comments, keywords of the selected language, names, the longest symbol that fits, parts of numbers, strings, template literals with substitutions of any depth, regular expressions, escape sequences, and errors with a reason. The same holds for JavaScript, with JSX tags and references in addition, if braces after the first '<' enclose simple code. Text without tokens is whitespace or text between JSX tags.", "quantifier": "all byte strings that meet the stated conditions, all options, both dialects, debug and release builds", "why_tests_cant": "Strings, templates, braces and JSX elements nest without limit, and braces in JSX are scanned twice by functions that must agree.", "anchors": ["src/main/cpp/lang/js.cpp:highlight_javascript", "src/main/cpp/lang/js.cpp:highlight_typescript", "include/ulight/impl/lang/js.hpp"]}
{"id": "C53", "title": "Markdown tokens are what they say", "statement": "Highlighting a text as Markdown succeeds if no comment begins where text with markup ends, and every reported token is what its type says: marks of headings, quotes, lists and thematic breaks at the beginning of a line, fences of code blocks that are open or closed by the lines before, code, comments over several lines, code spans, links, images, references, escapes and emphasis with matching ends. Text without tokens is whitespace, plain text, the text of images, titles of links, info strings, or a character that begins nothing, with the reason.", "quantifier": "all byte strings that meet the stated condition, all options, debug and release builds", "why_tests_cant": "Quotes, links and emphasis nest without limit, and what a line means depends on all lines before it.", "anchors": ["src/main/cpp/lang/markdown.cpp:highlight_markdown"]}
{"id": "C54", "title": "YAML tokens are what YAML says they are", "statement": "For every text with at most 64 places where a key or a list entry may be, YAML highlighting succeeds, every token is a key, value, tag, reference, comment, directive, block scalar or punctuation mark with the text the specification gives for its highlight type, error tokens have a reason, and what is not highlighted is whitespace or the rest of a line. With more keys in one block the highlighter aborts.", "quantifier": "all source texts with at most 64 marks, debug and release builds, all options", "why_tests_cant": "Whether a character is part of a key, a value or a comment depends on unboundedly long context; the 64-entry stack of indentations only fails for large documents.", "anchors": ["src/main/cpp/lang/yaml.cpp: highlight_yaml, consume_block_node, consume_flow_node, consume_plain_scalar, find_mapping_colon", "include/ulight/impl/lang/yaml.hpp"]}
{"id": "C55", "title": "Comments, strings and names are highlighted independently of what follows", "statement": "If a text begins with a line comment, a block comment, a string without escapes, a keyword or a name, then the first tokens are exactly those of that piece: the delimiters, the content between them, or one token with the type of the word. The remaining tokens are those that the rest of the text gets when it is highlighted alone, moved by the length of the piece. Nothing that follows the piece changes its tokens, and the piece changes nothing in what follows.", "quantifier": "all contents of the piece, all texts that follow it and can be highlighted, all options, debug and release builds", "why_tests_cant": "Both the content and the following text are arbitrary and of any length; that no content leaks into what follows is a relation between two runs.", "anchors": ["src/main/cpp/lang/java.cpp:highlight_java", "src/main/cpp/lang/python.cpp:highlight_python", "src/main/cpp/lang/rust.cpp:highlight_rust", "src/main/cpp/lang/llvm.cpp:highlight_llvm"]}
{"id": "C57", "title": "Numbers get exactly the tokens of their parts", "statement": "A number that is written as the language prescribes (prefix, digits of the base of the prefix in groups with underscores between them, radix point and fraction, exponent with sign, suffix) gets one token for each of these parts, with the type of the part: the prefix and the suffix are decoration, the digits are numbers, the underscores, the radix point and the letter and sign of the exponent are delimiters. No part is left out, none is an error, no token covers two parts, and the text after the number is highlighted as if it stood alone. The radix, the allowed exponents and the allowed suffixes are listed for each notation.", "quantifier": "all numbers in the listed notations, with any number of digits and groups in each part; all texts that follow, begin with no letter, digit, underscore or point, and can be highlighted; all options, debug and release builds", "why_tests_cant": "The combinations of prefix, digits, fraction, exponent and suffix are unbounded, and so are the numbers of digits; a wrong base or a missing combination of letter and sign is seen only by a test for exactly that case.", "anchors": ["src/main/cpp/parse_utils.cpp:match_common_number", "include/ulight/impl/highlighter.hpp:highlight_number", "src/main/cpp/lang/java.cpp:match_number", "src/main/cpp/lang/kotlin.cpp:match_number", "src/main/cpp/lang/python.cpp:match_number", "src/main/cpp/lang/rust.cpp:match_number", "src/main/cpp/lang/llvm.cpp:expect_number"]}
{"id": "C58", "title": "Programs get exactly the tokens of their lexical elements", "statement": "If a text is a sequence of lexical elements of the language (whitespace, comments, strings with escapes, character literals, numbers, keywords, names, symbols, annotations), then the highlighter succeeds, and its tokens are exactly the tokens of these elements, in their order and at their places: nothing is left out, nothing is added, and no element is changed by those before or after it. The elements, their tokens, and what may follow them are listed for each language.", "quantifier": "all texts that are finite sequences of such elements, of any length and in any order; all options; debug and release builds", "why_tests_cant": "a test can only check some programs; that elements do not interfere must hold for all combinations", "anchors": ["src/main/cpp/lang/java.cpp: consume_tokens, expect_token", "src/main/cpp/lang/kotlin.cpp", "src/main/cpp/lang/python.cpp", "src/main/cpp/lang/rust.cpp", "src/main/cpp/lang/llvm.cpp"]}
