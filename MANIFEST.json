{
 "claims": [
  {
   "property": "C01",
   "status": "partial",
   "theorems": [
    "Ulight.C01_html_preserves_source",
    "Ulight.C01_html_preserves_source_partial"
   ],
   "note": "C01_html_preserves_source is about any highlighter that emits well-formed tokens; C01_html_preserves_source_partial is about the actual table with all 25 languages, for the sources that are supported (no condition for 15 languages, Spec/Supported.lean for the others)."
  },
  {
   "property": "C02",
   "status": "partial",
   "theorems": [
    "Ulight.C02_html_is_rendering",
    "Ulight.C02_html_well_formed",
    "Ulight.C02_html_well_formed_partial"
   ],
   "note": "As for C01: any highlighter that emits well-formed tokens, and the actual table for the sources that are supported."
  },
  {
   "property": "C03",
   "status": "proved",
   "theorems": [
    "Ulight.C03_text_capacity_unobservable",
    "Ulight.C03_buffer_ops",
    "Ulight.C03_capacity_all"
   ],
   "note": "Text buffer capacity is unobservable; the buffer operations keep the content invariant for any sequence of operations. C03_capacity_all applies this to the actual table."
  },
  {
   "property": "C04",
   "status": "partial",
   "theorems": [
    "Ulight.C04_delivery_lossless",
    "Ulight.C04_delivery_exact",
    "Ulight.C04_delivery_all"
   ],
   "note": "Delivery through the token buffer is lossless and in order for any emission sequence; C04_delivery_all applies this to the actual table, for the sources that are supported."
  },
  {
   "property": "C05",
   "status": "partial",
   "theorems": [
    "Ulight.C05_type_of_byte",
    "Ulight.C05_capacity_independent",
    "Ulight.C05_coalesced_maximally",
    "Ulight.C05_coalescing_keeps_types"
   ],
   "note": "C05_coalescing_keeps_types: in all 25 languages, whenever highlighting returns, the types of all bytes are the same with any buffer length and with or without the flag. C05_coalesced_maximally (no touching tokens of the same type) is about any highlighter that does not write to the buffer directly; the actual one for HTML does, for nested code."
  },
  {
   "property": "C06",
   "status": "partial",
   "theorems": [
    "Ulight.C06_tokens_well_formed_partial",
    "Ulight.Lua.C06_lua_empty"
   ],
   "note": "All 25 languages, for the sources that are supported (no condition for 15 languages). C06_lua_empty and C51_differences show that it does not hold without the conditions."
  },
  {
   "property": "C07",
   "status": "partial",
   "theorems": [
    "Ulight.C07_total_partial",
    "Ulight.C07_total_unconditional",
    "Ulight.Css.C07_css_runs_forever",
    "Ulight.Css.C07_css_reads_past_end"
   ],
   "note": "Proved for all 25 languages, for the sources that are supported: C07_total_unconditional for 15 languages without condition, C07_total_partial for all. False of the code without the conditions: CSS with a stray continuation byte runs forever, HTML, JavaScript, Rust, Markdown and YAML have witnesses for failed assertions or reads out of bounds. The depth of the stack is not modelled."
  },
  {
   "property": "C08",
   "status": "partial",
   "theorems": [
    "Ulight.C08_tokens_rejects",
    "Ulight.C08_tokens_accepts",
    "Ulight.C08_lang_count_asserts",
    "Ulight.C08_html_rejects",
    "Ulight.C08_html_rejects_inner",
    "Ulight.C08_html_leaves_dangling_callback"
   ],
   "note": "Rejections and acceptance are proved. Two disagreements are proved with witnesses: the language number 26 trips an assertion, and HTML generation leaves a dangling token callback."
  },
  {
   "property": "C09",
   "status": "proved",
   "theorems": [
    "Ulight.C09_get_lang_exact",
    "Ulight.C09_get_lang_none",
    "Ulight.C09_names_unique",
    "Ulight.C09_names_lowercase",
    "Ulight.C09_every_lang_has_name",
    "Ulight.C09_display_names_agree",
    "Ulight.C09_display_name_total",
    "Ulight.C09_display_names_distinct"
   ],
   "note": "Whole property."
  },
  {
   "property": "C10",
   "status": "partial",
   "theorems": [
    "Ulight.C10_lang_from_path_extension",
    "Ulight.C10_lang_from_path_no_dot",
    "Ulight.C10_u8_overload_ignores_extension",
    "Ulight.C10_u8_overload_disagrees",
    "Ulight.C10_u8_overload_partial"
   ],
   "note": "Proved for ulight_lang_from_path. The char8_t overload ignores the extension: the negation is proved with a witness, and the paths for which it is still right are characterised."
  },
  {
   "property": "C11",
   "status": "partial",
   "theorems": [
    "Ulight.C11_strings_legal",
    "Ulight.C11_unknown_empty",
    "Ulight.C11_long_injective",
    "Ulight.C11_short_not_injective",
    "Ulight.C11_short_injective_partial",
    "Ulight.C11_long_spelling_partial"
   ],
   "note": "Legality, emptiness for unknown numbers and injectivity of the long strings are proved. Short strings are not injective: the colliding pair is proved and injectivity holds for all other types."
  },
  {
   "property": "C12",
   "status": "proved",
   "theorems": [
    "Ulight.Utf8.C12_is_valid_iff"
   ],
   "note": "Whole property."
  },
  {
   "property": "C13",
   "status": "proved",
   "theorems": [
    "Ulight.Utf8.C13_encode",
    "Ulight.Utf8.C13_decode_encode",
    "Ulight.Utf8.C13_encode_decode",
    "Ulight.Utf8.C13_code_point_view"
   ],
   "note": "Whole property."
  },
  {
   "property": "C14",
   "status": "proved",
   "theorems": [
    "Ulight.Utf8.C14_lenient",
    "Ulight.Utf8.C14_overloads_agree",
    "Ulight.Utf8.C14_agrees_with_strict",
    "Ulight.Utf8.C14_chars_exist_unique"
   ],
   "note": "Whole property."
  },
  {
   "property": "C15",
   "status": "proved",
   "theorems": [
    "Ulight.Utf8.C15_find_if",
    "Ulight.Utf8.C15_quantifiers"
   ],
   "note": "Whole property."
  },
  {
   "property": "C16",
   "status": "proved",
   "theorems": [
    "Ulight.Ascii.C16_find_if",
    "Ulight.Ascii.C16_find_if_not",
    "Ulight.Ascii.C16_lengths",
    "Ulight.Ascii.C16_length_until"
   ],
   "note": "Whole property."
  },
  {
   "property": "C17",
   "status": "proved",
   "theorems": [
    "Ulight.C17_tables_sorted",
    "Ulight.C17_xid",
    "Ulight.C17_start_continue",
    "Ulight.C17_ascii"
   ],
   "note": "Whole property, for the tables as published in the source."
  },
  {
   "property": "C18",
   "status": "partial",
   "theorems": [
    "Ulight.Charset.C18_insert_remove",
    "Ulight.Charset.C18_operations",
    "Ulight.Charset.C18_construction",
    "Ulight.Charset.C18_range_before_undefined",
    "Ulight.Charset.C18_range_before_partial"
   ],
   "note": "Everything except range_before and range_until with an end below 192, where the code is undefined (negation proved)."
  },
  {
   "property": "C19",
   "status": "proved",
   "theorems": [
    "Ulight.Ascii.C19_to_lower",
    "Ulight.Ascii.C19_compare",
    "Ulight.Ascii.C19_ignore_case"
   ],
   "note": "Whole property."
  },
  {
   "property": "C20",
   "status": "proved",
   "theorems": [
    "Ulight.C20_script_correct"
   ],
   "note": "Whole property; the lengths of both sequences add up to less than 2^64."
  },
  {
   "property": "C21",
   "status": "proved",
   "theorems": [
    "Ulight.C21_script_shortest"
   ],
   "note": "Whole property; the lengths of both sequences add up to less than 2^64."
  },
  {
   "property": "C22",
   "status": "proved",
   "theorems": [
    "Ulight.C22_split_lines",
    "Ulight.C22_match_crlf_line",
    "Ulight.C22_first_line_unique",
    "Ulight.C22_match_crlf_line_progress"
   ],
   "note": "Whole property."
  },
  {
   "property": "C23",
   "status": "proved",
   "theorems": [
    "Ulight.C23_parts",
    "Ulight.C23_sum"
   ],
   "note": "Whole property, stronger: the parts are a partition of the matched text and each part has the announced form."
  },
  {
   "property": "C24",
   "status": "partial",
   "theorems": [
    "Ulight.C24_longest_run",
    "Ulight.C24_no_separator",
    "Ulight.C24_erroneous_iff",
    "Ulight.C24_trailing_separator_unreported",
    "Ulight.C24_empty_reported",
    "Ulight.C24_misplaced_partial"
   ],
   "note": "The match is the longest run, and the reported errors are characterised exactly. The property as stated fails: a trailing separator is reported only at the end of the string, and an empty match there is reported (witnesses proved). It holds for matches that end the string."
  },
  {
   "property": "C25",
   "status": "partial",
   "theorems": [
    "Ulight.C25_blank_lines",
    "Ulight.C25_last_not_newline",
    "Ulight.C25_last_newline_partial"
   ],
   "note": "Everything except that the last character is a line feed, which fails when the text ends in other whitespace (witness proved)."
  },
  {
   "property": "C26",
   "status": "partial",
   "theorems": [
    "Ulight.C26_uinteger",
    "Ulight.C26_uinteger_sound",
    "Ulight.C26_trailing_ignored",
    "Ulight.C26_signed_overflow",
    "Ulight.C26_integer_partial"
   ],
   "note": "Whole property for unsigned literals. Signed literals outside of the 64-bit range get a wrong value (witness proved); inside they are right."
  },
  {
   "property": "C27",
   "status": "proved",
   "theorems": [
    "Ulight.C27_match_enclosed",
    "Ulight.C27_match_enclosed_bounds"
   ],
   "note": "Whole property."
  },
  {
   "property": "C28",
   "status": "partial",
   "theorems": [
    "Ulight.C28_bounds",
    "Ulight.C28_unbraced",
    "Ulight.C28_unclosed_brace_unreported",
    "Ulight.C28_empty_braces_accepted",
    "Ulight.C28_braced_partial"
   ],
   "note": "Whole property for the kinds without braces and for closed braces. Unclosed braces are not reported and nonempty_braced accepts empty braces (witnesses proved)."
  },
  {
   "property": "C29",
   "status": "partial",
   "theorems": [
    "Ulight.Json.C29_balanced",
    "Ulight.Json.C29_positions_partial",
    "Ulight.Json.C29_success_partial",
    "Ulight.Json.C29_accepts_partial",
    "Ulight.Json.C29_failure_partial",
    "Ulight.Json.C29_total_partial",
    "Ulight.Json.C29_block_comment",
    "Ulight.Json.C29_trailing_text",
    "Ulight.Json.C29_form_feed",
    "Ulight.Json.C29_strtod",
    "Ulight.Json.C29_unreported",
    "Ulight.Json.C29_member_without_name",
    "Ulight.Json.C29_comment_errors",
    "Ulight.Json.C29_surrogate"
   ],
   "note": "Proved for every text and all options: calls are balanced and properly nested, positions are exact and ascending, success implies a JSON document at the beginning whose parts were all reported, every JSON document is accepted, failures are reported except where a value is missing or a literal is misspelled, no fault unless a member has no name. Each exception is a defect with a proved witness (block comment calls, trailing text, form feed, strtod, unreported failures, member without name, comment errors, surrogates). Recursion depth and exceptions thrown by visitors are not modelled."
  },
  {
   "property": "C30",
   "status": "partial",
   "theorems": [
    "Ulight.Json.C30_json_partial",
    "Ulight.Json.C30_jsonc_partial",
    "Ulight.Json.C30_no_errors_partial",
    "Ulight.Json.C30_literal_in_array",
    "Ulight.Json.C30_every_token",
    "Ulight.Json.C30_every_token_jsonc"
   ],
   "note": "Documents without true, false or null as array elements: exact tokens and no errors. The full statement is false of the code (C30_literal_in_array). For every text, valid or not: every token type is true of its text and gaps are whitespace. Recursion depth is not modelled."
  },
  {
   "property": "C31",
   "status": "partial",
   "theorems": [
    "Ulight.Cowel.C31_cowel_splits",
    "Ulight.Cpp.C31_cpp_splits",
    "Ulight.Css.C31_css",
    "Ulight.Html.C31_html_splits",
    "Ulight.Java.C31_java_splits",
    "Ulight.Js.C31_js_splits",
    "Ulight.Kotlin.C31_kotlin_splits",
    "Ulight.Lua.C31_lua_splits",
    "Ulight.Markdown.C31_markdown_whole",
    "Ulight.Nasm.C31_nasm_splits",
    "Ulight.Rust.C31_rust_splits",
    "Ulight.Xml.C31_xml_splits",
    "Ulight.Yaml.C31_yaml_splits",
    "Ulight.C31_split",
    "Ulight.C31_whole_partial",
    "Ulight.C31_html_is_text_partial"
   ],
   "note": "C31_whole_partial proves it for CSS, EBNF, Markdown, diffs and plain text, at the level of the API; C31_html_is_text_partial concludes that their HTML is well-formed UTF-8. C31_split disproves it for each of the other languages, with a text whose delivered tokens split a character. The theorems named after a language are about single emissions."
  },
  {
   "property": "C32",
   "status": "partial",
   "theorems": [
    "Ulight.C32_setters",
    "Ulight.C32_set_html_attr_name_reads_out_of_bounds",
    "Ulight.C32_set_html_attr_name_corrupts_tag",
    "Ulight.C32_set_html_attr_name_partial"
   ],
   "note": "Setters proved, except ulight_set_html_attr_name, which writes the tag length (negation proved with witnesses)."
  },
  {
   "property": "C33",
   "status": "proved",
   "theorems": [
    "Ulight.Cpp.C33_cpp",
    "Ulight.Java.C33_java",
    "Ulight.Js.C33_js",
    "Ulight.Kotlin.C33_kotlin",
    "Ulight.Llvm.C33_llvm",
    "Ulight.Llvm.C33_llvm_half",
    "Ulight.Lua.C33_lua",
    "Ulight.Nasm.C33_nasm",
    "Ulight.Nasm.C33_nasm_differences",
    "Ulight.Python.C33_python",
    "Ulight.Rust.C33_rust"
   ],
   "note": "Proved for all languages with a table: C, C++, Java, JavaScript, Kotlin, LLVM, Lua, NASM, Python, Rust, TypeScript. The words are listed independently in the specifications. Two tables miss words of their languages: see C33_nasm_differences and C33_llvm_half."
  },
  {
   "property": "C34",
   "status": "proved",
   "theorems": [
    "Ulight.Diff.C34_diff",
    "Ulight.Diff.C34_diff_tokens_unique"
   ],
   "note": "Whole property: the token list is exactly the one the specification determines, for every source."
  },
  {
   "property": "C35",
   "status": "proved",
   "theorems": [
    "Ulight.Tex.C35_tex",
    "Ulight.Tex.C35_tex_tokens_unique"
   ],
   "note": "Whole property: the token list is exactly the one the specification determines, for every source."
  },
  {
   "property": "C36",
   "status": "proved",
   "theorems": [
    "Ulight.Ebnf.C36_ebnf",
    "Ulight.Ebnf.C36_ebnf_covers"
   ],
   "note": "Whole property: the token list is the one of the specification, for every source, and every byte except whitespace is covered."
  },
  {
   "property": "C37",
   "status": "partial",
   "theorems": [
    "Ulight.C37_signed_prefix_unreported",
    "Ulight.C37_lone_sign_matched",
    "Ulight.C37_incomplete_partial",
    "Ulight.C37_reported_malformed"
   ],
   "note": "Missing parts are reported except for a prefix after a sign; a lone sign is matched as a number (witnesses proved)."
  },
  {
   "property": "C38",
   "status": "proved",
   "theorems": [
    "Ulight.Llvm.C38_llvm_tokens"
   ],
   "note": "Whole property, for every source and in debug and release builds."
  },
  {
   "property": "C39",
   "status": "proved",
   "theorems": [
    "Ulight.Bash.C39_bash_tokens",
    "Ulight.Bash.C39_operator_plus",
    "Ulight.Bash.C39_command_after_pipe",
    "Ulight.Bash.C39_length_is_comment"
   ],
   "note": "Whole property for every source and in debug and release builds; the stack depth of the recursion is not modelled. Witnesses: match_operator does not know + and takes * for it, the command after a pipe can be highlighted as argument, ${#x} is taken for a comment."
  },
  {
   "property": "C41",
   "status": "proved",
   "theorems": [
    "Ulight.Python.C41_python_tokens",
    "Ulight.Python.C41_valid_reported"
   ],
   "note": "Whole property, in debug and release builds. Error tokens are proved to have a reason in the highlighter's own tables; C41_valid_reported proves that some valid Python is among them: prefixes u and Rf, short octal escapes, numbers that begin with a point, a keyword directly before a string."
  },
  {
   "property": "C42",
   "status": "proved",
   "theorems": [
    "Ulight.Css.C42_css_tokens",
    "Ulight.Css.C42_url_never",
    "Ulight.Css.C42_differences"
   ],
   "note": "Whole property, in debug and release builds. C42_url_never proves that the case for url( can never be taken, C42_differences shows other differences to the CSS standard. Malformed text is excluded because the code loops forever or reads past the end there (C07_css_runs_forever, C07_css_reads_past_end)."
  },
  {
   "property": "C43",
   "status": "proved",
   "theorems": [
    "Ulight.Java.C43_java_tokens",
    "Ulight.Java.C43_differences"
   ],
   "note": "C43_java_tokens for every input. C43_differences lists valid Java that is reported as an error (`1.`, `1.f`, `$x`, `\\uu0041`) and a short Unicode escape that takes the closing quotation mark. C31_java_splits: a character literal outside of ASCII is cut after one byte."
  },
  {
   "property": "C44",
   "status": "partial",
   "theorems": [
    "Ulight.Kotlin.C44_kotlin_tokens",
    "Ulight.Kotlin.C44_kotlin_tokens_exact",
    "Ulight.Kotlin.C44_displaced",
    "Ulight.Kotlin.C44_differences"
   ],
   "note": "C44_kotlin_tokens for every input; the parts of a number such as `1.f.` or `1.E+5.` (point without digits, then exponent or suffix, then another point) are only known to be number tokens, and C44_displaced shows that they are indeed in the wrong place. C44_kotlin_tokens_exact is the full claim for texts without such a number. C44_differences lists valid Kotlin that is misread (`!isEmpty`, `5UL`, `super`). C31_kotlin_splits: a character outside of ASCII in an annotation list is cut."
  },
  {
   "property": "C45",
   "status": "partial",
   "theorems": [
    "Ulight.Rust.C45_rust_tokens",
    "Ulight.Rust.C45_rust_tokens_release",
    "Ulight.Rust.C45_assertion_fails",
    "Ulight.Rust.C45_differences"
   ],
   "note": "Proved for every file in release builds. In debug builds, proved for every file in which no lifetime is followed by an apostrophe; the file 'ab' fails an assertion (C45_assertion_fails). Raw identifiers, attributes, ranges and tuple fields are never recognised (C45_differences)."
  },
  {
   "property": "C46",
   "status": "partial",
   "theorems": [
    "Ulight.Nasm.C46_nasm_tokens",
    "Ulight.Nasm.C46_differences",
    "Ulight.Nasm.C46_no_pseudo"
   ],
   "note": "Which of instruction, label or variable an unknown word is depends on the words before it on the line; the rule allows all three. C46_differences shows valid programs that are highlighted as something else, C46_no_pseudo that pseudo-instructions never get their own type."
  },
  {
   "property": "C47",
   "status": "partial",
   "theorems": [
    "Ulight.Lua.C47_lua_tokens",
    "Ulight.Lua.C47_lua_tokens_filled",
    "Ulight.Lua.C47_differences"
   ],
   "note": "Proved for the tokens that are not empty. C06_lua_empty shows that empty comments and strings produce empty tokens, which the checks in debug builds reject. The level of the closing bracket of a comment or string is not tied to the opening one in the rule."
  },
  {
   "property": "C48",
   "status": "proved",
   "theorems": [
    "Ulight.Html.C48_html_nested_tokens",
    "Ulight.Html.C48_html_tokens",
    "Ulight.Html.C48_html_css_tokens",
    "Ulight.Html.C48_reference_at_end",
    "Ulight.Html.C48_longer_name",
    "Ulight.Html.C48_wrong_place",
    "Ulight.Html.C48_differences"
   ],
   "note": "C48_html_nested_tokens, with style sheets and scripts, for the sources that satisfy Sane and whose scripts are supported, plus counterexamples for others (out of bounds reads, failed assertions)."
  },
  {
   "property": "C49",
   "status": "proved",
   "theorems": [
    "Ulight.Xml.C49_xml_tokens",
    "Ulight.Xml.C49_differences"
   ],
   "note": "The rules follow the code where it differs from the standard; C49_differences shows well-formed files that are not highlighted as they should be."
  },
  {
   "property": "C50",
   "status": "proved",
   "theorems": [
    "Ulight.Cowel.C50_cowel_tokens",
    "Ulight.Cowel.C50_differences"
   ],
   "note": "The rules follow the code where it differs from the language; C50_differences shows text that is not highlighted as it should be. The depth of the stack is not modelled."
  },
  {
   "property": "C51",
   "status": "proved",
   "theorems": [
    "Ulight.Cpp.C51_cpp_tokens",
    "Ulight.Cpp.C51_differences"
   ],
   "note": "C51_differences lists texts that are highlighted against the language rules, and ill-formed UTF-8 for which a token goes beyond the end of the text; therefore the theorem requires UTF-8."
  },
  {
   "property": "C52",
   "status": "partial",
   "theorems": [
    "Ulight.Js.C52_typescript_tokens",
    "Ulight.Js.C52_javascript_tokens",
    "Ulight.Js.C52_strings_needed",
    "Ulight.Js.C52_braces_needed",
    "Ulight.Js.C52_differences"
   ],
   "note": "C52_strings_needed and C52_braces_needed show that the property does not hold without the conditions: the string \"\\x\" makes the highlighter read out of bounds, and a template literal in a JSX attribute can make an assertion fail. C52_differences lists texts that are highlighted against the rules of the language."
  },
  {
   "property": "C53",
   "status": "partial",
   "theorems": [
    "Ulight.Markdown.C53_markdown_tokens",
    "Ulight.Markdown.C53_comments_needed",
    "Ulight.Markdown.C53_differences"
   ],
   "note": "C53_comments_needed shows that the property does not hold without the condition: a comment that begins at the end of a line makes an assertion fail, or yields an empty token in release builds. C53_differences lists texts that are highlighted against the rules of CommonMark."
  },
  {
   "property": "C54",
   "status": "proved",
   "theorems": [
    "Ulight.Yaml.C54_yaml_tokens",
    "Ulight.Yaml.C54_many_keys",
    "Ulight.Yaml.C54_differences"
   ],
   "note": "Holds under the hypothesis that there are at most 64 places where a key or list entry may be; C54_many_keys proves that 65 keys make the highlighter abort. C54_differences has texts that are highlighted differently from YAML."
  },
  {
   "property": "C55",
   "status": "partial",
   "theorems": [
    "Ulight.Java.C55_java_line_comments",
    "Ulight.Java.C55_java_block_comments",
    "Ulight.Java.C55_java_strings",
    "Ulight.Java.C55_java_names",
    "Ulight.Java.C55_java_underscore",
    "Ulight.Kotlin.C55_kotlin_line_comments",
    "Ulight.Kotlin.C55_kotlin_block_comments",
    "Ulight.Kotlin.C55_kotlin_strings",
    "Ulight.Kotlin.C55_kotlin_names",
    "Ulight.Kotlin.C55_kotlin_underscore",
    "Ulight.Llvm.C55_llvm_comments",
    "Ulight.Llvm.C55_llvm_block_comments",
    "Ulight.Llvm.C55_llvm_strings",
    "Ulight.Llvm.C55_llvm_names",
    "Ulight.Llvm.C55_llvm_words",
    "Ulight.Llvm.C55_llvm_labels",
    "Ulight.Python.C55_python_comments",
    "Ulight.Python.C55_python_strings",
    "Ulight.Python.C55_python_long_strings",
    "Ulight.Python.C55_python_names",
    "Ulight.Rust.C55_rust_line_comments",
    "Ulight.Rust.C55_rust_block_comments",
    "Ulight.Rust.C55_rust_strings",
    "Ulight.Rust.C55_rust_names",
    "Ulight.Rust.C55_rust_underscore"
   ],
   "note": "Java, Kotlin, Python, Rust and LLVM. In Java, Kotlin and Rust, words that begin with an underscore are excluded, and it is proved that they are highlighted differently. Missing: other languages, strings with escapes."
  },
  {
   "property": "C57",
   "status": "partial",
   "theorems": [
    "Ulight.Java.C57_java",
    "Ulight.Kotlin.C57_kotlin",
    "Ulight.Kotlin.C57_kotlin_suffix",
    "Ulight.C57_last_point",
    "Ulight.C57_python_first_point",
    "Ulight.C57_underscores",
    "Ulight.C57_prefix_underscore",
    "Ulight.C57_exponent_underscore",
    "Ulight.Llvm.C57_llvm",
    "Ulight.Llvm.C57_llvm_signed",
    "Ulight.Llvm.C57_llvm_prefix",
    "Ulight.Python.C57_python",
    "Ulight.Rust.C57_rust"
   ],
   "note": "Proved for Java (without octal numbers), Python, Rust, Kotlin and LLVM. Not provable for some legal numbers, with witnesses: Kotlin splits the suffix UL after U; LLVM does not recognise the prefix 0xK; a final radix point, a radix point in the beginning (Python), several underscores in a row, an underscore after a prefix and underscores in exponents are rejected. Missing: other languages."
  },
  {
   "property": "C58",
   "status": "partial",
   "theorems": [
    "Ulight.Bash.C58_bash",
    "Ulight.Bash.C58_bash_total",
    "Ulight.Bash.C58_bash_parameter",
    "Ulight.Cowel.C58_cowel",
    "Ulight.Cowel.C58_cowel_last_line",
    "Ulight.Cowel.C58_cowel_trailing_space",
    "Ulight.Cpp.C58_c",
    "Ulight.Cpp.C58_cpp",
    "Ulight.Css.C58_css",
    "Ulight.Css.C58_css_total",
    "Ulight.Html.C58_html",
    "Ulight.Java.C58_java",
    "Ulight.Js.C58_javascript",
    "Ulight.Js.C58_typescript",
    "Ulight.Js.C58_javascript_underscore",
    "Ulight.Js.C58_javascript_fraction",
    "Ulight.Kotlin.C58_kotlin",
    "Ulight.Llvm.C58_llvm",
    "Ulight.Lua.C58_lua",
    "Ulight.Lua.C58_lua_total",
    "Ulight.Markdown.C58_markdown",
    "Ulight.Nasm.C58_nasm",
    "Ulight.Nasm.C58_nasm_hex",
    "Ulight.Python.C58_python",
    "Ulight.Rust.C58_rust",
    "Ulight.Xml.C58_xml",
    "Ulight.Xml.C58_xml_doctype",
    "Ulight.Yaml.C58_yaml",
    "Ulight.Yaml.C58_yaml_comment",
    "Ulight.Yaml.C58_yaml_spaces",
    "Ulight.Yaml.C58_yaml_tagged"
   ],
   "note": "Bash, C, C++, COWEL, CSS, HTML, Java, JavaScript, Kotlin, LLVM, Lua, Markdown, NASM, Python, Rust, TypeScript, XML and YAML are done; diff, TeX, EBNF and JSON have exact descriptions in C34, C35, C36 and C30. For Bash, CSS and Lua the description is complete: C58_bash_total, C58_lua_total and (for well-formed UTF-8) C58_css_total show that every text is a sequence of elements. C58_html holds for all highlighters of the nested style sheets and scripts. C58_bash_parameter shows that the words after ${\u2026} are highlighted as if they were inside of it. C58_nasm_hex shows that hexadecimal literals that end with b or d are highlighted as errors. C58_xml_doctype shows that a document type declaration without external subset hides what follows it. C58_cowel is about a grammar, since COWEL constructs nest; C58_cowel_last_line and C58_cowel_trailing_space show two defects in lines with expressions. For JavaScript, elements of JSX and ill-formed numbers are not described; C58_javascript_underscore shows that names that begin with an underscore are highlighted as errors, and C58_javascript_fraction that digits of fractions are taken for octal ones after a leading zero. For Markdown the elements are lines; comments that begin at the end of a line are not described (see C53_comments_needed). For YAML, lines that have only spaces, and block scalars after tags and anchors are not described; C58_yaml_comment shows that comments after values get no tokens, C58_yaml_tagged that the line after a block scalar with a tag gets none; C58_yaml_spaces shows that a line that has only spaces ends the document."
  }
 ]
}
