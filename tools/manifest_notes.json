{
 "C09": {
  "status": "proved",
  "note": "Whole property."
 },
 "C10": {
  "status": "partial",
  "note": "Proved for ulight_lang_from_path. The char8_t overload ignores the extension: the negation is proved with a witness, and the paths for which it is still right are characterised."
 },
 "C11": {
  "status": "partial",
  "note": "Legality, emptiness for unknown numbers and injectivity of the long strings are proved. Short strings are not injective: the colliding pair is proved and injectivity holds for all other types."
 },
 "C01": {
  "status": "partial",
  "note": "C01_html_preserves_source is about any highlighter that emits well-formed tokens; C01_html_preserves_source_partial is about the actual table with all 25 languages, for the sources that are supported (no condition for 15 languages, Spec/Supported.lean for the others)."
 },
 "C02": {
  "status": "partial",
  "note": "As for C01: any highlighter that emits well-formed tokens, and the actual table for the sources that are supported."
 },
 "C03": {
  "status": "proved",
  "note": "Text buffer capacity is unobservable; the buffer operations keep the content invariant for any sequence of operations. C03_capacity_all applies this to the actual table."
 },
 "C04": {
  "status": "partial",
  "note": "Delivery through the token buffer is lossless and in order for any emission sequence; C04_delivery_all applies this to the actual table, for the sources that are supported."
 },
 "C05": {
  "status": "partial",
  "note": "C05_coalescing_keeps_types: in all 25 languages, whenever highlighting returns, the types of all bytes are the same with any buffer length and with or without the flag. C05_coalesced_maximally (no touching tokens of the same type) is about any highlighter that does not write to the buffer directly; the actual one for HTML does, for nested code."
 },
 "C08": {
  "status": "partial",
  "note": "Rejections and acceptance are proved. Two disagreements are proved with witnesses: the language number 26 trips an assertion, and HTML generation leaves a dangling token callback."
 },
 "C12": {
  "status": "proved",
  "note": "Whole property."
 },
 "C13": {
  "status": "proved",
  "note": "Whole property."
 },
 "C14": {
  "status": "proved",
  "note": "Whole property."
 },
 "C15": {
  "status": "proved",
  "note": "Whole property."
 },
 "C16": {
  "status": "proved",
  "note": "Whole property."
 },
 "C17": {
  "status": "proved",
  "note": "Whole property, for the tables as published in the source."
 },
 "C18": {
  "status": "partial",
  "note": "Everything except range_before and range_until with an end below 192, where the code is undefined (negation proved)."
 },
 "C19": {
  "status": "proved",
  "note": "Whole property."
 },
 "C32": {
  "status": "partial",
  "note": "Setters proved, except ulight_set_html_attr_name, which writes the tag length (negation proved with witnesses)."
 },
 "C20": {
  "status": "proved",
  "note": "Whole property; the lengths of both sequences add up to less than 2^64."
 },
 "C21": {
  "status": "proved",
  "note": "Whole property; the lengths of both sequences add up to less than 2^64."
 },
 "C22": {
  "status": "proved",
  "note": "Whole property."
 },
 "C23": {
  "status": "proved",
  "note": "Whole property, stronger: the parts are a partition of the matched text and each part has the announced form."
 },
 "C24": {
  "status": "partial",
  "note": "The match is the longest run, and the reported errors are characterised exactly. The property as stated fails: a trailing separator is reported only at the end of the string, and an empty match there is reported (witnesses proved). It holds for matches that end the string."
 },
 "C25": {
  "status": "partial",
  "note": "Everything except that the last character is a line feed, which fails when the text ends in other whitespace (witness proved)."
 },
 "C26": {
  "status": "partial",
  "note": "Whole property for unsigned literals. Signed literals outside of the 64-bit range get a wrong value (witness proved); inside they are right."
 },
 "C27": {
  "status": "proved",
  "note": "Whole property."
 },
 "C28": {
  "status": "partial",
  "note": "Whole property for the kinds without braces and for closed braces. Unclosed braces are not reported and nonempty_braced accepts empty braces (witnesses proved)."
 },
 "C37": {
  "status": "partial",
  "note": "Missing parts are reported except for a prefix after a sign; a lone sign is matched as a number (witnesses proved)."
 },
 "C34": {
  "status": "proved",
  "note": "Whole property: the token list is exactly the one the specification determines, for every source."
 },
 "C35": {
  "status": "proved",
  "note": "Whole property: the token list is exactly the one the specification determines, for every source."
 },
 "C36": {
  "status": "proved",
  "note": "Whole property: the token list is the one of the specification, for every source, and every byte except whitespace is covered."
 },
 "C30": {
  "status": "partial",
  "note": "Documents without true, false or null as array elements: exact tokens and no errors. The full statement is false of the code (C30_literal_in_array). For every text, valid or not: every token type is true of its text and gaps are whitespace. Recursion depth is not modelled."
 },
 "C29": {
  "status": "partial",
  "note": "Proved for every text and all options: calls are balanced and properly nested, positions are exact and ascending, success implies a JSON document at the beginning whose parts were all reported, every JSON document is accepted, failures are reported except where a value is missing or a literal is misspelled, no fault unless a member has no name. Each exception is a defect with a proved witness (block comment calls, trailing text, form feed, strtod, unreported failures, member without name, comment errors, surrogates). Recursion depth and exceptions thrown by visitors are not modelled."
 },
 "C38": {
  "status": "proved",
  "note": "Whole property, for every source and in debug and release builds."
 },
 "C39": {
  "status": "proved",
  "note": "Whole property for every source and in debug and release builds; the stack depth of the recursion is not modelled. Witnesses: match_operator does not know + and takes * for it, the command after a pipe can be highlighted as argument, ${#x} is taken for a comment."
 },
 "C33": {
  "status": "proved",
  "note": "Proved for all languages with a table: C, C++, Java, JavaScript, Kotlin, LLVM, Lua, NASM, Python, Rust, TypeScript. The words are listed independently in the specifications. Two tables miss words of their languages: see C33_nasm_differences and C33_llvm_half."
 },
 "C41": {
  "status": "proved",
  "note": "Whole property, in debug and release builds. Error tokens are proved to have a reason in the highlighter's own tables; C41_valid_reported proves that some valid Python is among them: prefixes u and Rf, short octal escapes, numbers that begin with a point, a keyword directly before a string."
 },
 "C42": {
  "status": "proved",
  "note": "Whole property, in debug and release builds. C42_url_never proves that the case for url( can never be taken, C42_differences shows other differences to the CSS standard. Malformed text is excluded because the code loops forever or reads past the end there (C07_css_runs_forever, C07_css_reads_past_end)."
 },
 "C31": {
  "status": "partial",
  "note": "C31_whole_partial proves it for CSS, EBNF, Markdown, diffs and plain text, at the level of the API; C31_html_is_text_partial concludes that their HTML is well-formed UTF-8. C31_split disproves it for each of the other languages, with a text whose delivered tokens split a character. The theorems named after a language are about single emissions."
 },
 "C07": {
  "status": "partial",
  "note": "Proved for all 25 languages, for the sources that are supported: C07_total_unconditional for 15 languages without condition, C07_total_partial for all. False of the code without the conditions: CSS with a stray continuation byte runs forever, HTML, JavaScript, Rust, Markdown and YAML have witnesses for failed assertions or reads out of bounds. The depth of the stack is not modelled."
 },
 "C43": {
  "status": "proved",
  "note": "C43_java_tokens for every input. C43_differences lists valid Java that is reported as an error (`1.`, `1.f`, `$x`, `\\uu0041`) and a short Unicode escape that takes the closing quotation mark. C31_java_splits: a character literal outside of ASCII is cut after one byte."
 },
 "C44": {
  "status": "partial",
  "note": "C44_kotlin_tokens for every input; the parts of a number such as `1.f.` or `1.E+5.` (point without digits, then exponent or suffix, then another point) are only known to be number tokens, and C44_displaced shows that they are indeed in the wrong place. C44_kotlin_tokens_exact is the full claim for texts without such a number. C44_differences lists valid Kotlin that is misread (`!isEmpty`, `5UL`, `super`). C31_kotlin_splits: a character outside of ASCII in an annotation list is cut."
 },
 "C45": {
  "status": "partial",
  "note": "Proved for every file in release builds. In debug builds, proved for every file in which no lifetime is followed by an apostrophe; the file 'ab' fails an assertion (C45_assertion_fails). Raw identifiers, attributes, ranges and tuple fields are never recognised (C45_differences)."
 },
 "C46": {
  "status": "partial",
  "note": "Which of instruction, label or variable an unknown word is depends on the words before it on the line; the rule allows all three. C46_differences shows valid programs that are highlighted as something else, C46_no_pseudo that pseudo-instructions never get their own type."
 },
 "C47": {
  "status": "partial",
  "note": "Proved for the tokens that are not empty. C06_lua_empty shows that empty comments and strings produce empty tokens, which the checks in debug builds reject. The level of the closing bracket of a comment or string is not tied to the opening one in the rule."
 },
 "C48": {
  "status": "proved",
  "note": "C48_html_nested_tokens, with style sheets and scripts, for the sources that satisfy Sane and whose scripts are supported, plus counterexamples for others (out of bounds reads, failed assertions)."
 },
 "C49": {
  "status": "proved",
  "note": "The rules follow the code where it differs from the standard; C49_differences shows well-formed files that are not highlighted as they should be."
 },
 "C50": {
  "status": "proved",
  "note": "The rules follow the code where it differs from the language; C50_differences shows text that is not highlighted as it should be. The depth of the stack is not modelled."
 },
 "C51": {
  "status": "proved",
  "note": "C51_differences lists texts that are highlighted against the language rules, and ill-formed UTF-8 for which a token goes beyond the end of the text; therefore the theorem requires UTF-8."
 },
 "C52": {
  "status": "partial",
  "note": "C52_strings_needed and C52_braces_needed show that the property does not hold without the conditions: the string \"\\x\" makes the highlighter read out of bounds, and a template literal in a JSX attribute can make an assertion fail. C52_differences lists texts that are highlighted against the rules of the language."
 },
 "C53": {
  "status": "partial",
  "note": "C53_comments_needed shows that the property does not hold without the condition: a comment that begins at the end of a line makes an assertion fail, or yields an empty token in release builds. C53_differences lists texts that are highlighted against the rules of CommonMark."
 },
 "C54": {
  "status": "proved",
  "note": "Holds under the hypothesis that there are at most 64 places where a key or list entry may be; C54_many_keys proves that 65 keys make the highlighter abort. C54_differences has texts that are highlighted differently from YAML."
 },
 "C06": {
  "status": "partial",
  "note": "All 25 languages, for the sources that are supported (no condition for 15 languages). C06_lua_empty and C51_differences show that it does not hold without the conditions."
 },
 "C55": {
  "status": "partial",
  "note": "Java, Kotlin, Python, Rust and LLVM. In Java, Kotlin and Rust, words that begin with an underscore are excluded, and it is proved that they are highlighted differently. Missing: other languages, strings with escapes."
 },
 "C57": {
  "status": "partial",
  "note": "Proved for Java (without octal numbers), Python, Rust, Kotlin and LLVM. Not provable for some legal numbers, with witnesses: Kotlin splits the suffix UL after U; LLVM does not recognise the prefix 0xK; a final radix point, a radix point in the beginning (Python), several underscores in a row, an underscore after a prefix and underscores in exponents are rejected. Missing: other languages."
 },
 "C58": {
  "status": "partial",
  "note": "Bash, C, C++, COWEL, CSS, HTML, Java, JavaScript, Kotlin, LLVM, Lua, Markdown, NASM, Python, Rust, TypeScript, XML and YAML are done; diff, TeX, EBNF and JSON have exact descriptions in C34, C35, C36 and C30. For Bash, CSS and Lua the description is complete: C58_bash_total, C58_lua_total and (for well-formed UTF-8) C58_css_total show that every text is a sequence of elements. C58_html holds for all highlighters of the nested style sheets and scripts. C58_bash_parameter shows that the words after ${…} are highlighted as if they were inside of it. C58_nasm_hex shows that hexadecimal literals that end with b or d are highlighted as errors. C58_xml_doctype shows that a document type declaration without external subset hides what follows it. C58_cowel is about a grammar, since COWEL constructs nest; C58_cowel_last_line and C58_cowel_trailing_space show two defects in lines with expressions. For JavaScript, elements of JSX and ill-formed numbers are not described; C58_javascript_underscore shows that names that begin with an underscore are highlighted as errors, and C58_javascript_fraction that digits of fractions are taken for octal ones after a leading zero. For Markdown the elements are lines; comments that begin at the end of a line are not described (see C53_comments_needed). For YAML, lines that have only spaces, and block scalars after tags and anchors are not described; C58_yaml_comment shows that comments after values get no tokens, C58_yaml_tagged that the line after a block scalar with a tag gets none; C58_yaml_spaces shows that a line that has only spaces ends the document."
 }
}