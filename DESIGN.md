# Design of the formal model of ulight

The code under study is eisenwave/ulight, a C++23 syntax highlighting library (`/repo`, read only).
This directory holds a Lean 4 model of it (`lean/Verif`), the list of properties
(`properties.jsonl`), the mapping from properties to theorems (`MANIFEST.json`) and the log of
seeded bugs used to test the theorems (`seeded/LOG.jsonl`).

## 1. Trusted base

* Lean 4.33.0's kernel, and the three standard axioms `propext`, `Classical.choice`, `Quot.sound`.
  No other axiom is used; there is no `sorry`, `admit`, `native_decide` or `bv_decide`.
  `decide +kernel` is used only for statements whose whole (finite) domain is enumerated,
  e.g. "for all 256 bytes", or for closed examples that show that a theorem is not vacuous.
* The reading of the C++ code by the author of the model. Nothing connects the Lean text to the C++
  text mechanically. Every definition cites the file and lines it models and says what it simplifies.
* `std::size_t` is modelled by `Nat`. A source cannot be longer than `PTRDIFF_MAX`, so no sum of
  lengths that occurs in the modelled code wraps; where wrap-around is possible for small inputs
  (e.g. subtraction below zero) the model has an explicit error outcome or wraps explicitly.
* `char8_t` is `UInt8`, `char32_t` is `UInt32`/`Nat` with stated bounds. `std::u8string_view` is
  `List UInt8`; reading out of bounds is a separate error outcome wherever the code indexes.
* Assertions: `ULIGHT_ASSERT`, `ULIGHT_DEBUG_ASSERT` and out-of-range accesses are modelled as an
  explicit `Fault` outcome. A theorem that says "returns ok" therefore covers both the debug build
  (no assertion fires) and the release build (the assertion is compiled out but was true).

## 2. Shape of the model

* **Bytes, strings**: `Verif/Basic.lean`.
* **Buffers** (`Non_Owning_Buffer`): capacity, pending elements, list of flushed batches.
* **Highlighters** (`Highlighter_Base` and one module per language): a state machine over
  `index`, `remainder` and the list of emissions made so far, in the monad
  `HS σ → Except Fault (α × HS σ)`. Loops take fuel; running out of fuel is a `Fault`, so a
  theorem that the result is `ok` also proves termination of the C++ loop. Emissions are recorded
  as the sequence of `emit` calls; whether a call is coalesced or pushed is decided by the buffer
  model that replays the sequence (`emit` never reads anything else from the buffer).
* **API** (`ulight_source_to_tokens`, `ulight_source_to_html`): validation, replay through the token
  buffer, HTML generation through the text buffer.
* **Specifications** are written separately from the model, in `Verif/Spec/*.lean`, using only
  standard list and arithmetic vocabulary.
* **Property theorems** are in `Verif/Props/*.lean`; helper lemmas live with the model.

`tools/golden.py` evaluates the model on the files of `/repo/test/highlight` and compares the tokens
with the expected HTML next to them.  All 811 files agree.  This is a test of the reading of the C++
code, not part of any proof.

## 3. Plan per property

| Id | Modelled | Proof method |
| --- | --- | --- |
| C01 HTML preserves text | buffers, source_to_html, each modelled highlighter | induction over tokens; decoder specified separately; combined with C06 |
| C02 HTML cannot be injected | same | grammar of the output as an inductive predicate, induction |
| C03 text buffer capacity | Non_Owning_Buffer<char8_t> | refinement: flushed ++ pending = pushed, by induction over operations |
| C04 token delivery | Non_Owning_Buffer<Token>, emit | same, with coalescing |
| C05 coalescing | emit | per-position type map is preserved; induction over the emission history |
| C06 well-formed tokens | each highlighter | Hoare-style invariant `Step`, composed per function |
| C07 totality | each highlighter | the same proofs, since faults and fuel exhaustion are outcomes |
| C08 status codes | check order of both entry points | decision logic, case analysis |
| C09 language lookup | lang table, lower_bound | lower_bound correctness for sorted tables + table facts by kernel evaluation |
| C10 path lookup | lang_from_path(_u8) | list lemmas; the u8 overload is disproved by a witness |
| C11 type strings | the highlight type table | kernel evaluation over the whole table, plus out-of-table case; injectivity of short strings disproved |
| C12 UTF-8 validity | is_valid, masks | case analysis on sequence length, induction over the string, against a spec of scalar encodings |
| C13 UTF-8 round trip | encode8, decode | arithmetic on bit fields |
| C14 lenient decoding | decode_and_length_or_replacement | case analysis |
| C15 Unicode search | find_if etc. | induction with the fast/slow loop split |
| C16 ASCII search | ascii_algorithm | induction |
| C17 XID tables | the two range tables and the search | binary search correctness + sortedness by kernel evaluation |
| C18 Charset | limbs as 64-bit words | bit lemmas; range_before disproved where it shifts out of range |
| C19 case-insensitive comparison | ascii_algorithm | induction |
| C20, C21 edit script | table fill + backtrack + partition | induction; optimality against all scripts |
| C22 lines | split_lines, match_crlf_line | induction |
| C23, C24 numbers | match_common_number, match_separated_digits | case analysis over the parts; C24 disproved in part |
| C25 blank lines | state machine | invariant; last-character claim disproved in part |
| C26 integer literals | from_chars as digit folding | induction |
| C27 enclosed, C28 escapes | matchers | first-occurrence lemmas |
| C29, C30 JSON | Parser and Highlighter | structural induction with fuel; several claims disproved in part |
| C31 character boundaries | highlighters | position predicate in the `Step` invariant; disproved for some languages |
| C32 setters | State | record update; one setter disproved |
| C33 keyword tables | tables + lower_bound | as C09; the specifications have their own lists of words |
| C34-C36 languages | diff, tex, ebnf | functional specification proved equal to the model |
| C37 incomplete numbers | match_common_number | case analysis over the parts; disproved in part |
| C38, C39, C41-C54 languages | one highlighter each | one file of rules per language in `Spec/Lang`: which text a token of a type may have, and which text may be without token. Hoare-style proofs per function; the list of tokens tiles the source (`Spec/Stream.lean`) |
| C55 pieces | highlighters whose main loop is in its initial state after the piece | a run on `a ++ b` that has consumed `a` continues like a run on `b`: all commands are uniform in what was read and emitted before (`Hl/Compose.lean`), so exact statements about one step give exact tokens for whole texts |
| C57 numbers | number options of each language | a number in a notation is the concatenation of its parts; a decidable condition says that the options of the language fit the notation (`Hl/Fits.lean`), and then the matcher finds exactly these parts (`Hl/Written.lean`), and the highlighter emits exactly their tokens |
| C58 programs | the main loop of each language | `Spec/Elements` lists the lexical elements of a language with their tokens, and under which conditions on the following text they end; each element is one iteration of the main loop or is skipped by it (`Hl/Program.lean`), so that sequences of elements get the concatenation of their tokens, by induction on the sequence; constructs that nest are a stack of open constructs in the state of the description |
| C40 JSON error codes | the JSON parser | reserved: error codes describe what is at their place |

## 4. Modelled parts

Modelled, function by function:

| Code | Model |
| --- | --- |
| `ulight.h`, `ulight.hpp`, `ulight.cpp`: state, setters, lookup of languages and types, `ulight_source_to_tokens`, `ulight_source_to_html` | `Api`, `Langs`, `Types`, `TypeStrings`, `Dispatch` |
| `impl/buffer.hpp`, `emit` in `impl/highlighter.hpp` | `Buffer`, `Emit` |
| `impl/highlighter.hpp` | `Hl/Base` |
| `impl/unicode.hpp`, `unicode_algorithm.hpp`, `unicode_chars.hpp`, `chars.cpp` (the XID tables) | `Text/Utf8`, `Text/XidTables`, `Search` |
| `impl/ascii_algorithm.hpp`, `ascii_chars.hpp`, `charset.hpp` | `Text/Ascii`, `Text/Charset` |
| `impl/parse_utils.hpp`, `parse_utils.cpp`, `numbers.hpp`, `escapes.hpp` | `Parse/*` |
| `impl/string_diff.hpp` (edit scripts) | `EditScript` |
| `json.hpp`, the parser in `lang/json.cpp` | `Lang/JsonParse` |
| all highlighters in `lang/*.cpp` | `Lang/*` |

Not modelled: the command line program and its output (`main.cpp`, `io.cpp`, `ansi.hpp`, `tty.hpp`,
`print_diff` in `string_diff.hpp`), `wasm.cpp`, memory allocation (`alloc`/`free` and failure of
allocation), `Function_Ref` and the exceptions thrown through it, assertion handlers, code that is
never called (`match_jsx_identifier` and `match_digits` in `js.cpp`,
`match_preprocessing_directive` and `match_integer_literal` in `cpp.cpp`).

Simplifications that are not visible in the statements of theorems:

* Recursion of the C++ code (JSON, Bash, COWEL, JavaScript templates) is fuel-bounded recursion in the
  model. The proofs show that the fuel suffices; they say nothing about the size of the stack.
* `int` counters (`brace_level`, `depth` and others) are natural numbers or integers without bound.
  They are bounded by the length of the source, which would have to exceed 2^31.
* Casts of `str.size()` to a narrower type in the C++ code are taken as exact.
* `std::strtod` in the JSON parser is represented by what it consumes; the value is not modelled.
* `pext`/`pdep` and the portable replacements in `unicode.hpp` are one definition.
* The options of `match_common_number` are literals in each caller; the checks made on them at compile
  time are not modelled.
* A highlighter sees its options without `coalescing`. Only `emit` reads that option (and its copy in
  `cpp.cpp`), and `emit` is modelled by the token buffer. HTML is the exception, because it runs the
  highlighters of CSS and JavaScript on a buffer of its own; there the option is passed on.
* A token of the sub-buffer of HTML is pushed without coalescing (mode `raw`).

Every theorem holds with debug assertions and without, except where it says `debug = true`.

## 5. Disagreements between code and documentation

Each of these is a theorem with a concrete witness.  In each case there is a second theorem for the
part of the property that holds.

### API and utilities

| Theorem | What happens |
| --- | --- |
| `C08_lang_count_asserts` | language number 26 trips an assertion instead of `BAD_LANG` (`>` instead of `>=`, ulight.cpp:414) |
| `C08_html_leaves_dangling_callback` | after `ulight_source_to_html`, the token callback of the state refers to a dead object |
| `C32_set_html_attr_name_reads_out_of_bounds` | `set_html_attr_name` overwrites the length of the tag name |
| C10 | `lang_from_path(u8string_view)` looks up the whole path instead of the extension |
| `C11_short_not_injective` | two types share the short string `name_cmd` |
| C18 | `Charset256::range_before`/`range_until` shift out of range for ends below 192 |
| C24 | misplaced digit separators at the end of a match are reported only at the end of the text; no digits at all are reported there as an error |
| `C25_last_not_newline` | a blank line sequence at the end of the text may not end in a line feed |
| C26 | signed integer literals outside of the range get a wrong value |
| C28 | unclosed braces in escapes are not reported; `nonempty_braced` accepts empty braces |
| C37 | a lone sign is a number; a prefix without digits after a sign is not reported |
| C29 | JSON parser: block comment calls are not balanced, trailing text is accepted, form feeds are whitespace, `strtod` reads past the number, some failures are not reported, a member without name faults, surrogates are passed on one by one |

### Highlighters

| Theorem | What happens |
| --- | --- |
| `C07_css_runs_forever`, `C07_css_reads_past_end` | CSS: malformed UTF-8 loops forever or reads past the end |
| `C48_reference_at_end`, `C48_longer_name` | HTML: reads past the end of the source |
| `C52_strings_needed`, `C52_braces_needed` | JavaScript: `"\x"` reads out of bounds; a template literal in JSX fails an assertion |
| `C45_assertion_fails` | Rust: `'ab'` fails an assertion in debug builds |
| `C53_comments_needed` | Markdown: `<!--` at the end of a line yields an empty token, and fails an assertion in debug builds |
| `C54_many_keys` | YAML: 65 keys in one block exhaust the indentation stack; the program stops |
| `C06_lua_empty` | Lua: empty comments and strings yield empty tokens, and fail an assertion in debug builds |
| `C51_differences` | C++: ill-formed text can yield a token beyond the end of the text |
| `C30_literal_in_array` | JSON: the closing bracket of `[true]` is an error |
| `C31_split` | all languages except CSS, EBNF, Markdown, diff and plain text: characters are split between tokens |
| `C33_nasm_differences`, `C33_llvm_half` | NASM: `xmm30` and `jns` are missing from the tables, `xmm32` is in them; LLVM: `half` is not a type |
| `C42_url_never`, `C46_no_pseudo` | CSS URLs and NASM pseudo-instructions are never recognised, although there is code for them |
| `C55_java_underscore`, `C55_kotlin_underscore`, `C55_rust_underscore` | Java, Kotlin, Rust: names that begin with an underscore are errors |
| `C57_kotlin_suffix` | Kotlin: in `1UL`, the suffix is only `U`, and `L` is a name, because `U` is before `UL` in the list of suffixes |
| `C57_llvm_prefix` | LLVM: in `0xK1`, `0x` is an error, because `0x` is before `0xK` in the list of prefixes |
| `C57_last_point` | `1.` at the end of the text is an error in Java, Python and Rust, although it is a legal number; in Python and Rust it is accepted if anything follows |
| `C57_python_first_point` | Python: `.5` is an error, although it is a legal number |
| `C57_underscores` | `1__2` is an error in Java, Kotlin and Rust, although it is a legal number |
| `C57_prefix_underscore` | `0x_f` is an error in Python and Rust, although it is a legal number |
| `C57_exponent_underscore` | in `1e1_0`, the number ends before the underscore in Java, Kotlin, Python and Rust, and the rest is an error, a name or a suffix |
| `C58_nasm_hex` | NASM: hexadecimal literals that end with the digit `b` or `d`, such as `0xab`, are highlighted as errors, because the digit is taken for a letter that stands for the base |
| `C58_bash_parameter` | Bash: the words after `${…}` are highlighted as if they were inside of the braces, up to the end of the line |
| `C58_xml_doctype` | XML: everything after a document type declaration without external subset, up to the next whitespace, gets no tokens, because the code skips it as if it were a misspelt `SYSTEM` or `PUBLIC` |
| `C58_cowel_last_line` | COWEL: a backslash and a space in the last line (without a line terminator) ends highlighting: nothing after it gets tokens |
| `C58_cowel_trailing_space` | COWEL: whitespace at the end of a line with expressions (`\ x `) includes the line terminator, so that the next line is highlighted as expressions, too |
| `C58_javascript_underscore` | JavaScript, TypeScript: names that begin with an underscore are highlighted as an error and a name, because the underscore is taken for the separator in a number |
| `C58_javascript_fraction` | JavaScript, TypeScript: after a leading zero the digits of a fraction are taken for octal digits, so that `0.19` is highlighted as two numbers |
| `C58_yaml_comment` | YAML: the comment after a value, as in `a: b # c`, gets no tokens, because the rest of the line is skipped |
| `C58_yaml_spaces` | YAML: a line that has only spaces ends the document, so that a line after it that begins with `%` is highlighted as a directive |
| `C58_yaml_tagged` | YAML: the line after a block scalar, as `c: d` in `a: !t |`, ` b`, `c: d`, gets no tokens if there is a tag or an anchor before the block scalar, because the rest of the line is skipped after the block scalar too |
| `C39_…`, `C41_valid_reported`, `C4x_differences`, `C5x_differences` | texts that are highlighted against the rules of the language, listed beside each theorem |
