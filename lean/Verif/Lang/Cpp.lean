import Verif.Lang.CppCommon

/-!
# C and C++ (src/main/cpp/lang/cpp.cpp)

Identifiers and block comments are in `CppCommon.lean`.  The two languages share a highlighter; `cpp`
says whether `c_or_cpp` is `Lang::cpp`.
-/

namespace Ulight.Cpp

open Utf8 (decodeOrReplacement sequenceLength)

/-- `Feature_Source` (cpp.hpp:52-61). -/
inductive Source where
  | ext | c | cpp | c_cpp
  deriving DecidableEq, Repr

set_option maxRecDepth 4000 in
/-- `ULIGHT_CPP_TOKEN_ENUM_DATA` (cpp.hpp:75-297): the codes, highlights and sources of the token types
in order, which are also the members of the arrays at cpp.cpp:34-48.  A `Token_Type` is represented by
its code. -/
def tokens : List (Bytes × HT × Source) := [
  (b!"!", .symbol_op, .c_cpp),
  (b!"!=", .symbol_op, .c_cpp),
  (b!"#", .name_macro_delim, .c_cpp),
  (b!"##", .name_macro_delim, .c_cpp),
  (b!"%", .symbol_op, .c_cpp),
  (b!"%:", .name_macro_delim, .c_cpp),
  (b!"%:%:", .name_macro_delim, .c_cpp),
  (b!"%=", .symbol_op, .c_cpp),
  (b!"%>", .symbol_brace, .c_cpp),
  (b!"&", .symbol_op, .c_cpp),
  (b!"&&", .symbol_op, .c_cpp),
  (b!"&=", .symbol_op, .c_cpp),
  (b!"(", .symbol_parens, .c_cpp),
  (b!")", .symbol_parens, .c_cpp),
  (b!"*", .symbol_op, .c_cpp),
  (b!"*=", .symbol_op, .c_cpp),
  (b!"+", .symbol_op, .c_cpp),
  (b!"++", .symbol_op, .c_cpp),
  (b!"+=", .symbol_op, .c_cpp),
  (b!",", .symbol_punc, .c_cpp),
  (b!"-", .symbol_op, .c_cpp),
  (b!"--", .symbol_op, .c_cpp),
  (b!"-=", .symbol_op, .c_cpp),
  (b!"->", .symbol_op, .c_cpp),
  (b!"->*", .symbol_op, .cpp),
  (b!".", .symbol_op, .c_cpp),
  (b!".*", .symbol_op, .cpp),
  (b!"...", .symbol_op, .c_cpp),
  (b!"/", .symbol_op, .c_cpp),
  (b!"/=", .symbol_op, .c_cpp),
  (b!":", .symbol_punc, .c_cpp),
  (b!"::", .symbol_op, .cpp),
  (b!":>", .symbol_square, .c_cpp),
  (b!";", .symbol_punc, .c_cpp),
  (b!"<", .symbol_op, .c_cpp),
  (b!"<%", .symbol_brace, .c_cpp),
  (b!"<:", .symbol_square, .c_cpp),
  (b!"<<", .symbol_op, .c_cpp),
  (b!"<<=", .symbol_op, .c_cpp),
  (b!"<=", .symbol_op, .c_cpp),
  (b!"<=>", .symbol_op, .cpp),
  (b!"=", .symbol_op, .c_cpp),
  (b!"==", .symbol_op, .c_cpp),
  (b!">", .symbol_op, .c_cpp),
  (b!">=", .symbol_op, .c_cpp),
  (b!">>", .symbol_op, .c_cpp),
  (b!">>=", .symbol_op, .c_cpp),
  (b!"?", .symbol_op, .c_cpp),
  (b!"[", .symbol_square, .c_cpp),
  (b!"]", .symbol_square, .c_cpp),
  (b!"^", .symbol_op, .c_cpp),
  (b!"^=", .symbol_op, .c_cpp),
  (b!"^^", .symbol_op, .cpp),
  (b!"_Alignas", .keyword, .c),
  (b!"_Alignof", .keyword, .c),
  (b!"_Atomic", .keyword, .c_cpp),
  (b!"_BitInt", .keyword_type, .c),
  (b!"_Bool", .keyword_type, .c),
  (b!"_Complex", .keyword, .c),
  (b!"_Decimal128", .keyword_type, .c),
  (b!"_Decimal32", .keyword_type, .c),
  (b!"_Decimal64", .keyword_type, .c),
  (b!"_ExtInt", .keyword_type, .ext),
  (b!"_Float128", .keyword_type, .c),
  (b!"_Float128x", .keyword_type, .c),
  (b!"_Float16", .keyword_type, .c),
  (b!"_Float32", .keyword_type, .c),
  (b!"_Float32x", .keyword_type, .c),
  (b!"_Float64", .keyword_type, .c),
  (b!"_Float64x", .keyword_type, .c),
  (b!"_Generic", .keyword, .c),
  (b!"_Imaginary", .keyword, .c),
  (b!"_Noreturn", .keyword, .c),
  (b!"_Pragma", .keyword, .c_cpp),
  (b!"_Static_assert", .keyword, .c),
  (b!"_Thread_local", .keyword, .c),
  (b!"__asm__", .keyword, .ext),
  (b!"__attribute__", .keyword, .ext),
  (b!"__extension__", .keyword, .ext),
  (b!"__float128", .keyword_type, .ext),
  (b!"__float80", .keyword_type, .ext),
  (b!"__fp16", .keyword_type, .ext),
  (b!"__ibm128", .keyword_type, .ext),
  (b!"__imag__", .keyword, .ext),
  (b!"__int128", .keyword_type, .ext),
  (b!"__int16", .keyword_type, .ext),
  (b!"__int256", .keyword_type, .ext),
  (b!"__int32", .keyword_type, .ext),
  (b!"__int64", .keyword_type, .ext),
  (b!"__int8", .keyword_type, .ext),
  (b!"__label__", .keyword, .ext),
  (b!"__m128", .keyword_type, .ext),
  (b!"__m128d", .keyword_type, .ext),
  (b!"__m128i", .keyword_type, .ext),
  (b!"__m256", .keyword_type, .ext),
  (b!"__m256d", .keyword_type, .ext),
  (b!"__m256i", .keyword_type, .ext),
  (b!"__m512", .keyword_type, .ext),
  (b!"__m512d", .keyword_type, .ext),
  (b!"__m512i", .keyword_type, .ext),
  (b!"__m64", .keyword_type, .ext),
  (b!"__mmask16", .keyword_type, .ext),
  (b!"__mmask32", .keyword_type, .ext),
  (b!"__mmask64", .keyword_type, .ext),
  (b!"__mmask8", .keyword_type, .ext),
  (b!"__ptr32", .keyword_type, .ext),
  (b!"__ptr64", .keyword_type, .ext),
  (b!"__real__", .keyword, .ext),
  (b!"__restrict", .keyword, .ext),
  (b!"alignas", .keyword, .c_cpp),
  (b!"alignof", .keyword, .c_cpp),
  (b!"and", .keyword, .c_cpp),
  (b!"and_eq", .keyword, .c_cpp),
  (b!"asm", .keyword_control, .c_cpp),
  (b!"auto", .keyword, .c_cpp),
  (b!"bitand", .keyword, .c_cpp),
  (b!"bitor", .keyword, .c_cpp),
  (b!"bool", .keyword_type, .c_cpp),
  (b!"break", .keyword_control, .c_cpp),
  (b!"case", .keyword_control, .c_cpp),
  (b!"catch", .keyword_control, .c_cpp),
  (b!"char", .keyword_type, .c_cpp),
  (b!"char16_t", .keyword_type, .cpp),
  (b!"char32_t", .keyword_type, .cpp),
  (b!"char8_t", .keyword_type, .cpp),
  (b!"class", .keyword, .cpp),
  (b!"co_await", .keyword_control, .cpp),
  (b!"co_return", .keyword_control, .cpp),
  (b!"co_yield", .keyword_control, .cpp),
  (b!"compl", .keyword, .c_cpp),
  (b!"complex", .keyword, .c),
  (b!"concept", .keyword, .cpp),
  (b!"const", .keyword, .c_cpp),
  (b!"const_cast", .keyword, .cpp),
  (b!"consteval", .keyword, .cpp),
  (b!"constexpr", .keyword, .c_cpp),
  (b!"constinit", .keyword, .cpp),
  (b!"continue", .keyword_control, .c_cpp),
  (b!"contract_assert", .keyword, .cpp),
  (b!"decltype", .keyword, .cpp),
  (b!"default", .keyword, .c_cpp),
  (b!"delete", .keyword, .cpp),
  (b!"do", .keyword_control, .c_cpp),
  (b!"double", .keyword_type, .c_cpp),
  (b!"dynamic_cast", .keyword, .cpp),
  (b!"else", .keyword_control, .c_cpp),
  (b!"enum", .keyword, .c_cpp),
  (b!"explicit", .keyword, .cpp),
  (b!"export", .keyword, .cpp),
  (b!"extern", .keyword, .c_cpp),
  (b!"false", .bool_, .c_cpp),
  (b!"final", .keyword, .cpp),
  (b!"float", .keyword_type, .c_cpp),
  (b!"for", .keyword_control, .c_cpp),
  (b!"friend", .keyword, .cpp),
  (b!"goto", .keyword_control, .c_cpp),
  (b!"if", .keyword_control, .c_cpp),
  (b!"imaginary", .keyword, .c),
  (b!"import", .keyword, .cpp),
  (b!"inline", .keyword, .c_cpp),
  (b!"int", .keyword_type, .c_cpp),
  (b!"long", .keyword_type, .c_cpp),
  (b!"module", .keyword, .cpp),
  (b!"mutable", .keyword, .cpp),
  (b!"namespace", .keyword, .cpp),
  (b!"new", .keyword, .cpp),
  (b!"noexcept", .keyword, .cpp),
  (b!"noreturn", .keyword, .c),
  (b!"not", .keyword, .c_cpp),
  (b!"not_eq", .keyword, .c_cpp),
  (b!"nullptr", .null, .c_cpp),
  (b!"operator", .keyword, .cpp),
  (b!"or", .keyword, .c_cpp),
  (b!"or_eq", .keyword, .c_cpp),
  (b!"override", .keyword, .cpp),
  (b!"post", .keyword, .cpp),
  (b!"pre", .keyword, .cpp),
  (b!"private", .keyword, .cpp),
  (b!"protected", .keyword, .cpp),
  (b!"public", .keyword, .cpp),
  (b!"register", .keyword, .c_cpp),
  (b!"reinterpret_cast", .keyword, .cpp),
  (b!"replaceable_if_eligible", .keyword, .cpp),
  (b!"requires", .keyword, .cpp),
  (b!"restrict", .keyword, .c),
  (b!"return", .keyword_control, .c_cpp),
  (b!"short", .keyword_type, .c_cpp),
  (b!"signed", .keyword_type, .c_cpp),
  (b!"sizeof", .keyword, .c_cpp),
  (b!"static", .keyword, .c_cpp),
  (b!"static_assert", .keyword, .c_cpp),
  (b!"static_cast", .keyword, .cpp),
  (b!"struct", .keyword, .c_cpp),
  (b!"switch", .keyword_control, .c_cpp),
  (b!"template", .keyword, .cpp),
  (b!"this", .keyword_this, .cpp),
  (b!"thread_local", .keyword, .c_cpp),
  (b!"throw", .keyword, .cpp),
  (b!"trivially_relocatable_if_eligible", .keyword, .cpp),
  (b!"true", .bool_, .c_cpp),
  (b!"try", .keyword, .cpp),
  (b!"typedef", .keyword, .c_cpp),
  (b!"typeid", .keyword, .cpp),
  (b!"typename", .keyword, .cpp),
  (b!"typeof", .keyword, .c),
  (b!"typeof_unqual", .keyword, .c),
  (b!"union", .keyword, .c_cpp),
  (b!"unsigned", .keyword_type, .c_cpp),
  (b!"using", .keyword, .cpp),
  (b!"virtual", .keyword, .cpp),
  (b!"void", .keyword_type, .c_cpp),
  (b!"volatile", .keyword, .c_cpp),
  (b!"wchar_t", .keyword_type, .cpp),
  (b!"while", .keyword_control, .c_cpp),
  (b!"xor", .keyword, .c_cpp),
  (b!"xor_eq", .keyword, .c_cpp),
  (b!"{", .symbol_brace, .c_cpp),
  (b!"|", .symbol_op, .c_cpp),
  (b!"|=", .symbol_op, .c_cpp),
  (b!"||", .symbol_op, .c_cpp),
  (b!"}", .symbol_brace, .c_cpp),
  (b!"~", .symbol_op, .c_cpp)]

/-- `cpp_token_type_by_code` (cpp.cpp:81-88), `cpp_token_type_highlight` (cpp.cpp:69-72) and
`cpp_token_type_source` (cpp.cpp:75-78). -/
def byCode (s : Bytes) : Option (HT × Source) := (lookupSorted Prod.fst tokens s).map Prod.snd

/-- `is_cpp_whitespace` (cpp.hpp:43). -/
def isWhitespace (c : UInt8) : Bool := c ∈ b!"\t\n\x0c\r \x0b"

/-- `is_cpp_basic` (cpp.hpp:47-48). -/
def isBasic (c : UInt8) : Bool :=
  isAlnum c || c ∈ b!"\t\x0b\x0c\r\n!\"#$%&'()*+,-./:;<>=?@[]\\^_`{|}~"

/-- `is_cpp_d_char` (cpp.hpp:50). -/
def isDChar (c : UInt8) : Bool := c < 0x80 && !isWhitespace c && c ≠ c!"(" && c ≠ c!")" && c ≠ c!"\\"

/-- `is_string_literal_prefix` (cpp.cpp:103-111). -/
def isStringPrefix (s : Bytes) : Bool :=
  s ∈ [b!"L", b!"LR", b!"R", b!"U", b!"UR", b!"u", b!"u8", b!"u8R", b!"uR"]

/-- The loop in `match_newline_escape` (cpp.cpp:126-134): `length` is the number of characters before
the string. -/
def newlineEscapeLoop : Nat → Bytes → Nat
  | _, [] => 0
  | length, c :: s =>
    if c = 0x0A then length + 1 else if !isWhitespace c then 0 else newlineEscapeLoop (length + 1) s

/-- `match_newline_escape` (cpp.cpp:114-135). -/
def matchNewlineEscape (s : Bytes) : Nat :=
  if !startsWith s b!"\\" then 0 else newlineEscapeLoop 1 (s.drop 1)

/-- The loop in `match_line_comment` (cpp.cpp:148-160); `s` is the remainder at `length`, and the result
does not include `length`.  The fuel is the length of the string. -/
def lineLoop : Nat → Bytes → Nat
  | 0, _ => 0
  | fuel + 1, s =>
    if s = [] then 0
    else if startsWith s b!"\n" || startsWith s b!"\r\n" then 0
    else
      let escape := matchNewlineEscape s
      if escape ≠ 0 then escape + lineLoop fuel (s.drop escape) else 1 + lineLoop fuel (s.drop 1)

/-- `match_line_comment` (cpp.cpp:140-163). -/
def matchLineComment (s : Bytes) : Nat :=
  if !startsWith s b!"//" then 0 else 2 + lineLoop s.length (s.drop 2)

/-- The loop in `match_pp_number` (cpp.cpp:277-321); `s` is the string at `length`, and the result does
not include `length`.  The fuel is the length of the string. -/
def ppLoop : Nat → Bytes → Nat
  | 0, _ => 0
  | fuel + 1, s =>
    match s with
    | [] => 0
    | c :: t =>
      if c = c!"'" then
        if t[0]?.any isAsciiXidContinue then 2 + ppLoop fuel (t.drop 1) else 0
      else if c ∈ b!"eEpP" then
        if t[0]?.any (fun d => d = c!"-" || d = c!"+") then 2 + ppLoop fuel (t.drop 1)
        else 1 + ppLoop fuel t
      else if c = c!"." then 1 + ppLoop fuel t
      else
        let d := decodeOrReplacement s
        if isIdContinue d.1 then d.2 + ppLoop fuel (s.drop d.2) else 0

/-- `match_pp_number` (cpp.cpp:262-324). -/
def matchPpNumber (s : Bytes) : Nat :=
  if startsWith s b!"." && s[1]?.any isDigit then 2 + ppLoop s.length (s.drop 2)
  else if s[0]?.any isDigit then 1 + ppLoop s.length (s.drop 1)
  else 0

/-- `Escape_Type` and `Escape_Result` (cpp.hpp:429-456), as far as it matters to the highlighter: whether it is `newline`. -/
structure EscapeResult where
  length : Nat
  newline : Bool := false
  erroneous : Bool := false
  deriving DecidableEq, Repr

/-- `with_type` (cpp.cpp:353-357) for types other than `newline`. -/
def EscapeResult.of (e : Escape) : EscapeResult := ⟨e.length, false, e.erroneous⟩

/-- `match_escape_sequence` (cpp.cpp:351-457). -/
def matchEscape (s : Bytes) : EscapeResult :=
  if !startsWith s b!"\\" then ⟨0, false, false⟩
  else
    match s[1]? with
    | none => ⟨0, false, false⟩
    | some c =>
      if c ∈ b!"'\"?\\abfnrtv" then ⟨2, false, false⟩
      else if c ∈ b!" \t\x0b\x0c\r" then
        let length := matchNewlineEscape s
        if length ≠ 0 then ⟨length, true, false⟩ else ⟨2, true, true⟩
      else if c = 0x0A then ⟨2, true, false⟩
      else if c = c!"u" then
        if s[2]? = some c!"{" then .of (matchCommonEscapeAt .hex_braced s 2)
        else .of (matchCommonEscapeAt .hex_4 s 2)
      else if c = c!"U" then .of (matchCommonEscapeAt .hex_8 s 2)
      else if c = c!"N" then
        if s[2]? = some c!"{" then
          match s.findIdx? (fun c => c = c!"}" || c = 0x0A) with
          | none => ⟨3, false, true⟩
          | some k => if s[k]? ≠ some c!"}" then ⟨3, false, true⟩ else ⟨k + 1, false, k + 1 ≤ 4⟩
        else ⟨2, false, true⟩
      else if c = c!"x" then
        if s[2]? = some c!"{" then .of (matchCommonEscapeAt .hex_braced s 2)
        else .of (matchCommonEscapeAt .hex_1_to_inf s 2)
      else if c = c!"o" then
        if s[2]? = some c!"{" then .of (matchCommonEscapeAt .octal_braced s 2) else ⟨2, false, true⟩
      else if isOctalDigit c then .of (matchCommonEscapeAt .octal_1_to_3 s 1)
      else ⟨2, false, !isBasic c⟩

/-- `match_preprocessing_op_or_punc` (cpp.cpp:469-553). -/
def matchOp (cpp : Bool) (s : Bytes) : Option Bytes :=
  match s with
  | [] => none
  | c :: _ =>
    if c = c!"#" then if startsWith s b!"##" then some b!"##" else some b!"#"
    else if c = c!"%" then
      if startsWith s b!"%:%:" then some b!"%:%:"
      else if startsWith s b!"%:" then some b!"%:"
      else if startsWith s b!"%=" then some b!"%="
      else if startsWith s b!"%>" then some b!":>"
      else some b!"%"
    else if c = c!"{" then some b!"{"
    else if c = c!"}" then some b!"}"
    else if c = c!"[" then some b!"["
    else if c = c!"]" then some b!"]"
    else if c = c!"(" then some b!"("
    else if c = c!")" then some b!")"
    else if c = c!"<" then
      if startsWith s b!"<::" && !startsWith s b!"<:::" && !startsWith s b!"<::>" then some b!"<"
      else if cpp && startsWith s b!"<=>" then some b!"<=>"
      else if startsWith s b!"<<=" then some b!"<<="
      else if startsWith s b!"<=" then some b!"<="
      else if startsWith s b!"<<" then some b!"<<"
      else if startsWith s b!"<%" then some b!"<%"
      else if startsWith s b!"<:" then some b!"<:"
      else some b!"<"
    else if c = c!";" then some b!";"
    else if c = c!":" then
      if startsWith s b!":>" then some b!":>"
      else if cpp && startsWith s b!"::" then some b!"::"
      else some b!":"
    else if c = c!"." then
      if startsWith s b!"..." then some b!"..."
      else if cpp && startsWith s b!".*" then some b!".*"
      else some b!"."
    else if c = c!"?" then some b!"?"
    else if c = c!"-" then
      if cpp && startsWith s b!"->*" then some b!"->*"
      else if startsWith s b!"-=" then some b!"-="
      else if startsWith s b!"->" then some b!"->"
      else if startsWith s b!"--" then some b!"--"
      else some b!"-"
    else if c = c!">" then
      if startsWith s b!">>=" then some b!">>="
      else if startsWith s b!">=" then some b!">="
      else if startsWith s b!">>" then some b!">>"
      else some b!">"
    else if c = c!"~" then some b!"~"
    else if c = c!"!" then if startsWith s b!"!=" then some b!"!=" else some b!"!"
    else if c = c!"+" then
      if startsWith s b!"++" then some b!"++" else if startsWith s b!"+=" then some b!"+=" else some b!"+"
    else if c = c!"*" then if startsWith s b!"*=" then some b!"*=" else some b!"*"
    else if c = c!"/" then if startsWith s b!"/=" then some b!"/=" else some b!"/"
    else if c = c!"^" then
      if cpp && startsWith s b!"^^" then some b!"^^"
      else if startsWith s b!"^=" then some b!"^="
      else some b!"^"
    else if c = c!"&" then
      if startsWith s b!"&=" then some b!"&=" else if startsWith s b!"&&" then some b!"&&" else some b!"&"
    else if c = c!"|" then
      if startsWith s b!"|=" then some b!"|=" else if startsWith s b!"||" then some b!"||" else some b!"|"
    else if c = c!"=" then if startsWith s b!"==" then some b!"==" else some b!"="
    else if c = c!"," then some b!","
    else none

/-- `feature_source_mask` (cpp.cpp:596-600) with `feature_in_mask` (cpp.cpp:563-572): the masks are
`source_mask_standard_c`, `source_mask_standard_cpp`, `source_mask_standard_c_ext` and
`source_mask_all` (cpp.cpp:557-560). -/
def inMask (cpp strict : Bool) (source : Source) : Bool :=
  let mask : List Source :=
    if strict && !cpp then [.c, .c_cpp]
    else if strict && cpp then [.cpp, .c_cpp]
    else if !cpp then [.ext, .c, .c_cpp]
    else [.ext, .c, .cpp, .c_cpp]
  source ∈ mask

/-- `s.ends_with(t)` -/
def endsWith (s t : Bytes) : Bool := startsWith s.reverse t.reverse

/-- `usual_fallback_highlight` (cpp.cpp:575-578). -/
def usualFallback (id : Bytes) : HT := if endsWith id b!"_t" then .name_type else .name

/-! ## The highlighter

The member `ext` of the state is `fresh_line` (cpp.cpp:595).  Its `emit` (cpp.cpp:618-631) and `advance`
(cpp.cpp:639-642) have fewer assertions than the ones of `Highlighter_Base`, which are used for the
model wherever the bounds have been checked.  The ones below are for the other case. -/

/-- `emit` (cpp.cpp:618-631) without a check of the bounds. -/
def emitAnywhere (beg len : Nat) (ty : HT) : HM Bool Unit := fun env s =>
  if env.debug && len = 0 then .error .assert
  else .ok ((), { s with out := s.out ++ [⟨beg, len, ty, .normal⟩] })

/-- `advance` (cpp.cpp:639-642) without a check of the bounds. -/
def skip (n : Nat) : HM Bool Unit := fun _ s => .ok ((), { s with rem := s.rem.drop n, idx := s.idx + n })

/-- `expect_whitespace` (cpp.cpp:669-677). -/
def expectWhitespace : HM Bool Bool := do
  let r ← HM.rem
  let length := Ascii.length_if r isWhitespace
  if length = 0 then pure false
  else do
    HM.modify (· || (r.take length).contains 0x0A)
    HM.advance length
    pure true

/-- `expect_line_comment` (cpp.cpp:679-690). -/
def expectLineComment : HM Bool Bool := do
  let r ← HM.rem
  let length := matchLineComment r
  if length = 0 then pure false
  else do
    HM.emitAdv 2 .comment_delim
    HM.emitAdvIf (length - 2) .comment
    HM.set true
    pure true

/-- `expect_block_comment` (cpp.cpp:692-708). -/
def expectBlockComment : HM Bool Bool := do
  let r ← HM.rem
  let b := matchBlockComment r
  if b.length = 0 then pure false
  else do
    highlightBlockComment b
    pure true

/-- `expect_identifier_or_keyword` (cpp.cpp:993-1007). -/
def expectIdentifier (cpp : Bool) (fallback : Bytes → HT) : HM Bool Bool := do
  let r ← HM.rem
  let o ← HM.opts
  let length := matchIdentifier r
  if length = 0 then pure false
  else do
    let id := r.take length
    let ty := ((byCode id).filter (fun e => inMask cpp o.strict e.2)).elim (fallback id) Prod.fst
    HM.emitAdv length ty
    HM.set false
    pure true

/-- `consume_string_suffix` (cpp.cpp:870-875). -/
def consumeStringSuffix (cpp : Bool) : HM Bool Unit := do
  let _ ← expectIdentifier cpp (fun _ => .string_decor)
  pure ()

/-- `flush_chars` (cpp.cpp:773-779). -/
def flushChars (chars : Nat) : HM Bool Unit :=
  if chars ≠ 0 then do
    let i ← HM.index
    HM.dassert (chars ≤ i)
    emitAnywhere (i - chars) chars .string
  else pure ()

/-- The body of the loop in `consume_char_sequence_and_suffix` (cpp.cpp:781-817), and what follows it;
the local variable is `chars_length`. -/
def charStep (cpp : Bool) (quote : UInt8) (chars : Nat) : HM Bool (Nat ⊕ Unit) := do
  let r ← HM.rem
  match r with
  | [] => do
    flushChars chars
    HM.set false
    pure (.inr ())
  | c :: _ =>
    if c = quote then do
      flushChars chars
      HM.emitAdv 1 .string_delim
      consumeStringSuffix cpp
      HM.set false
      pure (.inr ())
    else if c = c!"\\" then
      let escape := matchEscape r
      if escape.length = 0 then do
        flushChars chars
        HM.emitAdv 1 .error
        pure (.inl 0)
      else if escape.newline then do
        HM.advance escape.length
        pure (.inl (chars + escape.length))
      else do
        flushChars chars
        HM.emitAdv escape.length (if escape.erroneous then .error else .string_escape)
        pure (.inl 0)
    else if c = 0x0D || c = 0x0A then do
      flushChars chars
      HM.set true
      pure (.inr ())
    else do
      let units := if sequenceLength c = 0 then 1 else sequenceLength c
      skip units
      pure (.inl (chars + units))

/-- `consume_char_sequence_and_suffix` (cpp.cpp:770-823). -/
def consumeChars (cpp : Bool) (quote : UInt8) : HM Bool Unit := do
  let r ← HM.rem
  HM.loop (r.length + 1) (charStep cpp quote) 0

/-- `expect_character_literal` (cpp.cpp:710-734). -/
def expectCharacterLiteral (cpp : Bool) : HM Bool Bool := do
  let r ← HM.rem
  let length := matchIdentifier r
  if r[length]? ≠ some c!"'" then pure false
  else do
    let pre := r.take length
    HM.emitAdvIf length
      (if pre = b!"u8" ∨ pre = b!"u" ∨ pre = b!"U" ∨ pre = b!"L" then .string_decor else .error)
    let r ← HM.rem
    HM.dassert (startsWith r b!"'")
    HM.emitAdv 1 .string_delim
    consumeChars cpp c!"'"
    pure true

/-- `match_raw_terminator` (cpp.cpp:846-850). -/
def isRawTerminator (d s : Bytes) : Bool :=
  startsWith s b!")" && startsWith (s.drop 1) d && startsWith (s.drop (1 + d.length)) b!"\""

/-- The loop in `consume_raw_string_and_suffix` (cpp.cpp:853-863): the position of the terminator after
`n` characters, or the length of the string; and whether there is one. -/
def rawLoop (d : Bytes) : Nat → Bytes → Nat × Bool
  | n, [] => (n, false)
  | n, c :: s => if isRawTerminator d (c :: s) then (n, true) else rawLoop d (n + 1) s

/-- `consume_raw_string_and_suffix` (cpp.cpp:825-868). -/
def consumeRawString (cpp : Bool) : HM Bool Unit := do
  let r ← HM.rem
  HM.dassert (startsWith r b!"\"")
  HM.set false
  let length := Ascii.length_if (r.drop 1) isDChar
  let d := (r.drop 1).take length
  match r[length + 1]? with
  | none => HM.emitAdv (length + 1) .error
  | some c =>
    if c ≠ c!"(" then HM.emitAdv (length + 2) .error
    else do
      HM.emitAdv (length + 2) .string_delim
      let raw := rawLoop d 0 (r.drop (length + 2))
      HM.emitAdvIf raw.1 .string
      if raw.2 then do
        HM.emitAdv (length + 2) .string_delim
        consumeStringSuffix cpp
      else pure ()

/-- `expect_string_literal` (cpp.cpp:736-768). -/
def expectStringLiteral (cpp : Bool) : HM Bool Bool := do
  let r ← HM.rem
  let length := matchIdentifier r
  if r[length]? ≠ some c!"\"" then pure false
  else do
    let pre := r.take length
    HM.emitAdvIf length
      (if pre = b!"operator" then .keyword else if isStringPrefix pre then .string_decor else .error)
    let r ← HM.rem
    HM.dassert (startsWith r b!"\"")
    if endsWith pre b!"R" then do
      consumeRawString cpp
      pure true
    else do
      HM.emitAdv 1 .string_delim
      consumeChars cpp c!"\""
      pure true

/-- `is_exponent` (cpp.cpp:931-933): the character after the `e`. -/
def startsExponent (c : UInt8) : Bool := c = c!"-" || c = c!"+" || isDigit c

/-- The loop in `highlight_pp_number` (cpp.cpp:913-989) and what follows it; `digits` is the number of
digits that have not been emitted yet. -/
def numberLoop (hex : Bool) : Nat → Bytes → HM Bool Unit
  | digits, [] => HM.emitAdvIf digits .number
  | digits, c :: pp =>
    if c = c!"'" then do
      HM.emitAdvIf digits .number
      HM.emitAdv 1 .number_delim
      numberLoop hex 0 pp
    else if (c = c!"e" || c = c!"E") && hex then numberLoop hex (digits + 1) pp
    else if c = c!"e" || c = c!"E" then do
      HM.emitAdvIf digits .number
      if pp[0]?.any startsExponent then do
        HM.emitAdv 1 .number_delim
        numberLoop hex 0 pp
      else HM.emitAdv (pp.length + 1) .number_decor
    else if c = c!"p" || c = c!"P" then do
      HM.emitAdvIf digits .number
      if hex && pp[0]?.any startsExponent then do
        HM.emitAdv 1 .number_delim
        numberLoop hex 0 pp
      else HM.emitAdv (pp.length + 1) .number_decor
    else if c = c!"." then do
      HM.emitAdvIf digits .number
      HM.emitAdv 1 .number_delim
      numberLoop hex 0 pp
    else if c ∈ b!"+-0123456789" then numberLoop hex (digits + 1) pp
    else if hex && isHexDigit c then numberLoop hex (digits + 1) pp
    else do
      HM.emitAdvIf digits .number
      HM.emitAdv (pp.length + 1) .number_decor

/-- `highlight_pp_number` (cpp.cpp:893-991). -/
def highlightPpNumber (pp : Bytes) : HM Bool Unit := do
  HM.hassert (!pp.isEmpty)
  let hex := startsWith pp b!"0x" || startsWith pp b!"0X"
  let binary := startsWith pp b!"0b" || startsWith pp b!"0B"
  if hex || binary then do
    HM.emitAdv 2 .number_decor
    numberLoop hex 0 (pp.drop 2)
  else numberLoop hex 0 pp

/-- `expect_pp_number` (cpp.cpp:877-891). -/
def expectPpNumber : HM Bool Bool := do
  let r ← HM.rem
  let length := matchPpNumber r
  if length = 0 then pure false
  else do
    let old ← HM.index
    highlightPpNumber (r.take length)
    let i ← HM.index
    HM.dassert (old + length = i)
    HM.set false
    pure true

/-- `expect_preprocessing_op_or_punc` (cpp.cpp:1009-1021). -/
def expectOp (cpp : Bool) : HM Bool Bool := do
  let r ← HM.rem
  match matchOp cpp r with
  | none => pure false
  | some op => do
    let fresh ← HM.get
    HM.hassert (!fresh || (op ≠ b!"#" && op ≠ b!"%:"))
    match byCode op with
    | none => HM.fault .outOfBounds
    | some e => do
      HM.emitAdv op.length e.1
      HM.set false
      pure true

/-- The header name after `#include` (cpp.cpp:1048-1072). -/
def highlightHeader : HM Bool Unit := do
  let r ← HM.rem
  HM.advance (Ascii.length_if r isWhitespace)
  let r ← HM.rem
  if startsWith r b!"<" then do
    HM.emitAdv 1 .string_delim
    let r ← HM.rem
    match r.findIdx? (fun c => c = c!">" || c = 0x0D || c = 0x0A) with
    | none => HM.emitAdvIf r.length .string
    | some k => do
      HM.emitAdvIf k .string
      if r[k]? = some c!">" then HM.emitAdv 1 .string_delim else pure ()
  else pure ()

/-- `expect_directive` (cpp.cpp:1023-1075). -/
def expectDirective (cpp : Bool) : HM Bool Bool := do
  let fresh ← HM.get
  let r ← HM.rem
  match matchOp cpp r with
  | none => pure false
  | some op =>
    if !fresh || (op ≠ b!"#" && op ≠ b!"%:") then pure false
    else do
      HM.emitAdv op.length .name_macro_delim
      let r ← HM.rem
      HM.advance (Ascii.length_if r isWhitespace)
      let r ← HM.rem
      let length := matchIdentifier r
      if length = 0 then pure true
      else do
        HM.emitAdv length .name_macro
        if r.take length = b!"include" then do
          highlightHeader
          pure true
        else pure true

/-- `expect_non_whitespace` (cpp.cpp:1077-1088). -/
def expectNonWhitespace : HM Bool Bool := do
  let r ← HM.rem
  let length := Ascii.length_if_not r isWhitespace
  if length = 0 then pure false
  else do
    HM.set false
    HM.advance length
    pure true

/-- The body of the loop in `operator()` (cpp.cpp:653-665). -/
def step (cpp : Bool) : HM Bool Unit := do
  let matched ← HM.or expectWhitespace (HM.or expectLineComment (HM.or expectBlockComment
    (HM.or (expectDirective cpp) (HM.or (expectStringLiteral cpp) (HM.or (expectCharacterLiteral cpp)
    (HM.or expectPpNumber (HM.or (expectIdentifier cpp usualFallback) (HM.or (expectOp cpp)
    expectNonWhitespace))))))))
  HM.hassert matched

/-- `operator()` (cpp.cpp:651-667). -/
def run (cpp : Bool) : HM Bool Bool := do
  let r ← HM.rem
  HM.whileNotEof (r.length + 1) (step cpp)
  pure true

/-- `highlight_c` (cpp.cpp:1094-1102) and `highlight_cpp` (cpp.cpp:1104-1112). -/
def highlightFor (cpp : Bool) : Highlight := HM.run (run cpp) true

/-- `highlight_c` (cpp.cpp:1094-1102). -/
def highlightC : Highlight := highlightFor false

/-- `highlight_cpp` (cpp.cpp:1104-1112). -/
def highlight : Highlight := highlightFor true

end Ulight.Cpp
