import Verif.Hl.Base
import Verif.Lang.CppCommon
import Verif.Lang.JsCommon
import Verif.Lang.Html

/-!
# JavaScript and TypeScript (src/main/cpp/lang/js.cpp)

`utf8::length_if` and `utf8::find_if_not` are modelled by `lengthWhile`; `Js.length_if_eq` in
Props/Lang/JsMatch.lean proves that this is the value of the model of these functions.
-/

namespace Ulight.Js

open Utf8 (decodeOrReplacement)

/-- `is_js_whitespace` (js.hpp:20-47). -/
def isWhitespace (c : Nat) : Bool :=
  c = 0x20 || c = 0x09 || c = 0x0B || c = 0x0C || c = 0x0A || c = 0x0D || c = 0xA0 || c = 0x2028 ||
    c = 0x2029 || c = 0xFEFF || c = 0x202F || c = 0x205F || c = 0x3000 || (0x1680 ≤ c && c ≤ 0x180E) ||
    (0x2000 ≤ c && c ≤ 0x200A)

/-- `is_js_identifier_start` (js.hpp:49-77). -/
def isStart (c : Nat) : Bool :=
  c = 0x24 || c = 0x5F || (0x41 ≤ c && c ≤ 0x5A) || (0x61 ≤ c && c ≤ 0x7A) || (0xC0 ≤ c && c ≤ 0xD6) ||
    (0xD8 ≤ c && c ≤ 0xF6) || (0xF8 ≤ c && c ≤ 0x2FF) || (0x370 ≤ c && c ≤ 0x37D) ||
    (0x37F ≤ c && c ≤ 0x1FFF) || (0x200C ≤ c && c ≤ 0x200D) || (0x2070 ≤ c && c ≤ 0x218F) ||
    (0x2C00 ≤ c && c ≤ 0x2FEF) || (0x3001 ≤ c && c ≤ 0xD7FF) || (0xF900 ≤ c && c ≤ 0xFDCF) ||
    (0xFDF0 ≤ c && c ≤ 0xFFFD) || (0x10000 ≤ c && c ≤ 0xEFFFF)

/-- `is_js_identifier_part` (js.hpp:79-102). -/
def isPart (c : Nat) : Bool :=
  isStart c || (0x30 ≤ c && c ≤ 0x39) || (0x300 ≤ c && c ≤ 0x36F) || (0x1DC0 ≤ c && c ≤ 0x1DFF) ||
    (0x20D0 ≤ c && c ≤ 0x20FF) || (0xFE20 ≤ c && c ≤ 0xFE2F) || (0x660 ≤ c && c ≤ 0x669) ||
    (0x6F0 ≤ c && c ≤ 0x6F9) || (0x7C0 ≤ c && c ≤ 0x7C9) || (0x966 ≤ c && c ≤ 0x96F) || c = 0x200C ||
    c = 0x200D

/-- `ULIGHT_JS_TOKEN_ENUM_DATA` (js.hpp:136-256): the code, the type, and whether the token exists in
JavaScript and in TypeScript.  A `Token_Type` is modelled by its code. -/
def tokens : List (Bytes × HT × Bool × Bool) := [
  (b!"!", .symbol_op, true, true),
  (b!"!=", .symbol_op, true, true),
  (b!"!==", .symbol_op, true, true),
  (b!"%", .symbol_op, true, true),
  (b!"%=", .symbol_op, true, true),
  (b!"&", .symbol_op, true, true),
  (b!"&&", .symbol_op, true, true),
  (b!"&&=", .symbol_op, true, true),
  (b!"&=", .symbol_op, true, true),
  (b!"(", .symbol_parens, true, true),
  (b!")", .symbol_parens, true, true),
  (b!"*", .symbol_op, true, true),
  (b!"**", .symbol_op, true, true),
  (b!"**=", .symbol_op, true, true),
  (b!"*=", .symbol_op, true, true),
  (b!"+", .symbol_op, true, true),
  (b!"++", .symbol_op, true, true),
  (b!"+=", .symbol_op, true, true),
  (b!",", .symbol_punc, true, true),
  (b!"-", .symbol_op, true, true),
  (b!"--", .symbol_op, true, true),
  (b!"-=", .symbol_op, true, true),
  (b!".", .symbol_op, true, true),
  (b!"...", .symbol_op, true, true),
  (b!"/", .symbol_op, true, true),
  (b!"/=", .symbol_op, true, true),
  (b!":", .symbol_op, true, true),
  (b!";", .symbol_punc, true, true),
  (b!"<", .symbol_op, true, true),
  (b!"<<", .symbol_op, true, true),
  (b!"<<=", .symbol_op, true, true),
  (b!"<=", .symbol_op, true, true),
  (b!"=", .symbol_op, true, true),
  (b!"==", .symbol_op, true, true),
  (b!"===", .symbol_op, true, true),
  (b!"=>", .symbol_op, true, true),
  (b!">", .symbol_op, true, true),
  (b!">=", .symbol_op, true, true),
  (b!">>", .symbol_op, true, true),
  (b!">>=", .symbol_op, true, true),
  (b!">>>", .symbol_op, true, true),
  (b!">>>=", .symbol_op, true, true),
  (b!"?", .symbol_op, true, true),
  (b!"?.", .symbol_op, true, true),
  (b!"??", .symbol_op, true, true),
  (b!"??=", .symbol_op, true, true),
  (b!"@", .symbol_punc, false, true),
  (b!"[", .symbol_square, true, true),
  (b!"]", .symbol_square, true, true),
  (b!"^", .symbol_op, true, true),
  (b!"^=", .symbol_op, true, true),
  (b!"abstract", .keyword, false, true),
  (b!"any", .keyword_type, false, true),
  (b!"as", .keyword, true, true),
  (b!"asserts", .keyword, false, true),
  (b!"async", .keyword, true, true),
  (b!"await", .keyword, true, true),
  (b!"boolean", .name_type_builtin, true, true),
  (b!"break", .keyword_control, true, true),
  (b!"case", .keyword_control, true, true),
  (b!"catch", .keyword_control, true, true),
  (b!"class", .keyword, true, true),
  (b!"const", .keyword, true, true),
  (b!"constructor", .keyword, false, true),
  (b!"continue", .keyword_control, true, true),
  (b!"debugger", .keyword, true, true),
  (b!"declare", .keyword, false, true),
  (b!"default", .keyword_control, true, true),
  (b!"delete", .keyword, true, true),
  (b!"do", .keyword_control, true, true),
  (b!"else", .keyword_control, true, true),
  (b!"enum", .keyword, true, true),
  (b!"export", .keyword, true, true),
  (b!"extends", .keyword, true, true),
  (b!"false", .bool_, true, true),
  (b!"finally", .keyword_control, true, true),
  (b!"for", .keyword_control, true, true),
  (b!"from", .keyword, true, true),
  (b!"function", .keyword, true, true),
  (b!"get", .keyword, true, true),
  (b!"if", .keyword_control, true, true),
  (b!"implements", .keyword, false, true),
  (b!"import", .keyword, true, true),
  (b!"in", .keyword, true, true),
  (b!"instanceof", .keyword, true, true),
  (b!"interface", .keyword, false, true),
  (b!"is", .keyword, false, true),
  (b!"let", .keyword, true, true),
  (b!"new", .keyword, true, true),
  (b!"null", .null, true, true),
  (b!"number", .name_type_builtin, true, true),
  (b!"of", .keyword, true, true),
  (b!"private", .keyword, false, true),
  (b!"protected", .keyword, false, true),
  (b!"public", .keyword, false, true),
  (b!"return", .keyword_control, true, true),
  (b!"set", .keyword, true, true),
  (b!"static", .keyword, true, true),
  (b!"string", .name_type_builtin, true, true),
  (b!"super", .keyword_this, true, true),
  (b!"switch", .keyword_control, true, true),
  (b!"this", .keyword_this, true, true),
  (b!"throw", .keyword_control, true, true),
  (b!"true", .bool_, true, true),
  (b!"try", .keyword_control, true, true),
  (b!"type", .keyword, false, true),
  (b!"typeof", .keyword, true, true),
  (b!"undefined", .null, true, true),
  (b!"var", .keyword, true, true),
  (b!"void", .keyword, true, true),
  (b!"while", .keyword_control, true, true),
  (b!"with", .keyword_control, true, true),
  (b!"yield", .keyword, true, true),
  (b!"{", .symbol_brace, true, true),
  (b!"|", .symbol_op, true, true),
  (b!"|=", .symbol_op, true, true),
  (b!"||", .symbol_op, true, true),
  (b!"||=", .symbol_op, true, true),
  (b!"}", .symbol_brace, true, true),
  (b!"~", .symbol_op, true, true)]

/-- `Mode` (js.cpp:50-53) -/
inductive Dialect where
  | javascript | typescript
deriving DecidableEq, Repr

/-- `token_type_is_available` (js.cpp:83-92). -/
def available (mode : Dialect) (e : Bytes × HT × Bool × Bool) : Bool :=
  match mode with
  | .javascript => e.2.2.1
  | .typescript => e.2.2.2

/-- `token_type_by_code` with a mode (js.cpp:104-113), and then `token_type_highlight` (js.cpp:71-75). -/
def highlightByCode (mode : Dialect) (s : Bytes) : Option HT :=
  ((lookupSorted Prod.fst tokens s).filter (available mode)).map fun e => e.2.1

/-- `token_type_is_expr_keyword` (js.cpp:115-134). -/
def isExprKeyword (w : Bytes) : Bool :=
  w ∈ [b!"return", b!"throw", b!"case", b!"delete", b!"void", b!"typeof", b!"yield", b!"await",
    b!"instanceof", b!"in", b!"is", b!"new"]

/-- `token_type_cannot_precede_regex` (js.cpp:136-150). -/
def cannotPrecedeRegex (w : Bytes) : Bool := w ∈ [b!"++", b!"--", b!")", b!"]", b!"}"]

/-- `match_line_terminator_sequence` (js.cpp:164-177). -/
def matchLineTerminator (s : Bytes) : Nat :=
  if startsWith s b!"\n" then 1
  else if startsWith s b!"\r\n" then 2
  else if startsWith s [0xE2, 0x80, 0xA8] then 3
  else if startsWith s [0xE2, 0x80, 0xA9] then 3
  else 0

/-- `match_whitespace` (js.cpp:179-184). -/
def matchWhitespace (s : Bytes) : Nat := lengthWhile isWhitespace s

/-- `match_hashbang_comment` (js.cpp:223-238); the loop is the one of `match_line_comment`. -/
def matchHashbang (s : Bytes) : Nat :=
  if !startsWith s b!"#!" then 0 else lineCommentLoop (s.drop 2) 2

/-- Whether there is an octal digit at position `k`. -/
def octalAt (s : Bytes) (k : Nat) : Bool := (s[k]?).any isOctalDigit

/-- `match_escape_sequence` (js.cpp:240-293). -/
def matchEscape (s : Bytes) : Escape :=
  match s with
  | a :: c :: _ =>
    if a ≠ c!"\\" then ⟨0, false⟩
    else if c = c!"x" then matchCommonEscapeAt .hex_2 s 2
    else if c = c!"u" then
      if s[2]? = some c!"{" then matchCommonEscapeAt .hex_braced s 2 else matchCommonEscapeAt .hex_4 s 2
    else if c!"0" ≤ c ∧ c ≤ c!"3" then
      if octalAt s 2 then ⟨if octalAt s 3 then 4 else 3, false⟩ else ⟨2, false⟩
    else if c!"4" ≤ c ∧ c ≤ c!"7" then ⟨if octalAt s 2 then 3 else 2, false⟩
    else ⟨2, false⟩
  | _ => ⟨0, false⟩

/-- The loop of `match_string_literal` (js.cpp:306-325): the text from position `length` on. -/
def stringLiteralLoop (quote : UInt8) : Bytes → Bool → Nat → Enclosed
  | [], _, length => ⟨length, false⟩
  | c :: t, escaped, length =>
    if escaped then stringLiteralLoop quote t false (length + 1)
    else if c = c!"\\" then stringLiteralLoop quote t true (length + 1)
    else if c = quote then ⟨length + 1, true⟩
    else if c = 0x0A then ⟨length, false⟩
    else stringLiteralLoop quote t false (length + 1)

/-- `match_string_literal` (js.cpp:295-326).  `String_Literal_Result` has the same members as
`Enclosed_Result`. -/
def matchStringLiteral (s : Bytes) : Enclosed :=
  match s with
  | q :: t => if q = c!"'" ∨ q = c!"\"" then stringLiteralLoop q t false 1 else {}
  | [] => {}

/-- The options in `match_numeric_literal` (js.cpp:351-367). -/
def numberOptions : NumberOptions where
  prefixes := [⟨b!"0b", 2, false⟩, ⟨b!"0B", 2, false⟩, ⟨b!"0o", 8, false⟩, ⟨b!"0O", 8, false⟩,
    ⟨b!"0x", 16, false⟩, ⟨b!"0X", 16, false⟩]
  exponentSeparators := [b!"E+", b!"E-", b!"E", b!"e+", b!"e-", b!"e"]
  suffixes := [b!"n"]
  defaultLeadingZeroBase := 8
  digitSeparator := c!"_"

/-- `match_numeric_literal` (js.cpp:348-372). -/
def matchNumber (s : Bytes) : NumberResult :=
  let r := matchCommonNumber s numberOptions
  { r with erroneous := r.erroneous || (r.suffix != 0 && r.isNonInteger) }

/-- `match_line_continuation` (js.cpp:376-387). -/
def matchLineContinuation (s : Bytes) : Nat :=
  if !startsWith s b!"\\" then 0
  else
    let terminator := matchLineTerminator (s.drop 1)
    if terminator ≠ 0 then terminator + 1 else 0

/-- `match_identifier` (js.cpp:434-438), which is `match_name` (js.cpp:396-423). -/
def matchIdentifier (s : Bytes) : Nat := lengthHeadTail isStart isPart s

/-- `match_jsx_attribute_name` (js.cpp:452-456), which is `match_name` (js.cpp:396-423). -/
def matchAttributeName (s : Bytes) : Nat :=
  lengthHeadTail isStart (fun c => isPart c || c = 0x2D || c = 0x3A) s

/-- `match_jsx_element_name` (js.cpp:446-450), which is `match_name` (js.cpp:396-423). -/
def matchElementName (s : Bytes) : Nat :=
  lengthHeadTail isStart (fun c => isPart c || c = 0x2D || c = 0x3A || c = 0x2E) s

/-- `match_regex_flags` (js.cpp:425-430). -/
def matchRegexFlags (s : Bytes) : Nat := lengthWhile isPart s

/-- `match_private_identifier` (js.cpp:458-467). -/
def matchPrivateIdentifier (s : Bytes) : Nat :=
  if !startsWith s b!"#" then 0
  else
    let n := matchIdentifier (s.drop 1)
    if n = 0 then 0 else 1 + n

/-- The calls of the member functions of `Whitespace_Comment_Consumer` (js.cpp:471-475) and
`JSX_Tag_Consumer` (js.cpp:572-582).  The functions that match a tag do not depend on what these calls
do, so they are modelled by the list of calls that they make, in order.  `done` is a result instead;
`advance` is never called. -/
inductive JsxCall where
  | whitespace (n : Nat)
  | blockComment (c : Enclosed)
  | lineComment (n : Nat)
  | openingSymbol
  | closingSymbol
  | elementName (n : Nat)
  | attributeName (n : Nat)
  | attributeEquals
  | stringLiteral (r : Enclosed)
  | braced (b : Enclosed)
deriving Repr

/-- What `Counting_WSC_Consumer` (js.cpp:477-492) and `Counting_JSX_Tag_Consumer` (js.cpp:584-623) add
to the length, and `Matching_JSX_Tag_Consumer` (js.cpp:625-694) removes from the string. -/
def JsxCall.length : JsxCall → Nat
  | .whitespace n | .lineComment n | .elementName n | .attributeName n => n
  | .openingSymbol | .closingSymbol | .attributeEquals => 1
  | .blockComment e | .stringLiteral e | .braced e => e.length

/-- The length of the text that some calls are about. -/
def callsLength (l : List JsxCall) : Nat := (l.map JsxCall.length).sum

/-- `match_whitespace_comment_sequence` with a consumer (js.cpp:494-514).  The fuel is the length of the
string. -/
def spaceCalls : Nat → Bytes → List JsxCall
  | 0, _ => []
  | fuel + 1, s =>
    let w := matchWhitespace s
    let b := matchBlockComment s
    let l := matchLineComment s
    if s = [] then []
    else if w ≠ 0 then .whitespace w :: spaceCalls fuel (s.drop w)
    else if b.length ≠ 0 then .blockComment b :: spaceCalls fuel (s.drop b.length)
    else if l ≠ 0 then .lineComment l :: spaceCalls fuel (s.drop l)
    else []

/-- `match_whitespace_comment_sequence` without a consumer (js.cpp:516-522). -/
def matchSpace (s : Bytes) : Nat := callsLength (spaceCalls s.length s)

/-- The loop of `match_jsx_braced` (js.cpp:536-567): the text from position `length` on.  The fuel is
the length of the text. -/
def bracedLoop : Nat → Bytes → Nat → Nat → Enclosed
  | 0, _, length, _ => ⟨length, false⟩
  | fuel + 1, s, length, level =>
    let skip := matchSpace s
    match s.drop skip with
    | [] => ⟨length + skip, false⟩
    | c :: t =>
      let length := length + skip
      if c = c!"{" then bracedLoop fuel t (length + 1) (level + 1)
      else if c = c!"}" then
        if level = 1 then ⟨length + 1, true⟩ else bracedLoop fuel t (length + 1) (level - 1)
      else if c = c!"'" ∨ c = c!"\"" then
        let r := matchStringLiteral (c :: t)
        bracedLoop fuel ((c :: t).drop r.length) (length + r.length) level
      else bracedLoop fuel t (length + 1) level

/-- `match_jsx_braced` (js.cpp:526-568).  A string literal is never empty, so that the alternative of
length one (js.cpp:559) is not modelled. -/
def matchJsxBraced (s : Bytes) : Enclosed :=
  if !startsWith s b!"{" then {} else bracedLoop s.length (s.drop 1) 1 1

/-- `JSX_Type` (js.hpp:395-406) -/
inductive JsxType where
  | opening | closing | selfClosing | fragmentOpening | fragmentClosing
deriving DecidableEq, Repr

/-- The calls and the type of the tag, which is `none` if `match_jsx_tag_impl` returns `false`. -/
abbrev JsxMatch := List JsxCall × Option JsxType

/-- Calls before those of another match. -/
def JsxMatch.after (l : List JsxCall) (m : JsxMatch) : JsxMatch := (l ++ m.1, m.2)

/-- The value of an attribute (js.cpp:769-792), where `s` is what follows the name and whitespace; `none`
if the loop ends, otherwise the calls, and whether the tag is malformed. -/
def attributeValue (s : Bytes) : List JsxCall × Bool :=
  if !startsWith s b!"=" then ([], true)
  else
    let space := spaceCalls (s.drop 1).length (s.drop 1)
    let calls := .attributeEquals :: space
    let s := (s.drop 1).drop (callsLength space)
    let r := matchStringLiteral s
    let b := matchJsxBraced s
    if r.length ≠ 0 then (calls ++ [.stringLiteral r], true)
    else if b.length ≠ 0 ∧ b.terminated then (calls ++ [.braced b], true)
    else (calls, false)

/-- The loop of `match_jsx_tag_impl` (js.cpp:741-797).  The fuel is greater than the length of the
string. -/
def attributes (closing : Bool) : Nat → Bytes → JsxMatch
  | 0, _ => ([], none)
  | fuel + 1, s =>
    if s = [] then ([], none)
    else
      let space := spaceCalls s.length s
      let s := s.drop (callsLength space)
      let spread := matchJsxBraced s
      let name := matchAttributeName s
      if startsWith s b!">" then (space ++ [.closingSymbol], some (if closing then .closing else .opening))
      else if startsWith s b!"/>" then
        if closing then (space, none)
        else (space ++ [.closingSymbol, .closingSymbol], some .selfClosing)
      else if spread.length ≠ 0 then
        if !spread.terminated then (space, none)
        else (attributes closing fuel (s.drop spread.length)).after (space ++ [.braced spread])
      else if name ≠ 0 then
        let s := s.drop name
        let space' := spaceCalls s.length s
        let value := attributeValue (s.drop (callsLength space'))
        let calls := space ++ [.attributeName name] ++ space' ++ value.1
        if value.2 then
          (attributes closing fuel (s.drop (callsLength (space' ++ value.1)))).after calls
        else (calls, none)
      else (space, none)

/-- The end of `match_jsx_tag_impl`, from the name on (js.cpp:737-797). -/
def tagName (closing : Bool) (s : Bytes) : JsxMatch :=
  let name := matchElementName s
  if name ≠ 0 then
    (attributes closing (s.length + 1) (s.drop name)).after [.elementName name]
  else attributes closing (s.length + 1) s

/-- `match_jsx_tag_impl` with a consumer (js.cpp:701-798). -/
def tagCalls (nonClosing : Bool) (s : Bytes) : JsxMatch :=
  if !startsWith s b!"<" then ([], none)
  else
    let s := s.drop 1
    let space := spaceCalls s.length s
    let s := s.drop (callsLength space)
    let calls := .openingSymbol :: space
    if startsWith s b!">" then (calls ++ [.closingSymbol], some .fragmentOpening)
    else if startsWith s b!"/" then
      if nonClosing then (calls, none)
      else
        let s := s.drop 1
        let space := spaceCalls s.length s
        let s := s.drop (callsLength space)
        let calls := calls ++ .closingSymbol :: space
        if startsWith s b!">" then (calls ++ [.closingSymbol], some .fragmentClosing)
        else (tagName true s).after calls
    else (tagName false s).after calls

/-- `match_jsx_tag_impl` without a consumer (js.cpp:874-883): the length and type of a tag. -/
def matchTag (nonClosing : Bool) (s : Bytes) : Option (Nat × JsxType) :=
  let m := tagCalls nonClosing s
  m.2.map fun ty => (callsLength m.1, ty)

/-- `match_operator_or_punctuation` (js.cpp:800-872), printed by tools/gen_symbols.py. -/
def matchSymbol (s : Bytes) : Option Bytes :=
  match s with
  | [] => none
  | c :: _ =>
    if c = c!"!" then if startsWith s b!"!==" then some b!"!=="
      else if startsWith s b!"!=" then some b!"!=" else some b!"!"
    else if c = c!"%" then if startsWith s b!"%=" then some b!"%=" else some b!"%"
    else if c = c!"&" then if startsWith s b!"&&=" then some b!"&&="
      else if startsWith s b!"&&" then some b!"&&" else if startsWith s b!"&=" then some b!"&="
      else some b!"&"
    else if c = c!"(" then some b!"("
    else if c = c!")" then some b!")"
    else if c = c!"*" then if startsWith s b!"**=" then some b!"**="
      else if startsWith s b!"**" then some b!"**" else if startsWith s b!"*=" then some b!"*="
      else some b!"*"
    else if c = c!"+" then if startsWith s b!"++" then some b!"++"
      else if startsWith s b!"+=" then some b!"+=" else some b!"+"
    else if c = c!"," then some b!","
    else if c = c!"-" then if startsWith s b!"--" then some b!"--"
      else if startsWith s b!"-=" then some b!"-=" else some b!"-"
    else if c = c!"." then if startsWith s b!"..." then some b!"..." else some b!"."
    else if c = c!"/" then if startsWith s b!"/=" then some b!"/=" else some b!"/"
    else if c = c!":" then some b!":"
    else if c = c!";" then some b!";"
    else if c = c!"<" then if startsWith s b!"<<=" then some b!"<<="
      else if startsWith s b!"<<" then some b!"<<" else if startsWith s b!"<=" then some b!"<="
      else some b!"<"
    else if c = c!"=" then if startsWith s b!"===" then some b!"==="
      else if startsWith s b!"==" then some b!"==" else if startsWith s b!"=>" then some b!"=>"
      else some b!"="
    else if c = c!">" then if startsWith s b!">>>=" then some b!">>>="
      else if startsWith s b!">>>" then some b!">>>"
      else if startsWith s b!">>=" then some b!">>=" else if startsWith s b!">>" then some b!">>"
      else if startsWith s b!">=" then some b!">=" else some b!">"
    else if c = c!"@" then some b!"@"
    else if c = c!"?" then if startsWith s b!"??=" then some b!"??="
      else if startsWith s b!"??" then some b!"??" else if startsWith s b!"?." then some b!"?."
      else some b!"?"
    else if c = c!"[" then some b!"["
    else if c = c!"]" then some b!"]"
    else if c = c!"^" then if startsWith s b!"^=" then some b!"^=" else some b!"^"
    else if c = c!"{" then some b!"{"
    else if c = c!"|" then if startsWith s b!"||=" then some b!"||="
      else if startsWith s b!"||" then some b!"||" else if startsWith s b!"|=" then some b!"|="
      else some b!"|"
    else if c = c!"}" then some b!"}"
    else if c = c!"~" then some b!"~"
    else none

/-- `Input_Element` (js.cpp:902-909), the only data member that changes. -/
inductive Elem where
  | hashbang | regex | div
deriving DecidableEq, Repr

/-- `input_element_has_hashbang` (js.cpp:911-915). -/
def Elem.hasHashbang (e : Elem) : Bool := e = .hashbang

/-- `input_element_has_regex` (js.cpp:917-921). -/
def Elem.hasRegex (e : Elem) : Bool := e = .hashbang || e = .regex

/-- `consume_error` (js.cpp:998-1002). -/
def consumeError : HM Elem Unit := do
  HM.emitAdv 1 .error
  HM.set .regex

/-- `expect_whitespace` (js.cpp:1189-1194). -/
def expectWhitespace : HM Elem Bool := do
  let r ← HM.rem
  let n := matchWhitespace r
  HM.advance n
  pure (n != 0)

/-- `expect_hashbang_comment` (js.cpp:1196-1213). -/
def expectHashbang : HM Elem Bool := do
  let e ← HM.get
  if !e.hasHashbang then pure false
  else do
    let r ← HM.rem
    let n := matchHashbang r
    if n = 0 then pure false
    else do
      HM.emitAdv 2 .comment_delim
      HM.emitAdvIf (n - 2) .comment
      pure true

/-- `highlight_line_comment` (js.cpp:1225-1232). -/
def highlightLineComment (n : Nat) : HM Elem Unit := do
  HM.emitAdv 2 .comment_delim
  HM.emitAdvIf (n - 2) .comment
  HM.set .regex

/-- `expect_line_comment` (js.cpp:1215-1223). -/
def expectLineComment : HM Elem Bool := do
  let r ← HM.rem
  let n := matchLineComment r
  if n ≠ 0 then do
    highlightLineComment n
    pure true
  else pure false

/-- `highlight_block_comment` (js.cpp:1244-1258). -/
def highlightBlockComment (b : Enclosed) : HM Elem Unit := do
  HM.dassert (b.length != 0)
  Cpp.highlightBlockComment b
  HM.set .regex

/-- `expect_block_comment` (js.cpp:1234-1242). -/
def expectBlockComment : HM Elem Bool := do
  let r ← HM.rem
  let b := matchBlockComment r
  if b.length ≠ 0 then do
    highlightBlockComment b
    pure true
  else pure false

/-- `flush_chars` (js.cpp:1275-1280, 1344-1349), without the assignment to `chars`. -/
def flushChars (chars : Nat) : HM Elem Unit :=
  if chars ≠ 0 then do
    let i ← HM.index
    HM.emit (i - chars) chars .string
  else pure ()

/-- Subtraction of `std::size_t`. -/
def sub64 (a b : Nat) : Nat := if b ≤ a then a - b else 2 ^ 64 + a - b

/-- The value of `find` as `std::size_t`; `npos` is the largest one. -/
def findBackslash (s : Bytes) : Nat := (findSub b!"\\" s).getD (2 ^ 64 - 1)

/-- The body of the loop in `highlight_string_literal` (js.cpp:1285-1316); the local variables are
`remaining` and `chars`. -/
def stringStep (v : Nat × Nat) : HM Elem ((Nat × Nat) ⊕ Nat) := do
  let remaining := v.1
  let chars := v.2
  if remaining = 0 then pure (.inr chars)
  else do
    let r ← HM.rem
    if startsWith r b!"\\" then do
      let e := matchEscape r
      if e.length ≠ 0 then do
        flushChars chars
        HM.emitAdv e.length (if e.erroneous then .error else .string_escape)
        pure (.inl (sub64 remaining e.length, 0))
      else do
        HM.advance 1
        pure (.inl (remaining - 1, chars + 1))
    else do
      let next := min remaining (findBackslash r)
      if next > 0 then do
        HM.advance next
        pure (.inl (remaining - next, chars + next))
      else do
        HM.advance 1
        pure (.inl (remaining - 1, chars + 1))

/-- `highlight_string_literal` (js.cpp:1269-1325). -/
def highlightStringLiteral (string : Enclosed) : HM Elem Unit := do
  HM.hassert (string.length != 0)
  HM.emitAdv 1 .string_delim
  let r ← HM.rem
  let content := string.length - (if string.terminated then 2 else 1)
  let chars ← HM.loop (r.length + 2) stringStep (content, 0)
  flushChars chars
  HM.emitAdvIf (if string.terminated then 1 else 0) .string_delim
  HM.set .div

/-- `expect_string_literal` (js.cpp:1260-1267). -/
def expectStringLiteral : HM Elem Bool := do
  let r ← HM.rem
  let string := matchStringLiteral r
  if string.length ≠ 0 then do
    highlightStringLiteral string
    pure true
  else pure false

/-- The end of a substitution in a template (js.cpp:1366-1370). -/
def closeSubstitution : HM Elem Unit := do
  let r ← HM.rem
  if r ≠ [] then do
    HM.hassert (startsWith r b!"}")
    HM.emitAdv 1 .string_interpolation_delim
  else pure ()

/-- The body of the loop in `consume_template` (js.cpp:1351-1405), and what follows it.  `again` is
`consume_js_before_closing_brace`; the local variable is `chars`. -/
def templateStep (again : HM Elem Unit) (chars : Nat) : HM Elem (Nat ⊕ Unit) := do
  let r ← HM.rem
  match r with
  | [] => do
    flushChars chars
    pure (.inr ())
  | c :: _ =>
    if c = c!"`" then do
      flushChars chars
      HM.emitAdv 1 .string_delim
      HM.set .div
      pure (.inr ())
    else if c = c!"$" then
      if startsWith r b!"${" then do
        flushChars chars
        HM.emitAdv 2 .string_interpolation_delim
        again
        closeSubstitution
        pure (.inl 0)
      else do
        HM.advance 1
        pure (.inl (chars + 1))
    else if c = c!"\\" then
      let n := matchLineContinuation r
      let e := matchEscape r
      if n ≠ 0 then do
        HM.hassert (n > 1)
        flushChars chars
        HM.emitAdv 1 .string_escape
        HM.advance (n - 1)
        pure (.inl (n - 1))
      else if e.length ≠ 0 then do
        flushChars chars
        HM.emitAdv e.length (if e.erroneous then .error else .string_escape)
        pure (.inl 0)
      else do
        HM.advance 1
        pure (.inl (chars + 1))
    else do
      HM.advance 1
      pure (.inl (chars + 1))

/-- `consume_template` (js.cpp:1337-1409). -/
def consumeTemplate (again : HM Elem Unit) : HM Elem Unit := do
  let r ← HM.rem
  HM.hassert (startsWith r b!"`")
  HM.emitAdv 1 .string_delim
  HM.loop (r.length + 1) (templateStep again) 0

/-- `expect_template` (js.cpp:1327-1335). -/
def expectTemplate (again : HM Elem Unit) : HM Elem Bool := do
  let r ← HM.rem
  if startsWith r b!"`" then do
    consumeTemplate again
    pure true
  else pure false

/-- The loop of `expect_regex` (js.cpp:1428-1450): the position of the `/` that ends the regular
expression, where the text given is the one from position `size` on. -/
def regexLoop : Bytes → Bool → Nat → Option Nat
  | [], _, _ => none
  | c :: t, escaped, size =>
    if escaped then regexLoop t false (size + 1)
    else if c = c!"\\" then regexLoop t true (size + 1)
    else if c = c!"/" then some size
    else if startsWithLineTerminator (c :: t) then none
    else regexLoop t false (size + 1)

/-- `expect_regex` (js.cpp:1411-1453). -/
def expectRegex : HM Elem Bool := do
  let e ← HM.get
  if !e.hasRegex then pure false
  else do
    let r ← HM.rem
    if !startsWith r b!"/" || startsWith r b!"/*" || startsWith r b!"//" then pure false
    else
      match regexLoop (r.drop 1) false 0 with
      | some size => do
        HM.emitAdv 1 .string_delim
        HM.emitAdv size .string
        HM.emitAdv 1 .string_delim
        HM.emitAdvIf (matchRegexFlags ((r.drop 1).drop (size + 1))) .string_decor
        HM.set .div
        pure true
      | none => pure false

/-- `expect_numeric_literal` (js.cpp:1455-1464). -/
def expectNumber : HM Elem Bool := do
  let r ← HM.rem
  let n := matchNumber r
  if n.length = 0 then pure false
  else do
    HM.highlightNumber n (some c!"_")
    HM.set .div
    pure true

/-- `expect_private_identifier` (js.cpp:1466-1474). -/
def expectPrivateIdentifier : HM Elem Bool := do
  let r ← HM.rem
  let n := matchPrivateIdentifier r
  if n ≠ 0 then do
    HM.emitAdv n .name
    HM.set .div
    pure true
  else pure false

/-- `expect_identifier` (js.cpp:1476-1498). -/
def expectIdentifier (mode : Dialect) : HM Elem Bool := do
  let r ← HM.rem
  let n := matchIdentifier r
  if n = 0 then pure false
  else
    match highlightByCode mode (r.take n) with
    | none => do
      HM.emitAdv n .name
      HM.set .div
      pure true
    | some ty => do
      HM.emitAdv n ty
      HM.set (if isExprKeyword (r.take n) then .regex else .div)
      pure true

/-- `expect_operator_or_punctuation` (js.cpp:1500-1514).  A symbol that is not in the table does not
exist. -/
def expectSymbol (mode : Dialect) : HM Elem Bool := do
  let r ← HM.rem
  match matchSymbol r with
  | none => pure false
  | some w =>
    match highlightByCode mode w with
    | none => pure false
    | some ty => do
      HM.emitAdv w.length ty
      HM.set (if cannotPrecedeRegex w then .div else .regex)
      pure true

/-- `highlight_jsx_braced` (js.cpp:1173-1187).  `again` is `consume_js_before_closing_brace`. -/
def highlightJsxBraced (again : HM Elem Unit) (braced : Enclosed) : HM Elem Unit := do
  HM.hassert (braced.length != 0)
  let r ← HM.rem
  HM.hassert (startsWith r b!"{")
  HM.emitAdv 1 .symbol_brace
  let n := braced.length - (if braced.terminated then 2 else 1)
  if n ≠ 0 then do
    again
    HM.emitAdvIf (if braced.terminated then 1 else 0) .symbol_brace
  else HM.emitAdvIf (if braced.terminated then 1 else 0) .symbol_brace

/-- The member functions of `Highlighter_As_Consumer` (js.cpp:1032-1086). -/
def jsxCall (again : HM Elem Unit) : JsxCall → HM Elem Unit
  | .whitespace n => HM.advance n
  | .blockComment b => highlightBlockComment b
  | .lineComment n => highlightLineComment n
  | .openingSymbol | .closingSymbol | .attributeEquals => HM.emitAdv 1 .symbol_punc
  | .elementName n | .attributeName n => HM.emitAdv n .markup_tag
  | .stringLiteral r => highlightStringLiteral r
  | .braced b => do
    HM.hassert (b.terminated && b.length ≥ 2)
    highlightJsxBraced again b

/-- Calls of the consumer, in order. -/
def jsxCalls (again : HM Elem Unit) : List JsxCall → HM Elem Unit
  | [] => pure ()
  | c :: l => do
    jsxCall again c
    jsxCalls again l

/-- `consume_jsx_tag` (js.cpp:1030-1089). -/
def consumeJsxTag (again : HM Elem Unit) : HM Elem Unit := do
  let r ← HM.rem
  jsxCalls again (tagCalls false r).1

/-- The body of the loop in `consume_jsx_children_and_closing_tag` (js.cpp:1096-1168).  The local
variables are `rem`, which is not `remainder`, and `depth`. -/
def childrenStep (again : HM Elem Unit) (v : Bytes × Int) : HM Elem ((Bytes × Int) ⊕ Unit) :=
  let rem := v.1
  let depth := v.2
  if rem = [] then pure (.inr ())
  else
    match Ascii.find_if rem (fun c => c ∈ b!"&{}<>") with
    | none => do
      HM.advance rem.length
      pure (.inr ())
    | some safe => do
      HM.advance safe
      let rem := rem.drop safe
      if rem.head? = some c!"&" then
        let ref := Html.matchReference rem
        if ref ≠ 0 then do
          HM.emitAdv ref .string_escape
          pure (.inl (rem.drop ref, depth))
        else do
          HM.advance 1
          pure (.inl (rem.drop 1, depth))
      else if rem.head? = some c!"<" then
        match matchTag false rem with
        | none => do
          HM.emitAdv 1 .error
          pure (.inl (rem.drop 1, depth))
        | some (length, ty) => do
          consumeJsxTag again
          let rem := rem.drop length
          if ty = .opening ∨ ty = .fragmentOpening then pure (.inl (rem, depth + 1))
          else if ty = .closing ∨ ty = .fragmentClosing then
            if depth - 1 < 0 then pure (.inr ()) else pure (.inl (rem, depth - 1))
          else pure (.inl (rem, depth))
      else if rem.head? = some c!"{" then
        let braced := matchJsxBraced rem
        if braced.length ≠ 0 then do
          highlightJsxBraced again braced
          pure (.inl (rem.drop braced.length, depth))
        else do
          HM.emitAdv 1 .error
          pure (.inl (rem.drop 1, depth))
      else do
        HM.emitAdv 1 .error
        pure (.inl (rem.drop 1, depth))

/-- `consume_jsx_children_and_closing_tag` (js.cpp:1091-1171). -/
def consumeJsxChildren (again : HM Elem Unit) : HM Elem Unit := do
  let r ← HM.rem
  HM.loop (r.length + 1) (childrenStep again) (r, 0)

/-- `expect_jsx_in_js` (js.cpp:1004-1028). -/
def expectJsx (again : HM Elem Unit) : HM Elem Bool := do
  let r ← HM.rem
  match matchTag true r with
  | none => pure false
  | some (_, ty) => do
    consumeJsxTag again
    if ty ≠ .selfClosing then do
      HM.hassert (ty = .opening || ty = .fragmentOpening)
      consumeJsxChildren again
      HM.set .div
      pure true
    else do
      HM.set .div
      pure true

/-- JSX exists in JavaScript only (js.cpp:985). -/
def expectJsxIn (mode : Dialect) (again : HM Elem Unit) : HM Elem Bool :=
  match mode with
  | .javascript => expectJsx again
  | .typescript => pure false

/-- `consume_token` (js.cpp:979-996). -/
def consumeToken (mode : Dialect) (again : HM Elem Unit) : HM Elem Unit := do
  let success ← HM.or expectWhitespace (HM.or expectHashbang (HM.or expectLineComment
    (HM.or expectBlockComment (HM.or (expectJsxIn mode again) (HM.or expectStringLiteral
      (HM.or (expectTemplate again) (HM.or expectRegex (HM.or expectNumber
        (HM.or expectPrivateIdentifier (HM.or (expectIdentifier mode) (expectSymbol mode)))))))))))
  if success then pure () else consumeError

/-- The body of the loop in `consume_js_before_closing_brace` (js.cpp:959-976); the local variable is
`brace_level`. -/
def bracesStep (mode : Dialect) (again : HM Elem Unit) (level : Int) : HM Elem (Int ⊕ Unit) := do
  let r ← HM.rem
  match r with
  | [] => pure (.inr ())
  | c :: _ =>
    if c = c!"{" then do
      HM.emitAdv 1 .symbol_brace
      HM.set .regex
      pure (.inl (level + 1))
    else if c = c!"}" then
      if level - 1 < 0 then pure (.inr ())
      else do
        HM.emitAdv 1 .symbol_brace
        HM.set .div
        pure (.inl (level - 1))
    else do
      consumeToken mode again
      pure (.inl level)

/-- `consume_js_before_closing_brace` (js.cpp:955-977).  The first argument bounds the depth of the
recursion. -/
def beforeBrace (mode : Dialect) : Nat → HM Elem Unit
  | 0 => HM.fault .outOfFuel
  | depth + 1 => do
    HM.set .regex
    let r ← HM.rem
    HM.loop (r.length + 1) (bracesStep mode (beforeBrace mode depth)) 0

/-- `operator()` (js.cpp:941-947). -/
def run (mode : Dialect) : HM Elem Bool := do
  let r ← HM.rem
  HM.whileNotEof (r.length + 1) (consumeToken mode (beforeBrace mode (r.length + 1)))
  pure true

/-- `highlight_javascript` (js.cpp:1521-1529) and `highlight_typescript` (js.cpp:1531-1539). -/
def highlight (mode : Dialect) : Highlight := HM.run (run mode) .hashbang

end Ulight.Js
