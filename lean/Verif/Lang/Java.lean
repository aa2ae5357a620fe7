import Verif.Hl.Base
import Verif.Lang.CppCommon
import Verif.Lang.JsCommon

/-!
# Java (src/main/cpp/lang/java.cpp)
-/

namespace Ulight.Java

open Utf8 (decodeOrReplacement)

/-- `is_java_whitespace` (java.hpp:15). -/
def isWhitespace (c : UInt8) : Bool := c = 0x20 || c = 0x09 || c = 0x0C || c = 0x0A || c = 0x0D

/-- `ULIGHT_JAVA_TOKEN_ENUM_DATA` (java.hpp:19-141), printed by tools/gen_tokens.py.  A `Token_Type` is
modelled by its code. -/
def tokens : List (Bytes × HT) := [
  (b!"!", .symbol_op),
  (b!"!=", .symbol_op),
  (b!"\"", .string_delim),
  (b!"\"\"\"", .string_delim),
  (b!"%", .symbol_op),
  (b!"%=", .symbol_op),
  (b!"&", .symbol_op),
  (b!"&&", .symbol_op),
  (b!"&=", .symbol_op),
  (b!"(", .symbol_parens),
  (b!")", .symbol_parens),
  (b!"*", .symbol_op),
  (b!"*=", .symbol_op),
  (b!"+", .symbol_op),
  (b!"++", .symbol_op),
  (b!"+=", .symbol_op),
  (b!",", .symbol_punc),
  (b!"-", .symbol_op),
  (b!"--", .symbol_op),
  (b!"-=", .symbol_op),
  (b!"->", .symbol_punc),
  (b!".", .symbol_punc),
  (b!"...", .symbol_punc),
  (b!"/", .symbol_op),
  (b!"/=", .symbol_op),
  (b!":", .symbol_punc),
  (b!"::", .symbol_punc),
  (b!";", .symbol_punc),
  (b!"<", .symbol_op),
  (b!"<<", .symbol_op),
  (b!"<<=", .symbol_op),
  (b!"<=", .symbol_op),
  (b!"=", .symbol_punc),
  (b!"==", .symbol_op),
  (b!">", .symbol_op),
  (b!">=", .symbol_op),
  (b!">>", .symbol_op),
  (b!">>=", .symbol_op),
  (b!">>>", .symbol_op),
  (b!">>>=", .symbol_op),
  (b!"?", .symbol_op),
  (b!"@", .symbol_punc),
  (b!"[", .symbol_square),
  (b!"]", .symbol_square),
  (b!"^", .symbol_op),
  (b!"^=", .symbol_op),
  (b!"_", .keyword),
  (b!"abstract", .keyword),
  (b!"assert", .keyword),
  (b!"boolean", .keyword_type),
  (b!"break", .keyword_control),
  (b!"byte", .keyword_type),
  (b!"case", .keyword_control),
  (b!"catch", .keyword_control),
  (b!"char", .keyword_type),
  (b!"class", .keyword),
  (b!"const", .keyword),
  (b!"continue", .keyword_control),
  (b!"default", .keyword_control),
  (b!"do", .keyword_control),
  (b!"double", .keyword_type),
  (b!"else", .keyword_control),
  (b!"enum", .keyword),
  (b!"exports", .keyword),
  (b!"extends", .keyword),
  (b!"false", .bool_),
  (b!"final", .keyword),
  (b!"finally", .keyword_control),
  (b!"float", .keyword_type),
  (b!"for", .keyword_control),
  (b!"goto", .keyword),
  (b!"if", .keyword_control),
  (b!"implements", .keyword),
  (b!"import", .keyword),
  (b!"instanceof", .keyword),
  (b!"int", .keyword_type),
  (b!"interface", .keyword),
  (b!"long", .keyword_type),
  (b!"module", .keyword),
  (b!"native", .keyword),
  (b!"new", .keyword),
  (b!"null", .null),
  (b!"open", .keyword),
  (b!"opens", .keyword),
  (b!"package", .keyword),
  (b!"permits", .keyword),
  (b!"private", .keyword),
  (b!"protected", .keyword),
  (b!"provides", .keyword),
  (b!"public", .keyword),
  (b!"record", .keyword),
  (b!"requires", .keyword),
  (b!"return", .keyword_control),
  (b!"sealed", .keyword),
  (b!"short", .keyword_type),
  (b!"static", .keyword),
  (b!"strictfp", .keyword),
  (b!"super", .keyword_this),
  (b!"switch", .keyword_control),
  (b!"synchronized", .keyword),
  (b!"this", .keyword_this),
  (b!"throw", .keyword_control),
  (b!"throws", .keyword),
  (b!"to", .keyword),
  (b!"transient", .keyword),
  (b!"transitive", .keyword),
  (b!"true", .bool_),
  (b!"try", .keyword_control),
  (b!"uses", .keyword),
  (b!"var", .keyword),
  (b!"void", .keyword_type),
  (b!"volatile", .keyword),
  (b!"when", .keyword),
  (b!"while", .keyword_control),
  (b!"with", .keyword),
  (b!"yield", .keyword_control),
  (b!"{", .symbol_brace),
  (b!"|", .symbol_op),
  (b!"|=", .symbol_op),
  (b!"||", .symbol_op),
  (b!"}", .symbol_brace),
  (b!"~", .symbol_op)]

/-- `token_type_by_code` (java.cpp:35-44) and `token_type_highlight` (java.cpp:52-56). -/
def highlightByCode (s : Bytes) : Option HT := (lookupSorted Prod.fst tokens s).map Prod.snd

/-- The options in `match_number` (java.cpp:60-102). -/
def numberOptions : NumberOptions where
  prefixes := [⟨b!"0b", 2, false⟩, ⟨b!"0B", 2, false⟩, ⟨b!"0x", 16, true⟩, ⟨b!"0X", 16, true⟩]
  exponentSeparators := [b!"E+", b!"E-", b!"E", b!"e+", b!"e-", b!"e",
    b!"P+", b!"P-", b!"P", b!"p+", b!"p-", b!"p"]
  suffixes := [b!"D", b!"F", b!"L", b!"d", b!"f", b!"l"]
  digitSeparator := c!"_"
  nonemptyFraction := true

/-- `match_symbol` (java.cpp:104-156), printed by tools/gen_symbols.py. -/
def matchSymbol (s : Bytes) : Option Bytes :=
  match s with
  | [] => none
  | c :: _ =>
    if c = c!"!" then if startsWith s b!"!=" then some b!"!=" else some b!"!"
    else if c = c!"\"" then if startsWith s b!"\"\"\"" then some b!"\"\"\"" else some b!"\""
    else if c = c!"%" then if startsWith s b!"%=" then some b!"%=" else some b!"%"
    else if c = c!"&" then if startsWith s b!"&&" then some b!"&&"
      else if startsWith s b!"&=" then some b!"&=" else some b!"&"
    else if c = c!"(" then some b!"("
    else if c = c!")" then some b!")"
    else if c = c!"*" then if startsWith s b!"*=" then some b!"*=" else some b!"*"
    else if c = c!"+" then if startsWith s b!"++" then some b!"++"
      else if startsWith s b!"+=" then some b!"+=" else some b!"+"
    else if c = c!"," then some b!","
    else if c = c!"-" then if startsWith s b!"--" then some b!"--"
      else if startsWith s b!"-=" then some b!"-=" else if startsWith s b!"->" then some b!"->"
      else some b!"-"
    else if c = c!"." then if startsWith s b!"..." then some b!"..." else some b!"."
    else if c = c!"/" then if startsWith s b!"/=" then some b!"/=" else some b!"/"
    else if c = c!":" then if startsWith s b!"::" then some b!"::" else some b!":"
    else if c = c!";" then some b!";"
    else if c = c!"<" then if startsWith s b!"<<=" then some b!"<<="
      else if startsWith s b!"<<" then some b!"<<" else if startsWith s b!"<=" then some b!"<="
      else some b!"<"
    else if c = c!"=" then if startsWith s b!"==" then some b!"==" else some b!"="
    else if c = c!">" then if startsWith s b!">>>=" then some b!">>>="
      else if startsWith s b!">>>" then some b!">>>"
      else if startsWith s b!">>=" then some b!">>=" else if startsWith s b!">>" then some b!">>"
      else if startsWith s b!">=" then some b!">=" else some b!">"
    else if c = c!"?" then some b!"?"
    else if c = c!"@" then some b!"@"
    else if c = c!"[" then some b!"["
    else if c = c!"]" then some b!"]"
    else if c = c!"{" then some b!"{"
    else if c = c!"|" then if startsWith s b!"||" then some b!"||"
      else if startsWith s b!"|=" then some b!"|=" else some b!"|"
    else if c = c!"}" then some b!"}"
    else if c = c!"~" then some b!"~"
    else if c = c!"^" then if startsWith s b!"^=" then some b!"^=" else some b!"^"
    else none

/-- `match_escape_sequence` (java.cpp:168-203). -/
def matchEscape (s : Bytes) : Escape :=
  match s with
  | a :: c :: _ =>
    if a ≠ c!"\\" then ⟨1, true⟩
    else if c = c!"u" then matchCommonEscapeAt .hex_4 s 2
    else if c!"0" ≤ c ∧ c ≤ c!"3" then matchCommonEscapeAt .octal_1_to_3 s 1
    else if c!"4" ≤ c ∧ c ≤ c!"7" then matchCommonEscapeAt .octal_1_to_2 s 1
    else if c = 0x0D ∨ c = 0x0A then matchCommonEscapeAt .lf_cr_crlf s 1
    else if c ∈ b!"bstnfr\"'\\" then ⟨2, false⟩
    else ⟨1, true⟩
  | [_] => ⟨1, true⟩
  | [] => ⟨0, true⟩

/-- `consume_whitespace` (java.cpp:257-262). -/
def consumeWhitespace : HM Unit Unit := do
  let r ← HM.rem
  HM.advance (Ascii.length_if r isWhitespace)

/-- `expect_line_comment` (java.cpp:264-276). -/
def expectLineComment : HM Unit Bool := do
  let r ← HM.rem
  let length := Js.matchLineComment r
  if length ≠ 0 then do
    HM.emitAdv 2 .comment_delim
    HM.emitAdvIf (length - 2) .comment
    pure true
  else pure false

/-- `expect_block_comment` (java.cpp:278-296). -/
def expectBlockComment : HM Unit Bool := do
  let r ← HM.rem
  let b := Js.matchBlockComment r
  if b.length = 0 then pure false
  else do
    Cpp.highlightBlockComment b
    pure true

/-- `expect_identifier` (java.cpp:298-309). -/
def expectIdentifier : HM Unit Bool := do
  let r ← HM.rem
  let length := Cpp.matchIdentifier r
  if length ≠ 0 then do
    HM.emitAdv length ((highlightByCode (r.take length)).getD .name)
    pure true
  else pure false

/-- An escape sequence in a string or character literal (java.cpp:336-340, 386-391, 446-451). -/
def consumeEscape : HM Unit Unit := do
  let r ← HM.rem
  let e := matchEscape r
  HM.hassert (e.length != 0)
  HM.emitAdv e.length (if e.erroneous then .error else .string_escape)

/-- The part of `expect_character_literal` between the quotation marks (java.cpp:335-348). -/
def characterBody : HM Unit Unit := do
  let r ← HM.rem
  match r with
  | [] => pure ()
  | c :: _ =>
    if c = c!"\\" then consumeEscape
    else if c ≠ c!"'" ∧ c ≠ 0x0D ∧ c ≠ 0x0A then HM.emitAdv 1 .string
    else HM.emitAdv 1 .error

/-- `expect_character_literal` (java.cpp:328-354). -/
def expectCharacterLiteral : HM Unit Bool := do
  let r ← HM.rem
  HM.dassert (startsWith r b!"'")
  HM.emitAdv 1 .string_delim
  characterBody
  let r ← HM.rem
  if startsWith r b!"'" then do
    HM.emitAdv 1 .string_delim
    pure true
  else pure true

/-- The body of the loop in `expect_string_literal` (java.cpp:372-398), and what follows it; the
local variable is `length`. -/
def stringStep (length : Nat) : HM Unit (Nat ⊕ Unit) := do
  let r ← HM.rem
  match r[length]? with
  | none => do
    HM.emitAdvIf length .string
    pure (.inr ())
  | some c =>
    if c = c!"\"" then do
      HM.emitAdvIf length .string
      HM.emitAdv 1 .string_delim
      pure (.inr ())
    else if c = 0x0D || c = 0x0A then do
      HM.emitAdvIf length .string
      pure (.inr ())
    else if c = c!"\\" then do
      HM.emitAdvIf length .string
      consumeEscape
      pure (.inl 0)
    else pure (.inl (length + 1))

/-- `expect_string_literal` (java.cpp:356-402). -/
def expectStringLiteral : HM Unit Bool := do
  let r ← HM.rem
  HM.dassert (startsWith r b!"\"")
  HM.emitAdv 1 .string_delim
  HM.loop (r.length + 1) stringStep 0
  pure true

/-- The body of the loop in `expect_text_block` (java.cpp:435-455), and what follows it; the local
variable is `length`. -/
def textStep (length : Nat) : HM Unit (Nat ⊕ Unit) := do
  let r ← HM.rem
  match r[length]? with
  | none => do
    HM.emitAdvIf length .string
    pure (.inr ())
  | some c =>
    if startsWith (r.drop length) b!"\"\"\"" then do
      HM.emitAdvIf length .string
      HM.emitAdv 3 .string_delim
      pure (.inr ())
    else if c = c!"\\" then do
      HM.emitAdvIf length .string
      consumeEscape
      pure (.inl 0)
    else pure (.inl (length + 1))

/-- The line break at the beginning of a text block (java.cpp:418-425). -/
def openingLineBreak (r : Bytes) : Nat :=
  if startsWith r b!"\r\n" then 2 else if startsWith r b!"\r" || startsWith r b!"\n" then 1 else 0

/-- `expect_text_block` (java.cpp:404-458).  The loop that advances over whitespace one by one
(java.cpp:414-417) is one call of `advance`. -/
def expectTextBlock : HM Unit Bool := do
  let r ← HM.rem
  HM.dassert (startsWith r b!"\"\"\"")
  HM.emitAdv 3 .string_delim
  let r' ← HM.rem
  HM.advance (Ascii.length_if r' fun c => c ≠ 0x0D && c ≠ 0x0A && isWhitespace c)
  let r' ← HM.rem
  HM.advance (openingLineBreak r')
  HM.loop (r.length + 1) textStep 0
  pure true

/-- `expect_string_or_character_or_text_block` (java.cpp:311-326). -/
def expectStringOrCharacterOrTextBlock : HM Unit Bool := do
  let r ← HM.rem
  if startsWith r b!"'" then expectCharacterLiteral
  else if startsWith r b!"\"\"\"" then expectTextBlock
  else if startsWith r b!"\"" then expectStringLiteral
  else pure false

/-- `expect_number` (java.cpp:460-470). -/
def expectNumber : HM Unit Bool := do
  let r ← HM.rem
  let n := matchCommonNumber r numberOptions
  if n.length = 0 then pure false
  else do
    HM.highlightNumber n (some c!"_")
    pure true

/-- The body of the loop in `consume_dotted_annotation_name` (java.cpp:491-501). -/
def dottedStep : Unit → HM Unit (Unit ⊕ Unit) := fun _ => do
  let r ← HM.rem
  let length := Cpp.matchIdentifier r
  if length = 0 then pure (.inr ())
  else do
    HM.emitAdv length .name_attr
    let r ← HM.rem
    if !startsWith r b!"." then pure (.inr ())
    else do
      HM.emitAdv 1 .name_attr_delim
      pure (.inl ())

/-- `expect_annotation` (java.cpp:472-487) and `consume_dotted_annotation_name` (java.cpp:489-502). -/
def expectAnnotation : HM Unit Bool := do
  let r ← HM.rem
  if !startsWith r b!"@" then pure false
  else if Cpp.matchIdentifier (r.drop 1) = 0 then pure false
  else do
    HM.emitAdv 1 .name_attr_delim
    HM.loop (r.length + 1) dottedStep ()
    pure true

/-- `expect_symbol` (java.cpp:504-513). -/
def expectSymbol : HM Unit Bool := do
  let r ← HM.rem
  match matchSymbol r with
  | some w => do
    match highlightByCode w with
    | some ty => do
      HM.emitAdv w.length ty
      pure true
    | none => HM.fault .outOfBounds
  | none => pure false

/-- `expect_token` (java.cpp:244-255). -/
def expectToken : HM Unit Bool :=
  HM.or expectLineComment (HM.or expectBlockComment (HM.or expectStringOrCharacterOrTextBlock
    (HM.or expectNumber (HM.or expectAnnotation (HM.or expectSymbol expectIdentifier)))))

/-- The body of the loop in `consume_tokens` (java.cpp:228-241), whose exit at the end of the source
is the condition of `HM.whileNotEof`. -/
def step : HM Unit Unit := do
  consumeWhitespace
  if ← HM.eof then pure ()
  else do
    let success ← expectToken
    if success then pure ()
    else do
      let r ← HM.rem
      let length := (decodeOrReplacement r).2
      HM.hassert (length != 0)
      HM.emitAdv length .error .forced

/-- `operator()` (java.cpp:219-223) and `consume_tokens` (java.cpp:226-242). -/
def run : HM Unit Bool := do
  let r ← HM.rem
  HM.whileNotEof (r.length + 1) step
  pure true

/-- `highlight_java` (java.cpp:520-528). -/
def highlight : Highlight := HM.run run ()

end Ulight.Java
