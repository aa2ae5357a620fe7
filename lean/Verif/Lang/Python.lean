import Verif.Hl.Base
import Verif.Lang.CppCommon
import Verif.Lang.Bash

/-!
# Python (src/main/cpp/lang/python.cpp)
-/

namespace Ulight.Python

open Utf8 (decodeOrReplacement)

/-- `is_python_whitespace` (python.hpp:15). -/
def isWhitespace (c : UInt8) : Bool := c = 0x20 || c = 0x09 || c = 0x0C || c = 0x0A || c = 0x0D

/-- `is_python_newline` (python.hpp:17). -/
def isNewline (c : UInt8) : Bool := c = 0x0A || c = 0x0D

/-- `ULIGHT_PYTHON_TOKEN_ENUM_DATA` (python.hpp:20-106), printed by tools/gen_tokens.py.  A
`Token_Type` is modelled by its code. -/
def tokens : List (Bytes × HT) := [
  (b!"!=", .symbol_op),
  (b!"%", .symbol_op),
  (b!"%=", .symbol_op),
  (b!"&", .symbol_op),
  (b!"&=", .symbol_op),
  (b!"(", .symbol_parens),
  (b!")", .symbol_parens),
  (b!"*", .symbol_op),
  (b!"**", .symbol_op),
  (b!"**=", .symbol_op),
  (b!"*=", .symbol_op),
  (b!"+", .symbol_op),
  (b!"+=", .symbol_op),
  (b!",", .symbol_punc),
  (b!"-", .symbol_op),
  (b!"-=", .symbol_op),
  (b!"->", .symbol_punc),
  (b!".", .symbol_punc),
  (b!"...", .symbol_punc),
  (b!"/", .symbol_op),
  (b!"//", .symbol_op),
  (b!"//=", .symbol_op),
  (b!"/=", .symbol_op),
  (b!":", .symbol_punc),
  (b!":=", .symbol_op),
  (b!";", .symbol_punc),
  (b!"<", .symbol_op),
  (b!"<<", .symbol_op),
  (b!"<<=", .symbol_op),
  (b!"<=", .symbol_op),
  (b!"=", .symbol_punc),
  (b!"==", .symbol_op),
  (b!">", .symbol_op),
  (b!">=", .symbol_op),
  (b!">>", .symbol_op),
  (b!">>=", .symbol_op),
  (b!">>>", .symbol_punc),
  (b!"@", .symbol_op),
  (b!"@=", .symbol_op),
  (b!"False", .bool_),
  (b!"None", .null),
  (b!"True", .bool_),
  (b!"[", .symbol_square),
  (b!"\\", .string_escape),
  (b!"]", .symbol_square),
  (b!"^", .symbol_op),
  (b!"^=", .symbol_op),
  (b!"and", .keyword),
  (b!"as", .keyword),
  (b!"assert", .keyword),
  (b!"async", .keyword),
  (b!"await", .keyword_control),
  (b!"break", .keyword_control),
  (b!"case", .keyword_control),
  (b!"class", .keyword),
  (b!"continue", .keyword_control),
  (b!"def", .keyword),
  (b!"del", .keyword),
  (b!"elif", .keyword_control),
  (b!"else", .keyword_control),
  (b!"except", .keyword_control),
  (b!"finally", .keyword_control),
  (b!"for", .keyword_control),
  (b!"from", .keyword),
  (b!"global", .keyword),
  (b!"if", .keyword_control),
  (b!"import", .keyword),
  (b!"in", .keyword),
  (b!"is", .keyword),
  (b!"lambda", .keyword),
  (b!"match", .keyword_control),
  (b!"nonlocal", .keyword),
  (b!"not", .keyword),
  (b!"or", .keyword),
  (b!"pass", .keyword_control),
  (b!"raise", .keyword_control),
  (b!"return", .keyword_control),
  (b!"try", .keyword_control),
  (b!"while", .keyword_control),
  (b!"with", .keyword),
  (b!"yield", .keyword_control),
  (b!"{", .symbol_brace),
  (b!"|", .symbol_op),
  (b!"|=", .symbol_op),
  (b!"}", .symbol_brace),
  (b!"~", .symbol_op)]

/-- `token_type_by_code` (python.cpp:42-51) and `token_type_highlight` (python.cpp:59-63). -/
def highlightByCode (s : Bytes) : Option HT := (lookupSorted Prod.fst tokens s).map Prod.snd

/-- `String_Prefix` (python.hpp:114-121). -/
inductive StringPrefix where
  | unicode | raw | byte | raw_byte | formatted | raw_formatted
  deriving DecidableEq, Repr

/-- `string_prefix_is_raw` (python.hpp:123-128). -/
def StringPrefix.isRaw (p : StringPrefix) : Bool := p = .raw || p = .raw_byte || p = .raw_formatted

/-- `string_prefix_is_byte` (python.hpp:130-134). -/
def StringPrefix.isByte (p : StringPrefix) : Bool := p = .byte || p = .raw_byte

/-- `prefixes` in `classify_string_prefix` (python.cpp:88-111). -/
def prefixes : List (Bytes × StringPrefix) := [
  (b!"B", .byte), (b!"BR", .raw_byte), (b!"Br", .raw_byte), (b!"F", .formatted),
  (b!"FR", .raw_formatted), (b!"Fr", .raw_formatted), (b!"R", .raw), (b!"RB", .raw_byte),
  (b!"RF", .raw_formatted), (b!"Rb", .raw_byte), (b!"U", .unicode), (b!"b", .byte),
  (b!"bR", .raw_byte), (b!"br", .raw_byte), (b!"f", .formatted), (b!"fR", .raw_formatted),
  (b!"fr", .raw_formatted), (b!"r", .raw), (b!"rB", .raw_byte), (b!"rF", .raw_formatted),
  (b!"rb", .raw_byte), (b!"rf", .raw_formatted)]

/-- `classify_string_prefix` (python.cpp:80-119). -/
def classifyStringPrefix (s : Bytes) : Option StringPrefix :=
  (lookupSorted Prod.fst prefixes s).map Prod.snd

/-- The options in `match_number` (python.cpp:121-144). -/
def numberOptions : NumberOptions where
  prefixes := [⟨b!"0b", 2, false⟩, ⟨b!"0B", 2, false⟩, ⟨b!"0o", 8, false⟩, ⟨b!"0O", 8, false⟩,
    ⟨b!"0x", 16, false⟩, ⟨b!"0X", 16, false⟩]
  exponentSeparators := [b!"E+", b!"E-", b!"E", b!"e+", b!"e-", b!"e"]
  suffixes := [b!"j", b!"J"]
  digitSeparator := c!"_"
  nonemptyInteger := true

/-- `result.erroneous |= string_prefix_is_byte(prefix)` (python.cpp:176, 182, 187). -/
def notInBytes (e : Escape) (p : StringPrefix) : Escape := { e with erroneous := e.erroneous || p.isByte }

/-- `match_escape_sequence` (python.cpp:146-204). -/
def matchEscape (s : Bytes) (p : StringPrefix) : Escape :=
  match s with
  | a :: c :: _ =>
    if a ≠ c!"\\" then ⟨0, true⟩
    else if c = 0x0D ∨ c = 0x0A then matchCommonEscapeAt .lf_cr_crlf s 1
    else if c!"0" ≤ c ∧ c ≤ c!"7" then matchCommonEscapeAt .octal_3 s 1
    else if c = c!"x" then matchCommonEscapeAt .hex_2 s 2
    else if c = c!"N" then notInBytes (matchCommonEscapeAt .nonempty_braced s 2) p
    else if c = c!"u" then notInBytes (matchCommonEscapeAt .hex_4 s 2) p
    else if c = c!"U" then notInBytes (matchCommonEscapeAt .hex_8 s 2) p
    else if c ∈ b!"\\'\"abfnrtv" then ⟨2, false⟩
    else ⟨0, true⟩
  | _ => ⟨0, true⟩

/-- `match_symbol` (python.cpp:206-260). -/
def matchSymbol (s : Bytes) : Option Bytes :=
  match s with
  | [] => none
  | c :: _ =>
    if c = c!"!" then if startsWith s b!"!=" then some b!"!=" else none
    else if c = c!"%" then if startsWith s b!"%=" then some b!"%=" else some b!"%"
    else if c = c!"&" then if startsWith s b!"&=" then some b!"&=" else some b!"&"
    else if c = c!"(" then some b!"("
    else if c = c!")" then some b!")"
    else if c = c!"*" then
      if startsWith s b!"**=" then some b!"**=" else if startsWith s b!"**" then some b!"**"
      else if startsWith s b!"*=" then some b!"*=" else some b!"*"
    else if c = c!"+" then if startsWith s b!"+=" then some b!"+=" else some b!"+"
    else if c = c!"," then some b!","
    else if c = c!"-" then
      if startsWith s b!"-=" then some b!"-=" else if startsWith s b!"->" then some b!"->"
      else some b!"-"
    else if c = c!"." then if startsWith s b!"..." then some b!"..." else some b!"."
    else if c = c!"/" then
      if startsWith s b!"//=" then some b!"//=" else if startsWith s b!"//" then some b!"//"
      else if startsWith s b!"/=" then some b!"/=" else some b!"/"
    else if c = c!":" then if startsWith s b!":=" then some b!":=" else some b!":"
    else if c = c!";" then some b!";"
    else if c = c!"<" then
      if startsWith s b!"<<=" then some b!"<<=" else if startsWith s b!"<<" then some b!"<<"
      else if startsWith s b!"<=" then some b!"<=" else some b!"<"
    else if c = c!"=" then if startsWith s b!"==" then some b!"==" else some b!"="
    else if c = c!">" then
      if startsWith s b!">>=" then some b!">>=" else if startsWith s b!">>>" then some b!">>>"
      else if startsWith s b!">=" then some b!">=" else if startsWith s b!">>" then some b!">>"
      else some b!">"
    else if c = c!"@" then if startsWith s b!"@=" then some b!"@=" else some b!"@"
    else if c = c!"[" then some b!"["
    else if c = c!"\\" then some b!"\\"
    else if c = c!"]" then some b!"]"
    else if c = c!"^" then if startsWith s b!"^=" then some b!"^=" else some b!"^"
    else if c = c!"{" then some b!"{"
    else if c = c!"|" then if startsWith s b!"|=" then some b!"|=" else some b!"|"
    else if c = c!"}" then some b!"}"
    else if c = c!"~" then some b!"~"
    else none

/-- `consume_whitespace` (python.cpp:304-308). -/
def consumeWhitespace : HM Unit Unit := do
  let r ← HM.rem
  HM.advance (Ascii.length_if r isWhitespace)

/-- `expect_comment` (python.cpp:310-320). -/
def expectComment : HM Unit Bool := do
  let r ← HM.rem
  if !startsWith r b!"#" then pure false
  else do
    HM.emitAdv 1 .comment_delim
    let r ← HM.rem
    HM.emitAdvIf (Ascii.length_if_not r isNewline) .comment
    pure true

/-- `expect_identifier` (python.cpp:322-331). -/
def expectIdentifier : HM Unit Bool := do
  let r ← HM.rem
  let length := Cpp.matchIdentifier r
  if length ≠ 0 then do
    HM.emitAdv length ((highlightByCode (r.take length)).getD .name)
    pure true
  else pure false

/-- The case of a backslash in `consume_string` (python.cpp:419-442), after `flush()`. -/
def stringEscape (p : StringPrefix) : HM Unit Unit := do
  let r ← HM.rem
  if p.isRaw then
    let units := (decodeOrReplacement (r.drop 1)).2
    HM.emitAdv (1 + units) (if p.isByte && units != 1 then .error else .string)
  else
    let e := matchEscape r p
    if e.length ≠ 0 then HM.emitAdv e.length (if e.erroneous then .error else .string_escape)
    else HM.emitAdv 1 .error

/-- The body of the loop in `consume_string` (python.cpp:413-450), and what follows it; the local
variable is `length`. -/
def stringStep (p : StringPrefix) (terminator : Bytes) (isLong : Bool) (length : Nat) :
    HM Unit (Nat ⊕ Unit) := do
  let r ← HM.rem
  match r[length]? with
  | none => do
    HM.emitAdvIf length .string
    pure (.inr ())
  | some c =>
    if startsWith (r.drop length) terminator then do
      HM.emitAdvIf length .string
      HM.emitAdv terminator.length .string_delim
      pure (.inr ())
    else if c = c!"\\" then do
      HM.emitAdvIf length .string
      stringEscape p
      pure (.inl 0)
    else if !isLong && (c = 0x0A || c = 0x0D) then do
      HM.emitAdvIf length .string
      pure (.inr ())
    else pure (.inl (length + 1))

/-- `consume_string` (python.cpp:370-454). -/
def consumeString (p : StringPrefix) : HM Unit Unit := do
  let r ← HM.rem
  HM.hassert (startsWith r b!"'" || startsWith r b!"\"")
  let q := if startsWith r b!"'" then c!"'" else c!"\""
  let isLong := startsWith r [q, q, q]
  let terminator := if isLong then [q, q, q] else [q]
  HM.dassert (startsWith r terminator)
  HM.emitAdv terminator.length .string_delim
  HM.loop (r.length + 1) (stringStep p terminator isLong) 0

/-- `expect_string_literal` (python.cpp:333-368). -/
def expectStringLiteral : HM Unit Bool := do
  let r ← HM.rem
  if r = [] then pure false
  else
    let prefixLength := Bash.matchIdentifier r
    let classified := classifyStringPrefix (r.take prefixLength)
    let effective := if prefixLength = 0 then .unicode else classified.getD .unicode
    let erroneous := prefixLength ≠ 0 && classified.isNone
    let after := r.drop prefixLength
    if !startsWith after b!"'" && !startsWith after b!"\"" then pure false
    else do
      HM.emitAdvIf prefixLength (if erroneous then .error else .string_decor)
      consumeString effective
      pure true

/-- `expect_number` (python.cpp:456-463). -/
def expectNumber : HM Unit Bool := do
  let r ← HM.rem
  let n := matchCommonNumber r numberOptions
  if n.length = 0 then pure false
  else do
    HM.highlightNumber n (some c!"_")
    pure true

/-- `expect_symbol` (python.cpp:465-472). -/
def expectSymbol : HM Unit Bool := do
  let r ← HM.rem
  match matchSymbol r with
  | some w => do
    match highlightByCode w with
    | some ty => do
      HM.emitAdv w.length ty
      pure true
    | none => HM.fault .outOfBounds
  | none => pure false

/-- The body of the loop in `operator()` (python.cpp:278-299). -/
def step : HM Unit Unit := do
  consumeWhitespace
  if ← HM.eof then pure ()
  else do
    let success ← HM.or expectComment (HM.or expectStringLiteral (HM.or expectIdentifier
      (HM.or expectNumber expectSymbol)))
    if success then pure ()
    else do
      let r ← HM.rem
      let length := (decodeOrReplacement r).2
      HM.hassert (length != 0)
      HM.emitAdv length .error .forced

/-- `operator()` (python.cpp:276-301). -/
def run : HM Unit Bool := do
  let r ← HM.rem
  HM.whileNotEof (r.length + 1) step
  pure true

/-- `highlight_python` (python.cpp:478-486). -/
def highlight : Highlight := HM.run run ()

end Ulight.Python
