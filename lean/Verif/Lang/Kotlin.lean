import Verif.Hl.Base
import Verif.Lang.CppCommon
import Verif.Lang.JsCommon
import Verif.Lang.Python

/-!
# Kotlin (src/main/cpp/lang/kotlin.cpp)
-/

namespace Ulight.Kotlin

open Utf8 (decodeOrReplacement)

/-- `ULIGHT_KOTLIN_TOKEN_ENUM_DATA` (kotlin.hpp), printed by tools/gen_tokens.py.  A `Token_Type` is
modelled by its code.  Simplified: the two entries `super` and `super_at` have the same code `super@`
(kotlin.hpp:121-122) and the same type, and are one entry here. -/
def tokens : List (Bytes × HT) := [
  (b!"!", .symbol_op),
  (b!"!=", .symbol_op),
  (b!"!in", .keyword),
  (b!"!is", .keyword),
  (b!"\"", .string_delim),
  (b!"\"\"\"", .string_delim),
  (b!"#", .symbol_op),
  (b!"%", .symbol_op),
  (b!"%=", .symbol_op),
  (b!"&&", .symbol_op),
  (b!"(", .symbol_parens),
  (b!")", .symbol_parens),
  (b!"*", .symbol_op),
  (b!"*=", .symbol_op),
  (b!"+", .symbol_op),
  (b!"++", .symbol_op),
  (b!"+=", .symbol_op),
  (b!",", .symbol_punc),
  (b!"-", .symbol_op),
  (b!"--", .symbol_op),
  (b!"-=", .symbol_op),
  (b!"->", .symbol_punc),
  (b!".", .symbol_punc),
  (b!"..", .symbol_punc),
  (b!"...", .symbol_punc),
  (b!"/", .symbol_op),
  (b!"/=", .symbol_op),
  (b!":", .symbol_punc),
  (b!"::", .symbol_punc),
  (b!";", .symbol_punc),
  (b!";;", .symbol_punc),
  (b!"<", .symbol_op),
  (b!"<=", .symbol_op),
  (b!"=", .symbol_punc),
  (b!"==", .symbol_op),
  (b!"===", .symbol_op),
  (b!"=>", .symbol_punc),
  (b!">", .symbol_op),
  (b!">=", .symbol_op),
  (b!"?", .symbol_op),
  (b!"?.", .symbol_op),
  (b!"?:", .symbol_op),
  (b!"@", .symbol_op),
  (b!"[", .symbol_square),
  (b!"]", .symbol_square),
  (b!"abstract", .keyword),
  (b!"actual", .keyword),
  (b!"annotation", .keyword),
  (b!"as", .keyword),
  (b!"as?", .keyword),
  (b!"assert", .keyword),
  (b!"async", .keyword),
  (b!"await", .keyword_control),
  (b!"break", .keyword_control),
  (b!"break@", .keyword_control),
  (b!"by", .keyword),
  (b!"catch", .keyword_control),
  (b!"class", .keyword),
  (b!"companion", .keyword),
  (b!"const", .keyword),
  (b!"constructor", .keyword),
  (b!"continue", .keyword_control),
  (b!"continue@", .keyword_control),
  (b!"data", .keyword),
  (b!"delegate", .keyword),
  (b!"do", .keyword_control),
  (b!"dynamic", .keyword),
  (b!"else", .keyword_control),
  (b!"enum", .keyword),
  (b!"expect", .keyword),
  (b!"false", .bool_),
  (b!"field", .keyword),
  (b!"file", .keyword),
  (b!"final", .keyword),
  (b!"finally", .keyword_control),
  (b!"for", .keyword_control),
  (b!"fun", .keyword),
  (b!"get", .keyword),
  (b!"if", .keyword_control),
  (b!"import", .keyword),
  (b!"in", .keyword),
  (b!"init", .keyword),
  (b!"inline", .keyword),
  (b!"interface", .keyword),
  (b!"internal", .keyword),
  (b!"is", .keyword),
  (b!"lateinit", .keyword),
  (b!"noinline", .keyword),
  (b!"null", .null),
  (b!"object", .keyword),
  (b!"open", .keyword),
  (b!"operator", .keyword),
  (b!"out", .keyword),
  (b!"package", .keyword),
  (b!"param", .keyword),
  (b!"private", .keyword),
  (b!"property", .keyword_control),
  (b!"protected", .keyword),
  (b!"public", .keyword),
  (b!"receiver", .keyword),
  (b!"reified", .keyword),
  (b!"return", .keyword_control),
  (b!"return@", .keyword_control),
  (b!"sealed", .keyword),
  (b!"set", .keyword),
  (b!"setparam", .keyword),
  (b!"super@", .keyword_this),
  (b!"suspend", .keyword),
  (b!"this", .keyword_this),
  (b!"this@", .keyword_this),
  (b!"throw", .keyword_control),
  (b!"true", .bool_),
  (b!"try", .keyword_control),
  (b!"typealias", .keyword),
  (b!"typeof", .keyword),
  (b!"val", .keyword),
  (b!"value", .keyword),
  (b!"var", .keyword),
  (b!"vararg", .keyword),
  (b!"when", .keyword_control),
  (b!"while", .keyword_control),
  (b!"{", .symbol_brace),
  (b!"||", .symbol_op),
  (b!"}", .symbol_brace)]

/-- `token_type_by_code` (kotlin.cpp:36-45) and `token_type_highlight` (kotlin.cpp:53-57). -/
def highlightByCode (s : Bytes) : Option HT := (lookupSorted Prod.fst tokens s).map Prod.snd

/-- The options in `match_number` (kotlin.cpp:64-83). -/
def numberOptions : NumberOptions where
  prefixes := [⟨b!"0b", 2, false⟩, ⟨b!"0B", 2, false⟩, ⟨b!"0x", 16, false⟩, ⟨b!"0X", 16, false⟩]
  exponentSeparators := [b!"E+", b!"E-", b!"E", b!"e+", b!"e-", b!"e"]
  suffixes := [b!"F", b!"L", b!"U", b!"UL", b!"f", b!"l", b!"u", b!"uL"]
  digitSeparator := c!"_"

/-- `match_number` (kotlin.cpp:61-92). -/
def matchNumber (s : Bytes) : NumberResult :=
  let r := matchCommonNumber s numberOptions
  let r := { r with erroneous := r.erroneous || ((r.fractional != 0 || r.radixPoint != 0) && r.pre != 0) }
  if r.radixPoint ≠ 0 ∧ r.fractional = 0 ∧ s[r.length]? = some c!"." then
    { r with radixPoint := 0, length := r.length - 1 }
  else r

/-- `match_symbol` (kotlin.cpp:94-154), printed by tools/gen_symbols.py. -/
def matchSymbol (s : Bytes) : Option Bytes :=
  match s with
  | [] => none
  | c :: _ =>
    if c = c!"!" then if startsWith s b!"!=" then some b!"!="
      else if startsWith s b!"!in" then some b!"!in"
      else if startsWith s b!"!is" then some b!"!is" else some b!"!"
    else if c = c!"\"" then if startsWith s b!"\"\"\"" then some b!"\"\"\"" else some b!"\""
    else if c = c!"#" then some b!"#"
    else if c = c!"%" then if startsWith s b!"%=" then some b!"%=" else some b!"%"
    else if c = c!"&" then if startsWith s b!"&&" then some b!"&&" else none
    else if c = c!"(" then some b!"("
    else if c = c!")" then some b!")"
    else if c = c!"*" then if startsWith s b!"*=" then some b!"*=" else some b!"*"
    else if c = c!"+" then if startsWith s b!"++" then some b!"++"
      else if startsWith s b!"+=" then some b!"+=" else some b!"+"
    else if c = c!"," then some b!","
    else if c = c!"-" then if startsWith s b!"--" then some b!"--"
      else if startsWith s b!"-=" then some b!"-=" else if startsWith s b!"->" then some b!"->"
      else some b!"-"
    else if c = c!"." then if startsWith s b!"..." then some b!"..."
      else if startsWith s b!".." then some b!".." else some b!"."
    else if c = c!"/" then if startsWith s b!"/=" then some b!"/=" else some b!"/"
    else if c = c!":" then if startsWith s b!"::" then some b!"::" else some b!":"
    else if c = c!";" then if startsWith s b!";;" then some b!";;" else some b!";"
    else if c = c!"<" then if startsWith s b!"<=" then some b!"<=" else some b!"<"
    else if c = c!"=" then if startsWith s b!"===" then some b!"==="
      else if startsWith s b!"==" then some b!"==" else if startsWith s b!">=" then some b!"=>"
      else some b!"="
    else if c = c!">" then if startsWith s b!">=" then some b!">=" else some b!">"
    else if c = c!"?" then if startsWith s b!"?." then some b!"?."
      else if startsWith s b!"?:" then some b!"?:" else some b!"?"
    else if c = c!"@" then some b!"@"
    else if c = c!"[" then some b!"["
    else if c = c!"]" then some b!"]"
    else if c = c!"a" then if startsWith s b!"as?" then some b!"as?" else none
    else if c = c!"b" then if startsWith s b!"break@" then some b!"break@" else none
    else if c = c!"c" then if startsWith s b!"continue@" then some b!"continue@" else none
    else if c = c!"r" then if startsWith s b!"return@" then some b!"return@" else none
    else if c = c!"s" then if startsWith s b!"super@" then some b!"super@" else none
    else if c = c!"t" then if startsWith s b!"this@" then some b!"this@" else none
    else if c = c!"{" then some b!"{"
    else if c = c!"|" then if startsWith s b!"||" then some b!"||" else none
    else if c = c!"}" then some b!"}"
    else none

/-- `match_escape_sequence` (kotlin.cpp:165-188). -/
def matchEscape (s : Bytes) : Escape :=
  match s with
  | a :: c :: _ =>
    if a ≠ c!"\\" then ⟨1, true⟩
    else if c = c!"u" then matchCommonEscapeAt .hex_4 s 2
    else if c ∈ b!"tbrn'\"\\$" then ⟨2, false⟩
    else ⟨1, true⟩
  | [_] => ⟨1, true⟩
  | [] => ⟨0, true⟩

/-- `consume_whitespace` (kotlin.cpp:272-276). -/
def consumeWhitespace : HM Unit Unit := do
  let r ← HM.rem
  HM.advance (Ascii.length_if r Python.isWhitespace)

/-- `expect_line_comment` (kotlin.cpp:278-288). -/
def expectLineComment : HM Unit Bool := do
  let r ← HM.rem
  let length := Js.matchLineComment r
  if length ≠ 0 then do
    HM.emitAdv 2 .comment_delim
    HM.emitAdvIf (length - 2) .comment
    pure true
  else pure false

/-- `expect_block_comment` (kotlin.cpp:290-306). -/
def expectBlockComment : HM Unit Bool := do
  let r ← HM.rem
  let b := Js.matchBlockComment r
  if b.length = 0 then pure false
  else do
    Cpp.highlightBlockComment b
    pure true

/-- The body of the loop in `expect_backtick_identifier` (kotlin.cpp:316-334), and what follows it;
the local variable is `length`. -/
def backtickStep (length : Nat) : HM Unit (Nat ⊕ Unit) := do
  let r ← HM.rem
  match r[length]? with
  | none => do
    HM.emitAdv length .error
    pure (.inr ())
  | some c =>
    if c = c!"`" then
      if length = 1 then do
        HM.emitAdv 2 .error
        pure (.inr ())
      else do
        HM.emitAdv 1 .name_delim
        HM.emitAdv (length - 1) .name
        HM.emitAdv 1 .name_delim
        pure (.inr ())
    else if c = 0x0D || c = 0x0A then do
      HM.emitAdv length .error
      pure (.inr ())
    else pure (.inl (length + 1))

/-- `expect_backtick_identifier` (kotlin.cpp:308-338). -/
def expectBacktickIdentifier : HM Unit Bool := do
  let r ← HM.rem
  if !startsWith r b!"`" then pure false
  else do
    HM.loop (r.length + 1) backtickStep 1
    pure true

/-- `expect_identifier` (kotlin.cpp:340-349). -/
def expectIdentifier : HM Unit Bool := do
  let r ← HM.rem
  let length := Cpp.matchIdentifier r
  if length ≠ 0 then do
    HM.emitAdv length ((highlightByCode (r.take length)).getD .name)
    pure true
  else pure false

/-- An escape sequence (kotlin.cpp:444-449). -/
def consumeEscape : HM Unit Unit := do
  let r ← HM.rem
  let e := matchEscape r
  HM.hassert (e.length != 0)
  HM.emitAdv e.length (if e.erroneous then .error else .string_escape)

/-- The end of a multiline string (kotlin.cpp:397-402). -/
def closeMultiline : HM Unit Unit := do
  let r ← HM.rem
  let quotes := Ascii.length_before_not r c!"\""
  HM.dassert (decide (quotes ≥ 3))
  HM.emitAdvIf (quotes - 3) .string .forced
  HM.emitAdv 3 .string_delim

/-- `$` in a string (kotlin.cpp:420-437); the result says whether to go on.  `rec` is
`consume_brace_balanced_tokens(Context::string)`. -/
def consumeDollar (rec : HM Unit Unit) : HM Unit Bool := do
  let r ← HM.rem
  if startsWith r b!"${" then do
    HM.emitAdv 2 .string_interpolation_delim
    rec
    if ← HM.eof then pure false
    else do
      let r ← HM.rem
      HM.hassert (startsWith r b!"}")
      HM.emitAdv 1 .string_interpolation_delim
      pure true
  else do
    let id := Cpp.matchIdentifier (r.drop 1)
    if id ≠ 0 then do
      HM.emitAdv (1 + id) .string_interpolation
      pure true
    else do
      HM.emitAdv 1 .error
      pure true

/-- The body of the loop in `expect_string_or_character` (kotlin.cpp:387-457), and what follows it;
the local variable is `length`.  The terminator determines `is_multiline` and `is_character`. -/
def stringStep (rec : HM Unit Unit) (q : Bytes) (length : Nat) : HM Unit (Nat ⊕ Unit) := do
  let r ← HM.rem
  match r[length]? with
  | none => do
    HM.emitAdvIf length .string
    pure (.inr ())
  | some c =>
    if startsWith (r.drop length) q then do
      HM.emitAdvIf length .string
      if q = b!"\"\"\"" then do
        closeMultiline
        pure (.inr ())
      else do
        HM.emitAdv 1 .string_delim
        pure (.inr ())
    else if q ≠ b!"\"\"\"" && (c = 0x0D || c = 0x0A) then do
      HM.emitAdvIf length .string
      pure (.inr ())
    else if q ≠ b!"'" && c = c!"$" then do
      HM.emitAdvIf length .string
      if ← consumeDollar rec then pure (.inl 0) else pure (.inr ())
    else if q ≠ b!"\"\"\"" && c = c!"\\" then do
      HM.emitAdvIf length .string
      consumeEscape
      pure (.inl 0)
    else pure (.inl (length + 1))

/-- The terminator of a string or character literal (kotlin.cpp:355-374). -/
def terminator (r : Bytes) : Bytes :=
  if startsWith r b!"'" then b!"'"
  else if startsWith r b!"\"" then if startsWith r b!"\"\"\"" then b!"\"\"\"" else b!"\""
  else []

/-- `expect_string_or_character` (kotlin.cpp:351-461). -/
def expectStringOrCharacter (rec : HM Unit Unit) : HM Unit Bool := do
  let r ← HM.rem
  let q := terminator r
  if q = [] then pure false
  else do
    HM.dassert (startsWith r q)
    HM.emitAdv q.length .string_delim
    HM.loop (r.length + 1) (stringStep rec q) 0
    pure true

/-- `expect_number` (kotlin.cpp:463-470). -/
def expectNumber : HM Unit Bool := do
  let r ← HM.rem
  let n := matchNumber r
  if n.length = 0 then pure false
  else do
    HM.highlightNumber n (some c!"_")
    pure true

/-- The body of the loop in `consume_dotted_annotation_name` (kotlin.cpp:474-484). -/
def dottedStep : Unit → HM Unit (Unit ⊕ Unit) := fun _ => do
  let r ← HM.rem
  let length := Cpp.matchIdentifier r
  if length = 0 then pure (.inr ())
  else do
    HM.emitAdv length .name_attr
    let r ← HM.rem
    if !startsWith r b!"." then pure (.inr ())
    else do
      HM.emitAdv 1 .name_attr_delim
      pure (.inl ())

/-- `consume_dotted_annotation_name` (kotlin.cpp:472-485). -/
def consumeDotted : HM Unit Unit := do
  let r ← HM.rem
  HM.loop (r.length + 1) dottedStep ()

/-- The body of the loop in `consume_multi_annotation` (kotlin.cpp:491-502). -/
def multiStep : Unit → HM Unit (Unit ⊕ Unit) := fun _ => do
  let r ← HM.rem
  if r = [] ∨ startsWith r b!"]" then pure (.inr ())
  else do
    consumeWhitespace
    let r ← HM.rem
    if r = [] ∨ startsWith r b!"]" then pure (.inr ())
    else if Cpp.matchIdentifier r ≠ 0 then do
      consumeDotted
      pure (.inl ())
    else do
      HM.emitAdv 1 .error
      pure (.inl ())

/-- `consume_multi_annotation` (kotlin.cpp:487-506). -/
def consumeMulti : HM Unit Unit := do
  let r ← HM.rem
  HM.hassert (startsWith r b!"[")
  HM.emitAdv 1 .symbol_square
  HM.loop (r.length + 1) multiStep ()
  let r ← HM.rem
  if startsWith r b!"]" then HM.emitAdv 1 .symbol_square else pure ()

/-- `expect_annotation` (kotlin.cpp:508-546). -/
def expectAnnotation : HM Unit Bool := do
  let r ← HM.rem
  if !startsWith r b!"@" then pure false
  else if startsWith (r.drop 1) b!"[" then do
    HM.emitAdv 1 .name_attr_delim
    consumeMulti
    pure true
  else if Cpp.matchIdentifier (r.drop 1) = 0 then pure false
  else do
    HM.emitAdv 1 .name_attr_delim
    consumeDotted
    let r ← HM.rem
    if startsWith r b!":" then do
      HM.emitAdv 1 .name_attr_delim
      let r ← HM.rem
      if startsWith r b!"[" then do
        consumeMulti
        pure true
      else do
        consumeDotted
        pure true
    else pure true

/-- `expect_symbol` (kotlin.cpp:548-555). -/
def expectSymbol : HM Unit Bool := do
  let r ← HM.rem
  match matchSymbol r with
  | some w => do
    match highlightByCode w with
    | some ty => do
      HM.emitAdv w.length ty
      pure true
    | none => HM.fault .outOfBounds
  | none => pure false

/-- `expect_token` (kotlin.cpp:253-264). -/
def expectToken (rec : HM Unit Unit) : HM Unit Bool :=
  HM.or expectLineComment (HM.or expectBlockComment (HM.or (expectStringOrCharacter rec)
    (HM.or expectNumber (HM.or expectAnnotation (HM.or expectSymbol
      (HM.or expectBacktickIdentifier expectIdentifier))))))

/-- The body of the loop in `consume_brace_balanced_tokens` (kotlin.cpp:219-250); the local variable is
`brace_level`.  `string` says that the context is `Context::string`. -/
def tokensStep (rec : HM Unit Unit) (string : Bool) (level : Nat) : HM Unit (Nat ⊕ Unit) := do
  consumeWhitespace
  let r ← HM.rem
  match r with
  | [] => pure (.inr ())
  | c :: _ =>
    if c = c!"{" then do
      HM.emitAdv 1 .symbol_brace
      pure (.inl (level + 1))
    else if c = c!"}" then
      if level = 0 then
        if string then pure (.inr ())
        else do
          HM.emitAdv 1 .error
          pure (.inl level)
      else do
        HM.emitAdv 1 .symbol_brace
        pure (.inl (level - 1))
    else do
      let success ← expectToken rec
      if success then pure (.inl level)
      else do
        let r ← HM.rem
        let length := (decodeOrReplacement r).2
        HM.hassert (length != 0)
        HM.emitAdv length .error .forced
        pure (.inl level)

/-- `consume_brace_balanced_tokens` (kotlin.cpp:216-251).  The fuel bounds the depth of the recursion;
the proofs show that the length of the source is enough. -/
def consumeTokens : Nat → Bool → HM Unit Unit
  | 0, _ => HM.fault .outOfFuel
  | fuel + 1, string => do
    let r ← HM.rem
    HM.loop (r.length + 1) (tokensStep (consumeTokens fuel true) string) 0

/-- `operator()` (kotlin.cpp:204-208). -/
def run : HM Unit Bool := do
  let r ← HM.rem
  consumeTokens (r.length + 1) false
  pure true

/-- `highlight_kotlin` (kotlin.cpp:562-570). -/
def highlight : Highlight := HM.run run ()

end Ulight.Kotlin
