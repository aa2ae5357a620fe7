import Verif.Hl.Base
import Verif.Lang.CppCommon
import Verif.Lang.JsCommon

/-!
# Rust (src/main/cpp/lang/rust.cpp)
-/

namespace Ulight.Rust

open Utf8 (decodeOrReplacement)

/-- `is_rust_whitespace` (rust.hpp:13-32). -/
def isWhitespace (c : Nat) : Bool :=
  c = 0x09 || c = 0x0A || c = 0x0B || c = 0x0C || c = 0x0D || c = 0x20 || c = 0x85 || c = 0x200E ||
    c = 0x200F || c = 0x2028 || c = 0x2029

/-- `ULIGHT_RUST_TOKEN_ENUM_DATA` (rust.hpp:35-163), printed by tools/gen_tokens.py.  A `Token_Type` is
modelled by its code. -/
def tokens : List (Bytes × HT) := [
  (b!"!", .symbol_op),
  (b!"!=", .symbol_op),
  (b!"%", .symbol_op),
  (b!"%=", .symbol_op),
  (b!"&", .symbol_op),
  (b!"&&", .symbol_op),
  (b!"&=", .symbol_op),
  (b!"(", .symbol_parens),
  (b!")", .symbol_parens),
  (b!"*", .symbol_op),
  (b!"*=", .symbol_op),
  (b!"+", .symbol_op),
  (b!"+=", .symbol_op),
  (b!",", .symbol_punc),
  (b!"-", .symbol_op),
  (b!"-=", .symbol_op),
  (b!"->", .symbol_punc),
  (b!".", .symbol_punc),
  (b!"..", .symbol_op),
  (b!"...", .symbol_op),
  (b!"..=", .symbol_op),
  (b!"/", .symbol_op),
  (b!"/=", .symbol_op),
  (b!":", .symbol_punc),
  (b!"::", .symbol_op),
  (b!";", .symbol_punc),
  (b!"<", .symbol_op),
  (b!"<-", .symbol_punc),
  (b!"<<", .symbol_op),
  (b!"<<=", .symbol_op),
  (b!"<=", .symbol_op),
  (b!"=", .symbol_punc),
  (b!"==", .symbol_op),
  (b!"=>", .symbol_punc),
  (b!">", .symbol_op),
  (b!">=", .symbol_op),
  (b!">>", .symbol_op),
  (b!">>=", .symbol_op),
  (b!"?", .symbol_op),
  (b!"@", .symbol_op),
  (b!"CStr", .name_type),
  (b!"CString", .name_type),
  (b!"OsStr", .name_type),
  (b!"OsString", .name_type),
  (b!"Self", .keyword_type),
  (b!"String", .name_type),
  (b!"[", .symbol_square),
  (b!"\\", .string_escape),
  (b!"]", .symbol_square),
  (b!"^", .symbol_op),
  (b!"^=", .symbol_op),
  (b!"abstract", .keyword),
  (b!"as", .keyword),
  (b!"async", .keyword),
  (b!"await", .keyword_control),
  (b!"become", .keyword),
  (b!"bool", .name_type_builtin),
  (b!"box", .keyword),
  (b!"break", .keyword_control),
  (b!"char", .name_type_builtin),
  (b!"const", .keyword),
  (b!"continue", .keyword_control),
  (b!"crate", .keyword),
  (b!"do", .keyword_control),
  (b!"dyn", .keyword),
  (b!"else", .keyword_control),
  (b!"enum", .keyword),
  (b!"extern", .keyword),
  (b!"f32", .name_type_builtin),
  (b!"f64", .name_type_builtin),
  (b!"false", .bool_),
  (b!"final", .keyword),
  (b!"fn", .keyword),
  (b!"for", .keyword_control),
  (b!"gen", .keyword),
  (b!"i128", .name_type_builtin),
  (b!"i16", .name_type_builtin),
  (b!"i32", .name_type_builtin),
  (b!"i64", .name_type_builtin),
  (b!"i8", .name_type_builtin),
  (b!"if", .keyword_control),
  (b!"impl", .keyword),
  (b!"in", .keyword),
  (b!"isize", .name_type_builtin),
  (b!"let", .keyword),
  (b!"loop", .keyword_control),
  (b!"macro", .keyword),
  (b!"macro_rules", .keyword),
  (b!"match", .keyword_control),
  (b!"mod", .keyword),
  (b!"move", .keyword),
  (b!"mut", .keyword),
  (b!"override", .keyword),
  (b!"priv", .keyword),
  (b!"pub", .keyword),
  (b!"raw", .keyword),
  (b!"ref", .keyword),
  (b!"return", .keyword_control),
  (b!"safe", .keyword),
  (b!"self", .keyword_this),
  (b!"static", .keyword),
  (b!"str", .name_type_builtin),
  (b!"struct", .keyword),
  (b!"super", .keyword_this),
  (b!"trait", .keyword),
  (b!"true", .bool_),
  (b!"try", .keyword_control),
  (b!"type", .keyword),
  (b!"typeof", .keyword),
  (b!"u128", .name_type_builtin),
  (b!"u16", .name_type_builtin),
  (b!"u32", .name_type_builtin),
  (b!"u64", .name_type_builtin),
  (b!"u8", .name_type_builtin),
  (b!"union", .keyword),
  (b!"unsafe", .keyword),
  (b!"unsized", .keyword),
  (b!"use", .keyword),
  (b!"usize", .name_type_builtin),
  (b!"virtual", .keyword),
  (b!"where", .keyword),
  (b!"while", .keyword_control),
  (b!"yield", .keyword_control),
  (b!"{", .symbol_brace),
  (b!"|", .symbol_op),
  (b!"|=", .symbol_op),
  (b!"||", .symbol_op),
  (b!"}", .symbol_brace)]

/-- `token_type_by_code` (rust.cpp:47-55) and `token_type_highlight` (rust.cpp:64-67). -/
def highlightByCode (s : Bytes) : Option HT := (lookupSorted Prod.fst tokens s).map Prod.snd

/-- `is_illegal_raw_identifier` (rust.cpp:72-78), without the debug assertion that `id` is not empty,
which the callers have checked. -/
def isIllegalRaw (id : Bytes) : Bool :=
  id = b!"crate" || id = b!"self" || id = b!"super" || id = b!"Self" || id = b!"_"

/-- `String_Type` (rust.hpp:171-178). -/
inductive StringType where
  | string | raw | c | raw_c | byte | raw_byte
  deriving DecidableEq, Repr

/-- `string_type_is_raw` (rust.hpp:180-184). -/
def StringType.isRaw (t : StringType) : Bool := t = .raw || t = .raw_byte

/-- `string_type_is_byte` (rust.hpp:186-191). -/
def StringType.isByte (t : StringType) : Bool := t = .raw_byte || t = .byte

/-- `string_type_has_unicode_escape` (rust.hpp:193-197). -/
def StringType.hasUnicodeEscape (t : StringType) : Bool := !t.isByte

/-- The prefixes in `classify_string_prefix` (rust.cpp:99-103). -/
def stringPrefixes : List (Bytes × Nat × StringType) := [
  (b!"\"", 0, .string), (b!"b\"", 1, .byte), (b!"br\"", 2, .raw_byte),
  (b!"br#", 2, .raw_byte), (b!"c\"", 1, .c), (b!"cr\"", 2, .raw_c),
  (b!"cr#", 2, .raw_c), (b!"r\"", 1, .raw), (b!"r#", 1, .raw)]

/-- `classify_string_prefix` (rust.cpp:87-114): the length of the prefix and the type. -/
def classifyStringPrefix (s : Bytes) : Option (Nat × StringType) :=
  (stringPrefixes.find? (fun p => startsWith s p.1)).map Prod.snd

/-- The options in `match_number` (rust.cpp:119-140). -/
def numberOptions : NumberOptions where
  prefixes := [⟨b!"0b", 2, false⟩, ⟨b!"0o", 8, false⟩, ⟨b!"0x", 16, false⟩]
  exponentSeparators := [b!"E+", b!"E-", b!"E", b!"e+", b!"e-", b!"e"]
  matchSuffix := some Cpp.matchIdentifier
  digitSeparator := c!"_"
  nonemptyInteger := true

/-- `match_number` (rust.cpp:116-152). -/
def matchNumber (s : Bytes) : Except Fault NumberResult :=
  let r := matchCommonNumber s numberOptions
  if !r.isNonInteger then
    if r.suffix ≠ 0 then
      match (s.drop (r.length - r.suffix)).take r.suffix with
      | [] => .error .assert
      | c :: _ => .ok { r with erroneous := r.erroneous || c = c!"e" || c = c!"E" }
    else .ok r
  else .ok { r with erroneous := r.erroneous || r.pre != 0 }

/-- `match_escape_sequence` (rust.cpp:154-182). -/
def matchEscape (type : StringType) (s : Bytes) : Escape :=
  match s with
  | a :: c :: _ =>
    if a ≠ c!"\\" then ⟨0, true⟩
    else if c ∈ b!"'\"nrt\\0\n" then ⟨2, false⟩
    else if c = c!"x" then matchCommonEscapeAt .hex_2 s 2
    else if c = c!"u" then
      if type.hasUnicodeEscape then matchCommonEscapeAt .nonempty_braced s 2 else ⟨2, true⟩
    else ⟨1, true⟩
  | _ => ⟨0, true⟩

/-- `match_punctuation` (rust.cpp:184-242), printed by tools/gen_symbols.py. -/
def matchSymbol (s : Bytes) : Option Bytes :=
  match s with
  | [] => none
  | c :: _ =>
    if c = c!"!" then if startsWith s b!"!=" then some b!"!=" else some b!"!"
    else if c = c!"%" then if startsWith s b!"%=" then some b!"%=" else some b!"%"
    else if c = c!"&" then if startsWith s b!"&&" then some b!"&&"
      else if startsWith s b!"&=" then some b!"&=" else some b!"&"
    else if c = c!"(" then some b!"("
    else if c = c!")" then some b!")"
    else if c = c!"*" then if startsWith s b!"*=" then some b!"*=" else some b!"*"
    else if c = c!"+" then if startsWith s b!"+=" then some b!"+=" else some b!"+"
    else if c = c!"," then some b!","
    else if c = c!"-" then if startsWith s b!"-=" then some b!"-="
      else if startsWith s b!"->" then some b!"->" else some b!"-"
    else if c = c!"." then if startsWith s b!"..." then some b!"..."
      else if startsWith s b!"..=" then some b!"..=" else if startsWith s b!".." then some b!".."
      else some b!"."
    else if c = c!"/" then if startsWith s b!"/=" then some b!"/=" else some b!"/"
    else if c = c!":" then if startsWith s b!"::" then some b!"::" else some b!":"
    else if c = c!";" then some b!";"
    else if c = c!"<" then if startsWith s b!"<<=" then some b!"<<="
      else if startsWith s b!"<<" then some b!"<<" else if startsWith s b!"<=" then some b!"<="
      else some b!"<"
    else if c = c!"=" then if startsWith s b!"==" then some b!"=="
      else if startsWith s b!"=>" then some b!"=>" else some b!"="
    else if c = c!">" then if startsWith s b!">>=" then some b!">>="
      else if startsWith s b!">=" then some b!">=" else if startsWith s b!">>" then some b!">>"
      else some b!">"
    else if c = c!"?" then some b!"?"
    else if c = c!"@" then some b!"@"
    else if c = c!"[" then some b!"["
    else if c = c!"\\" then some b!"\\"
    else if c = c!"]" then some b!"]"
    else if c = c!"^" then if startsWith s b!"^=" then some b!"^=" else some b!"^"
    else if c = c!"{" then some b!"{"
    else if c = c!"|" then if startsWith s b!"|=" then some b!"|="
      else if startsWith s b!"||" then some b!"||" else some b!"|"
    else if c = c!"}" then some b!"}"
    else none

/-- `consume_whitespace` (rust.cpp:282-286). -/
def consumeWhitespace : HM Unit Unit := do
  let r ← HM.rem
  let space ← HM.lift (Utf8.length_if r isWhitespace)
  HM.advance space

/-- `expect_line_comment` (rust.cpp:302-312). -/
def expectLineComment : HM Unit Bool := do
  let r ← HM.rem
  let length := Js.matchLineComment r
  if length ≠ 0 then do
    HM.emitAdv 2 .comment_delim
    HM.emitAdvIf (length - 2) .comment
    pure true
  else pure false

/-- `expect_block_comment` (rust.cpp:314-330). -/
def expectBlockComment : HM Unit Bool := do
  let r ← HM.rem
  let b := Js.matchBlockComment r
  if b.length = 0 then pure false
  else do
    Cpp.highlightBlockComment b
    pure true

/-- `expect_raw_identifier` (rust.cpp:332-358). -/
def expectRawIdentifier : HM Unit Bool := do
  let r ← HM.rem
  if !startsWith r b!"r#" then pure false
  else
    let n := Cpp.matchIdentifier (r.drop 2)
    if n = 0 then pure false
    else if isIllegalRaw ((r.drop 2).take n) then do
      HM.emitAdv (2 + n) .error
      pure true
    else if startsWith (r.drop (2 + n)) b!"!" then do
      HM.emitAdv 2 .name_macro_delim
      HM.emitAdv n .name_macro
      HM.emitAdv 1 .name_macro_delim
      pure true
    else do
      HM.emitAdv 2 .name_delim
      HM.emitAdv n .name
      pure true

/-- `expect_identifier_or_keyword` (rust.cpp:360-381). -/
def expectIdentifierOrKeyword : HM Unit Bool := do
  let r ← HM.rem
  let n := Cpp.matchIdentifier r
  if n = 0 then pure false
  else
    match highlightByCode (r.take n) with
    | some ty => do
      HM.emitAdv n ty
      pure true
    | none =>
      if startsWith (r.drop n) b!"!" then do
        HM.emitAdv n .name_macro
        HM.emitAdv 1 .name_macro_delim
        pure true
      else do
        HM.emitAdv n .name
        pure true

/-- An identifier after a literal (rust.cpp:406-409, 541-543). -/
def consumeSuffix : HM Unit Unit := do
  let r ← HM.rem
  HM.emitAdvIf (Cpp.matchIdentifier r) .error

/-- The `switch` in `expect_char_or_byte_literal` (rust.cpp:412-449): the arguments of `emit_result`,
or `none` if the function returns `false`.  `t` is `remainder.substr(content_start)`. -/
def charContent (t : Bytes) : Option (Nat × HT) :=
  match t with
  | [] => none
  | c :: _ =>
    if c ∈ b!"'\n\r\t" then none
    else if c = c!"\\" then
      let e := matchEscape .string t
      if e.length = 0 then none
      else if e.length = 2 ∧ t[1]? = some 0x0A then none
      else if !startsWith (t.drop e.length) b!"'" then none
      else some (e.length, if e.erroneous then .error else .string_escape)
    else
      let n := (decodeOrReplacement t).2
      if !startsWith (t.drop n) b!"'" then none
      else some (n, .string)

/-- `expect_char_or_byte_literal` (rust.cpp:383-451); `k` is the integer `is_byte`. -/
def expectCharOrByte : HM Unit Bool := do
  let r ← HM.rem
  let k := if startsWith r b!"b" then 1 else 0
  if r.length < 3 + k ∨ r[k]? ≠ some c!"'" then pure false
  else
    match charContent (r.drop (k + 1)) with
    | none => pure false
    | some (n, ty) => do
      HM.emitAdvIf k .string_decor
      HM.emitAdv 1 .string_delim
      HM.emitAdv n ty
      HM.emitAdv 1 .string_delim
      consumeSuffix
      pure true

/-- The body of the loop for raw strings in `consume_string_content_and_suffix`
(rust.cpp:498-509), and the `flush()` after it (rust.cpp:535); the local variable is `length`. -/
def rawStep (hashes : Nat) (length : Nat) : HM Unit (Nat ⊕ Unit) := do
  let r ← HM.rem
  match r[length]? with
  | none => do
    HM.emitAdvIf length .string
    pure (.inr ())
  | some c =>
    if c = c!"\"" ∧ hashes ≤ Ascii.length_before_not (r.drop (length + 1)) c!"#" then do
      HM.emitAdvIf length .string
      HM.emitAdv (1 + Ascii.length_before_not (r.drop (length + 1)) c!"#") .string_delim
      pure (.inr ())
    else pure (.inl (length + 1))

/-- An escape sequence in a string (rust.cpp:520-528). -/
def consumeEscape (type : StringType) : HM Unit Unit := do
  let r ← HM.rem
  let e := matchEscape type r
  if e.length ≠ 0 then HM.emitAdv e.length (if e.erroneous then .error else .string_escape)
  else HM.emitAdv 1 .error

/-- The body of the loop for other strings in `consume_string_content_and_suffix`
(rust.cpp:513-531), and the `flush()` after it (rust.cpp:535); the local variable is `length`. -/
def stringStep (type : StringType) (length : Nat) : HM Unit (Nat ⊕ Unit) := do
  let r ← HM.rem
  match r[length]? with
  | none => do
    HM.emitAdvIf length .string
    pure (.inr ())
  | some c =>
    if c = c!"\"" then do
      HM.emitAdvIf length .string
      HM.emitAdv 1 .string_delim
      pure (.inr ())
    else if c = c!"\\" then do
      HM.emitAdvIf length .string
      consumeEscape type
      pure (.inl 0)
    else pure (.inl (length + 1))

/-- `consume_string_content_and_suffix` (rust.cpp:480-544). -/
def consumeStringContentAndSuffix (type : StringType) (hashes : Nat) : HM Unit Unit := do
  let r ← HM.rem
  HM.loop (r.length + 1) (if type.isRaw then rawStep hashes else stringStep type) 0
  consumeSuffix

/-- `expect_string_literal` (rust.cpp:453-478). -/
def expectStringLiteral : HM Unit Bool := do
  let r ← HM.rem
  match classifyStringPrefix r with
  | none => pure false
  | some (k, type) =>
    let hashes := if type.isRaw then Ascii.length_before_not (r.drop k) c!"#" else 0
    if !startsWith (r.drop (k + hashes)) b!"'" && !startsWith (r.drop (k + hashes)) b!"\"" then pure false
    else do
      HM.emitAdvIf k .string_decor
      HM.emitAdv (1 + hashes) .string_delim
      consumeStringContentAndSuffix type hashes
      pure true

/-- `expect_number` (rust.cpp:546-553). -/
def expectNumber : HM Unit Bool := do
  let r ← HM.rem
  let n ← HM.lift (matchNumber r)
  if n.length = 0 then pure false
  else do
    HM.highlightNumber n (some c!"_")
    pure true

/-- `emit_result` in `expect_lifetime_token` (rust.cpp:564-573), and the debug assertion after it
(rust.cpp:590, 597). -/
def emitLifetime (delim n : Nat) : HM Unit Unit := do
  let r ← HM.rem
  let isLabel := startsWith (r.drop (delim + n)) b!":"
  HM.emitAdv delim (if isLabel then .name_label_delim else .name_lifetime_delim)
  HM.emitAdv n (if isLabel then .name_label else .name_lifetime)
  let r ← HM.rem
  HM.dassert (!startsWith r b!"'")

/-- `expect_lifetime_token` (rust.cpp:555-600). -/
def expectLifetime : HM Unit Bool := do
  let r ← HM.rem
  if !startsWith r b!"'" then pure false
  else if startsWith r b!"'#r" then
    let n := Cpp.matchIdentifier (r.drop 3)
    if n = 0 then pure false
    else if isIllegalRaw ((r.drop 3).take n) then do
      HM.emitAdv (3 + n) .error
      let r ← HM.rem
      HM.dassert (!startsWith r b!"'")
      pure true
    else do
      emitLifetime 3 n
      pure true
  else
    let n := Cpp.matchIdentifier (r.drop 1)
    if n = 0 then pure false
    else do
      emitLifetime 1 n
      pure true

/-- `expect_punctuation` (rust.cpp:602-610). -/
def expectSymbol : HM Unit Bool := do
  let r ← HM.rem
  match matchSymbol r with
  | some w => do
    match highlightByCode w with
    | some ty => do
      HM.emitAdv w.length ty
      pure true
    | none => HM.fault .outOfBounds
  | none => pure false

/-- `expect_token_or_comment` (rust.cpp:288-300). -/
def expectToken : HM Unit Bool :=
  HM.or expectLineComment (HM.or expectBlockComment (HM.or expectCharOrByte (HM.or expectStringLiteral
    (HM.or expectNumber (HM.or expectLifetime (HM.or expectIdentifierOrKeyword
      (HM.or expectRawIdentifier expectSymbol)))))))

/-- The body of the loop in `operator()` (rust.cpp:264-276), whose exit at the end of the source is the
condition of `HM.whileNotEof`. -/
def step : HM Unit Unit := do
  consumeWhitespace
  if ← HM.eof then pure ()
  else do
    let success ← expectToken
    if success then pure ()
    else do
      let r ← HM.rem
      let length := (decodeOrReplacement r).2
      HM.hassert (length != 0)
      HM.emitAdv length .error .forced

/-- `operator()` (rust.cpp:262-279). -/
def run : HM Unit Bool := do
  let r ← HM.rem
  HM.whileNotEof (r.length + 1) step
  pure true

/-- `highlight_rust` (rust.cpp:616-624). -/
def highlight : Highlight := HM.run run ()

end Ulight.Rust
