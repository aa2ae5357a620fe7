import Verif.Hl.Base
import Verif.Search

/-!
# LLVM IR (src/main/cpp/lang/llvm.cpp)
-/

namespace Ulight.Llvm

/-- `is_llvm_identifier` (include/ulight/impl/lang/llvm.hpp:10). -/
def isIdentifier (c : UInt8) : Bool := isAlnum c || c ∈ b!"-$._"

/-- `is_llvm_keyword` (llvm.hpp:12). -/
def isKeyword (c : UInt8) : Bool := isAlnum c || c ∈ b!"-_"

/-- `match_block_comment` (llvm.cpp:20-23). -/
def matchBlockComment (s : Bytes) : Enclosed := matchEnclosed s b!"/*" b!"*/"

/-- `match_identifier` (llvm.cpp:27-35). -/
def matchIdentifier (s : Bytes) : Nat :=
  if !startsWith s b!"%" && !startsWith s b!"@" then 0 else Ascii.length_if s isIdentifier 1

/-- `match_keyword` (llvm.cpp:37-41). -/
def matchKeyword (s : Bytes) : Nat := Ascii.length_if s isKeyword

/-- `keywords` (llvm.cpp:52-97). -/
def keywords : List (Bytes × HT) := [
  (b!"bfloat", .keyword_type),
  (b!"br", .keyword_control),
  (b!"c", .string_decor),
  (b!"call", .keyword_control),
  (b!"callbr", .keyword_control),
  (b!"catchpad", .keyword_control),
  (b!"catchret", .keyword_control),
  (b!"catchswitch", .keyword_control),
  (b!"cleanuppad", .keyword_control),
  (b!"cleanupret", .keyword_control),
  (b!"double", .keyword_type),
  (b!"false", .bool_),
  (b!"float", .keyword_type),
  (b!"fp128", .keyword_type),
  (b!"indirectbr", .keyword_control),
  (b!"invoke", .keyword_control),
  (b!"label", .keyword_type),
  (b!"landingpad", .keyword_control),
  (b!"metadata", .keyword_type),
  (b!"none", .null),
  (b!"null", .null),
  (b!"poison", .null),
  (b!"ppc_fp128", .keyword_type),
  (b!"ptr", .keyword_type),
  (b!"resume", .keyword_control),
  (b!"ret", .keyword_control),
  (b!"switch", .keyword_control),
  (b!"target", .keyword_type),
  (b!"token", .keyword_type),
  (b!"true", .bool_),
  (b!"undef", .null),
  (b!"unreachable", .keyword_control),
  (b!"void", .keyword_type),
  (b!"vscale", .keyword_type),
  (b!"x", .symbol_punc),
  (b!"x86_amx", .keyword_type),
  (b!"x86_fp80", .keyword_type)]

/-- `classify_keyword` (llvm.cpp:101-125). -/
def classifyKeyword (s : Bytes) : Except Fault HT :=
  match s with
  | [] => .error .assert
  | c :: _ =>
    if c = c!"i" ∧ s.length ≥ 2 ∧ (Ascii.find_if_not s isDigit 1).isNone then .ok .keyword_type
    else
      match lookupSorted Prod.fst keywords s with
      | some e => .ok e.2
      | none => .ok .keyword

/-- The options in `expect_number` (llvm.cpp:356-381). -/
def numberOptions : NumberOptions where
  minus := true
  prefixes := [⟨b!"0x", 16, false⟩, ⟨b!"0xK", 16, false⟩, ⟨b!"0xL", 16, false⟩, ⟨b!"0xM", 16, false⟩,
    ⟨b!"0xR", 16, false⟩, ⟨b!"s0x", 16, false⟩, ⟨b!"u0x", 16, false⟩]
  exponentSeparators := [b!"e+", b!"e-", b!"e", b!"E+", b!"E-", b!"E"]

/-- `expect_number` (llvm.cpp:353-388). -/
def expectNumber : HM Unit Bool := do
  let r ← HM.rem
  let n := matchCommonNumber r numberOptions
  if n.length = 0 then pure false
  else do
    HM.highlightNumber n none
    pure true

/-- `consume_line_comment` (llvm.cpp:229-238). -/
def consumeLineComment : HM Unit Unit := do
  let r ← HM.rem
  HM.hassert (startsWith r b!";")
  HM.emitAdv 1 .comment_delim
  let r ← HM.rem
  let line := matchCrlfLine r
  HM.emitAdvIf line.content .comment
  HM.advance line.terminator

/-- `expect_block_comment` (llvm.cpp:240-249). -/
def expectBlockComment : HM Unit Bool := do
  let r ← HM.rem
  let c := matchBlockComment r
  if c.length ≠ 0 then do
    HM.highlightEnclosedComment c 2 2
    pure true
  else pure false

/-- `consume_identifier` (llvm.cpp:251-278). -/
def consumeIdentifier : HM Unit Unit := do
  let r ← HM.rem
  let length := matchIdentifier r
  HM.hassert (length != 0)
  if startsWith r b!"%" then do
    HM.emitAdv 1 .name_var_delim
    HM.emitAdvIf (length - 1) .name_var
  else if startsWith r b!"@" then do
    HM.emitAdv 1 .name_function_delim
    HM.emitAdvIf (length - 1) .name_function
  else HM.fault .unreachable

/-- `expect_keyword_or_label` (llvm.cpp:280-298). -/
def expectKeywordOrLabel : HM Unit Bool := do
  let r ← HM.rem
  let length := matchKeyword r
  if length = 0 then pure false
  else if startsWith (r.drop length) b!":" then do
    HM.emitAdv length .name_label_decl
    HM.emitAdv 1 .name_label_delim
    pure true
  else do
    let ty ← HM.lift (classifyKeyword (r.take length))
    HM.emitAdv length ty
    pure true

/-- The case of a backslash in `consume_string` (llvm.cpp:323-340), after `flush()`. -/
def stringEscape : HM Unit Unit := do
  let r ← HM.rem
  if startsWith r b!"\\\\" then HM.emitAdv 2 .string_escape
  else
    let e := matchCommonEscapeAt .hex_2 r 1
    if e.length ≠ 0 then HM.emitAdv e.length (if e.erroneous then .error else .string_escape)
    else HM.emitAdv 1 .error

/-- The body of the loop in `consume_string` (llvm.cpp:315-346), and what follows it; the local
variable is `length`. -/
def stringStep (length : Nat) : HM Unit (Nat ⊕ Unit) := do
  let r ← HM.rem
  match r[length]? with
  | none => do
    HM.emitAdvIf length .string
    pure (.inr ())
  | some c =>
    if c = c!"\"" then do
      HM.emitAdvIf length .string
      HM.emitAdv 1 .string_delim
      pure (.inr ())
    else if c = c!"\\" then do
      HM.emitAdvIf length .string
      stringEscape
      pure (.inl 0)
    else pure (.inl (length + 1))

/-- `consume_string` (llvm.cpp:300-351). -/
def consumeString : HM Unit Unit := do
  let r ← HM.rem
  HM.hassert (startsWith r b!"\"")
  HM.emitAdv 1 .string_delim
  HM.loop (r.length + 1) stringStep 0

/-- `default_case` (llvm.cpp:214-221). -/
def defaultCase : HM Unit Unit := do
  if ← expectKeywordOrLabel then pure () else HM.emitAdv 1 .error .forced

/-- `consume_anything` (llvm.cpp:147-223) for the first character `c`. -/
def consumeAnything (c : UInt8) : HM Unit Unit :=
  if c = 0x20 ∨ c = 0x09 ∨ c = 0x0D ∨ c = 0x0A then HM.advance 1
  else if isDigit c then do
    let success ← expectNumber
    HM.hassert success
  else if c = c!"\"" then consumeString
  else if c = c!"(" ∨ c = c!")" then HM.emitAdv 1 .symbol_parens
  else if c = c!"[" ∨ c = c!"]" then HM.emitAdv 1 .symbol_square
  else if c = c!"{" ∨ c = c!"}" then HM.emitAdv 1 .symbol_brace
  else if c = c!"," ∨ c = c!":" ∨ c = c!"<" ∨ c = c!"=" ∨ c = c!">" then HM.emitAdv 1 .symbol_punc
  else if c = c!";" then consumeLineComment
  else if c = c!"/" then do
    if ← expectBlockComment then pure () else HM.emitAdv 1 .error .forced
  else if c = c!"%" ∨ c = c!"@" then consumeIdentifier
  else if c = c!"s" ∨ c = c!"u" then do
    if ← expectNumber then pure () else defaultCase
  else defaultCase

/-- The body of the loop (llvm.cpp:139-141). -/
def step : HM Unit Unit := do
  match ← HM.rem with
  | [] => HM.fault .outOfBounds
  | c :: _ => consumeAnything c

/-- `operator()` (llvm.cpp:137-143). -/
def run : HM Unit Bool := do
  let r ← HM.rem
  HM.whileNotEof (r.length + 1) step
  pure true

/-- `highlight_llvm` (llvm.cpp:395-403). -/
def highlight : Highlight := HM.run run ()

end Ulight.Llvm
