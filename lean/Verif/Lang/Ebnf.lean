import Verif.Hl.Base

/-!
# EBNF (src/main/cpp/lang/ebnf.cpp)
-/

namespace Ulight.Ebnf

/-- `State` (ebnf.cpp:20-25). -/
inductive St where
  | leftBeforeName
  | leftInName
  | rightBeforeName
  | rightInName
  deriving DecidableEq, Repr

/-- `is_ebnf_relaxed_meta_identifier` (include/ulight/impl/lang/ebnf.hpp:10-11). -/
def isRelaxedMetaIdentifier (c : UInt8) : Bool := isAlnum c || c ∈ b!"-_"

/-- `consume_delimited` (ebnf.cpp:306-328). -/
def consumeDelimited (open_ close : Bytes) (openType contentType closeType : HT) : HM St Unit := do
  let r ← HM.rem
  HM.hassert (startsWith r open_)
  let closingPos := (findSub close (r.drop open_.length)).map (· + open_.length)
  HM.emitAdv open_.length openType
  match closingPos with
  | none => do
    let r ← HM.rem
    HM.emitAdvIf r.length contentType
  | some pos => do
    HM.emitAdvIf (pos - open_.length) contentType
    HM.emitAdv close.length closeType

/-- `consume_comment` (ebnf.cpp:330-336). -/
def consumeComment : HM St Unit :=
  consumeDelimited b!"(*" b!"*)" .comment_delim .comment .comment_delim

/-- `consume_string` (ebnf.cpp:338-345). -/
def consumeString (quote : UInt8) : HM St Unit :=
  consumeDelimited [quote] [quote] .string_delim .string .string_delim

/-- `consume_special_sequence` (ebnf.cpp:347-352). -/
def consumeSpecialSequence : HM St Unit := do
  let r ← HM.rem
  HM.hassert (startsWith r b!"?")
  HM.emitAdv (Ascii.length_until r c!"?" 1) .name_macro

/-- `state = State::right_before_name; emit_and_advance(n, ty)` -/
def rightEmit (n : Nat) (ty : HT) : HM St Unit := do
  HM.set .rightBeforeName
  HM.emitAdv n ty

/-- Digits (ebnf.cpp:153-178). -/
def digit : HM St Unit := do
  match ← HM.get with
  | .leftInName => HM.emitAdv 1 .name_nonterminal_decl .forced
  | .rightInName => HM.emitAdv 1 .name_nonterminal .forced
  | _ => HM.emitAdv 1 .number .forced

/-- Letters and underscores (ebnf.cpp:179-253). -/
def letter : HM St Unit := do
  match ← HM.get with
  | .leftBeforeName => do
    HM.set .leftInName
    HM.emitAdv 1 .name_nonterminal_decl
  | .leftInName => HM.emitAdv 1 .name_nonterminal_decl .forced
  | .rightBeforeName => do
    HM.set .rightInName
    HM.emitAdv 1 .name_nonterminal
  | .rightInName => HM.emitAdv 1 .name_nonterminal .forced

/-- Hyphens (ebnf.cpp:254-294). -/
def hyphen (previous : UInt8) : HM St Unit := do
  match ← HM.get with
  | .leftBeforeName => rightEmit 1 .symbol_op
  | .rightBeforeName => rightEmit 1 .symbol_op
  | .leftInName =>
    if isRelaxedMetaIdentifier previous then HM.emitAdv 1 .name_nonterminal_decl .forced
    else rightEmit 1 .symbol_op
  | .rightInName =>
    if isRelaxedMetaIdentifier previous then HM.emitAdv 1 .name_nonterminal .forced
    else rightEmit 1 .symbol_op

/-- The `switch` over the first character `c` of the remainder `r` (ebnf.cpp:46-299). -/
def dispatch (previous c : UInt8) (r : Bytes) : HM St Unit :=
  if c = c!"," ∨ c = c!"!" ∨ c = c!"|" then rightEmit 1 .symbol_op
  else if c = c!"*" then
    if startsWith r b!"*)" then HM.emitAdv 2 .comment_delim else rightEmit 1 .symbol_op
  else if c = c!"/" then
    if startsWith r b!"/)" then rightEmit 2 .symbol_parens else rightEmit 1 .symbol_op
  else if c = c!":" then
    if startsWith r b!":)" then rightEmit 2 .symbol_brace else rightEmit 1 .symbol_op
  else if c = c!"[" ∨ c = c!"]" then rightEmit 1 .symbol_square
  else if c = c!"{" ∨ c = c!"}" then rightEmit 1 .symbol_brace
  else if c = c!"'" ∨ c = c!"\"" ∨ c = c!"`" then do
    HM.set .rightBeforeName
    consumeString c
  else if c = c!";" ∨ c = c!"." then do
    HM.set .leftBeforeName
    HM.emitAdv 1 .symbol_punc
  else if c = c!"=" then rightEmit 1 .symbol_punc
  else if c = 0x20 ∨ c = 0x09 ∨ c = 0x0D ∨ c = 0x0A ∨ c = 0x0B then HM.advance 1
  else if c = c!"(" then
    if startsWith r b!"(*" then consumeComment
    else if startsWith r b!"(:" then rightEmit 2 .symbol_brace
    else if startsWith r b!"(/" then rightEmit 2 .symbol_parens
    else rightEmit 1 .symbol_parens
  else if c = c!")" then rightEmit 1 .symbol_parens
  else if c = c!"?" then do
    HM.set .rightBeforeName
    consumeSpecialSequence
  else if isDigit c then digit
  else if isAlpha c || c = c!"_" then letter
  else if c = c!"-" then hyphen previous
  else HM.emitAdv 1 .error .forced

/-- The body of the loop (ebnf.cpp:44-301); the local variable is `previous`. -/
def step (previous : UInt8) : HM St (UInt8 ⊕ Unit) := do
  match ← HM.rem with
  | [] => pure (.inr ())
  | c :: t => do
    dispatch previous c (c :: t)
    pure (.inl c)

/-- `operator()` (ebnf.cpp:41-303). -/
def run : HM St Bool := do
  let r ← HM.rem
  HM.loop (r.length + 1) step 0
  pure true

/-- `highlight_ebnf` (ebnf.cpp:358-366). -/
def highlight : Highlight := HM.run run .leftBeforeName

end Ulight.Ebnf
