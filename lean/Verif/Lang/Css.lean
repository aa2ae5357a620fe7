import Verif.Hl.Base
import Verif.Lang.CppCommon

/-!
# CSS (src/main/cpp/lang/css.cpp)
-/

namespace Ulight.Css

open Utf8 (sequenceLength)

/-- `is_css_newline` (css.hpp:16). -/
def isNewline (c : UInt8) : Bool := c = 0x0A || c = 0x0D || c = 0x0C

/-- `is_css_whitespace` (css.hpp:19). -/
def isWhitespace (c : UInt8) : Bool := isHtmlWhitespace c

/-- `is_css_identifier_start` for a code unit (css.hpp:21-29). -/
def isIdStart (c : UInt8) : Bool := isAlpha c || c = c!"_"

/-- `is_css_identifier` for a code unit (css.hpp:39-48). -/
def isId (c : UInt8) : Bool := isIdStart c || isDigit c || c = c!"-"

/-- `starts_with_number` (css.cpp:21-29), without the sign. -/
def startsWithUnsigned (s : Bytes) : Bool :=
  match s with
  | [] => false
  | a :: t => isDigit a || (a = c!"." && match t with | [] => false | b :: _ => isDigit b)

/-- `starts_with_number` (css.cpp:21-29). -/
def startsWithNumber (s : Bytes) : Bool :=
  startsWithUnsigned (if startsWith s b!"+" || startsWith s b!"-" then s.drop 1 else s)

/-- `starts_with_valid_escape` (css.cpp:31-35). -/
def startsWithValidEscape (s : Bytes) : Bool :=
  match s with
  | a :: b :: _ => a = c!"\\" && !isNewline b
  | _ => false

/-- `starts_with_ident_sequence` (css.cpp:37-48). -/
def startsWithIdent (s : Bytes) : Bool :=
  match s with
  | [] => false
  | a :: t =>
    if a = c!"-" then (match t with | [] => false | b :: _ => isIdStart b) || startsWithValidEscape t
    else isIdStart a || startsWithValidEscape s

/-- `consume_digits` in `match_number` (css.cpp:54-58): digits from position `k` on. -/
def digitsFrom (s : Bytes) (k : Nat) : Nat := k + ((s.drop k).takeWhile isDigit).length

/-- The fractional part in `match_number` (css.cpp:64-67). -/
def numberFraction (s : Bytes) (k : Nat) : Nat :=
  match s[k]?, s[k + 1]? with
  | some a, some b => if a = c!"." && isDigit b then digitsFrom s (k + 2) else k
  | _, _ => k

/-- The exponent in `match_number` (css.cpp:68-80). -/
def numberExponent (s : Bytes) (k : Nat) : Nat :=
  match s[k]?, s[k + 1]? with
  | some a, some b =>
    if a = c!"e" || a = c!"E" then
      if (b = c!"+" || b = c!"-") && (s[k + 2]?).any isDigit then
        digitsFrom s (k + 3)
      else if isDigit b then digitsFrom s (k + 2)
      else k
    else k
  | _, _ => k

/-- `match_number` (css.cpp:50-83). -/
def matchNumber (s : Bytes) : Nat :=
  let k := if startsWith s b!"+" || startsWith s b!"-" then 1 else 0
  numberExponent s (numberFraction s (digitsFrom s k))

/-- `match_escaped_code_point` (css.cpp:85-102). -/
def matchEscapedCodePoint (s : Bytes) : Nat :=
  match s with
  | [] => 0
  | a :: _ =>
    let length := ((s.take 6).takeWhile isHexDigit).length
    if length ≠ 0 then
      match s[length]? with
      | some c => if isWhitespace c then length + 1 else length
      | none => length
    else sequenceLength a

/-- The loop of `match_ident_sequence` (css.cpp:104-121).  The fuel is the length of the text:
every iteration consumes something. -/
def identLoop : Nat → Bytes → Nat
  | 0, _ => 0
  | fuel + 1, s =>
    match s with
    | [] => 0
    | c :: _ =>
      if startsWithValidEscape s then
        let n := 1 + matchEscapedCodePoint (s.drop 1)
        n + identLoop fuel (s.drop n)
      else if isId c then 1 + identLoop fuel (s.drop 1)
      else 0

/-- `match_ident_sequence` (css.cpp:104-121). -/
def matchIdentSequence (s : Bytes) : Nat := identLoop s.length s

/-- `Ident_Type` (css.hpp:76-83). -/
inductive IdentType where
  | ident | function | url
  deriving DecidableEq, Repr

/-- `match_ident_like_token` (css.cpp:123-141).  `substr` throws if the length is too large. -/
def matchIdentLike (s : Bytes) : Except Fault (Nat × IdentType) :=
  let length := matchIdentSequence s
  if s.length < length then .error .outOfBounds
  else
    let result := s.drop length
    match s[length]? with
    | none => .ok (length, .ident)
    | some c =>
      if c ≠ c!"(" then .ok (length, .ident)
      else if Ascii.equalsIgnoreCase result b!"url" then .ok (length, .url)
      else .ok (length, .function)

/-- `Context` (css.cpp:154-163). -/
inductive Context where
  | topLevel | atPrelude | block | value
  deriving DecidableEq, Repr

/-- The data members (css.cpp:169-170). -/
structure Ext where
  braceLevel : Nat := 0
  ctx : Context := .topLevel

/-- `contextual_highlight_type` (css.cpp:190-194). -/
def Context.type : Context → HT
  | .topLevel => .markup_tag
  | .atPrelude => .name_macro
  | .block => .markup_attr
  | .value => .name

/-- `actual_type` (css.cpp:486-490). -/
def actualType (default : HT) (t : IdentType) : HT :=
  if default ≠ .name then default
  else if t = .function then .name_function
  else if t = .url then .keyword
  else .name

/-- The body of the loop in `consume_ident_like_token` (css.cpp:500-512), and what follows it; the
local variable is `length`. -/
def identStep (ty : HT) (length : Nat) : HM Ext (Nat ⊕ Unit) := do
  let r ← HM.rem
  match r[length]? with
  | none => do
    HM.emitAdvIf length ty .forced
    pure (.inr ())
  | some c =>
    if startsWithValidEscape (r.drop length) then do
      HM.emitAdvIf length ty .forced
      let r ← HM.rem
      HM.emitAdv (matchEscapedCodePoint (r.drop 1) + 1) .string_escape
      pure (.inl 0)
    else if isId c then pure (.inl (length + 1))
    else do
      HM.emitAdvIf length ty .forced
      pure (.inr ())

/-- `consume_ident_like_token` (css.cpp:481-514). -/
def consumeIdentLike (default : HT) : HM Ext Unit := do
  let r ← HM.rem
  let result ← HM.lift (matchIdentLike r)
  HM.hassert (result.1 != 0)
  HM.loop (r.length + 1) (identStep (actualType default result.2)) 0

/-- `consume_number` (css.cpp:474-479). -/
def consumeNumber : HM Ext Unit := do
  let r ← HM.rem
  let length := matchNumber r
  HM.hassert (length != 0)
  HM.emitAdv length .number

/-- `consume_numeric_token` (css.cpp:432-442). -/
def consumeNumeric : HM Ext Unit := do
  consumeNumber
  let r ← HM.rem
  if startsWithIdent r then consumeIdentLike .number_decor
  else if startsWith r b!"%" then HM.emitAdv 1 .number_decor
  else pure ()

/-- The body of the loop in `consume_string_token` (css.cpp:455-470), and what follows it; the local
variable is `length`. -/
def stringStep (quote : UInt8) (length : Nat) : HM Ext (Nat ⊕ Unit) := do
  let r ← HM.rem
  match r[length]? with
  | none => do
    HM.emitAdvIf length .string
    pure (.inr ())
  | some c =>
    if c = quote then do
      HM.emitAdvIf (length + 1) .string
      pure (.inr ())
    else if isNewline c then do
      HM.emitAdvIf length .string
      pure (.inr ())
    else if c = c!"\\" then do
      HM.emitAdvIf length .string
      let r ← HM.rem
      HM.emitAdv (matchEscapedCodePoint (r.drop 1) + 1) .string_escape
      pure (.inl 0)
    else pure (.inl (length + 1))

/-- `consume_string_token` (css.cpp:444-472). -/
def consumeString (quote : UInt8) : HM Ext Unit := do
  let r ← HM.rem
  HM.loop (r.length + 1) (stringStep quote) 1

/-- The body of the loop in `consume_comments` (css.cpp:418-429). -/
def commentStep (_ : Unit) : HM Ext (Unit ⊕ Unit) := do
  let r ← HM.rem
  let b := Cpp.matchBlockComment r
  if b.length ≠ 0 then do
    Cpp.highlightBlockComment b
    pure (.inl ())
  else pure (.inr ())

/-- `consume_comments` (css.cpp:415-430). -/
def consumeComments : HM Ext Unit := do
  let r ← HM.rem
  HM.loop (r.length + 1) commentStep ()

/-- The case of `#` (css.cpp:210-224). -/
def caseHash : HM Ext Unit := do
  let r ← HM.rem
  let e ← HM.get
  let t := r.drop 1
  if (match t with | [] => false | c :: _ => isId c) || startsWithValidEscape t then do
    let ty := if e.ctx = .value then .value else e.ctx.type
    HM.emitAdv 1 ty
    consumeIdentLike ty
  else HM.advance 1

/-- The case of `.` (css.cpp:230-241). -/
def caseDot : HM Ext Unit := do
  let r ← HM.rem
  let e ← HM.get
  if startsWithNumber r then consumeNumeric
  else if e.ctx = .topLevel then HM.emitAdv 1 .markup_tag .forced
  else HM.advance 1

/-- The case of `+` and `-` (css.cpp:242-266). -/
def caseSign (c : UInt8) : HM Ext Unit := do
  let r ← HM.rem
  let e ← HM.get
  let ty := if e.ctx = .value || e.ctx = .atPrelude then .symbol_op else .error
  if startsWithNumber r then consumeNumeric
  else if c = c!"-" then
    if startsWith r b!"-->" then HM.emitAdv 3 .comment_delim
    else if startsWithIdent (r.drop 1) then consumeIdentLike .name
    else HM.emitAdv 1 ty
  else HM.emitAdv 1 ty

/-- The case of `:` (css.cpp:271-291). -/
def caseColon : HM Ext Unit := do
  let e ← HM.get
  match e.ctx with
  | .topLevel => HM.emitAdv 1 .markup_tag .forced
  | .block => do
    HM.set { e with ctx := .value }
    HM.emitAdv 1 .symbol_punc
  | _ => HM.emitAdv 1 .symbol_punc

/-- The new context in the case of `;` (css.cpp:293-298). -/
def afterSemicolon (c : Context) : Context :=
  if c = .value then .block else if c = .atPrelude then .topLevel else c

/-- The case of `;` (css.cpp:292-301). -/
def caseSemicolon : HM Ext Unit := do
  HM.modify fun e => { e with ctx := afterSemicolon e.ctx }
  HM.emitAdv 1 .symbol_punc

/-- The case of `<` (css.cpp:302-311). -/
def caseLess : HM Ext Unit := do
  let r ← HM.rem
  if startsWith r b!"<!--" then HM.emitAdv 4 .comment_delim
  else HM.emitAdv 1 .symbol_op

/-- The case of `>`, `~` and `*` (css.cpp:312-323). -/
def caseCombinator : HM Ext Unit := do
  let e ← HM.get
  if e.ctx = .topLevel then HM.emitAdv 1 .markup_tag .forced
  else HM.emitAdv 1 .symbol_op

/-- The case of `@` (css.cpp:324-334). -/
def caseAt : HM Ext Unit := do
  HM.modify fun e => { e with ctx := .atPrelude }
  let r ← HM.rem
  if startsWithIdent (r.drop 1) then do
    HM.emitAdv 1 .name_macro_delim
    consumeIdentLike .name_macro
  else HM.emitAdv 1 .error

/-- The case of `!` (css.cpp:335-352). -/
def caseBang : HM Ext Unit := do
  let r ← HM.rem
  let white := Ascii.length_if (r.drop 1) isHtmlWhitespace
  let name := matchIdentSequence (r.drop (1 + white))
  if name ≠ 0 && Ascii.startsWithIgnoreCase ((r.drop (1 + white)).take name) b!"important" then
    HM.emitAdv (1 + white + 9) .keyword
  else HM.advance 1

/-- The case of a backslash (css.cpp:358-366). -/
def caseBackslash : HM Ext Unit := do
  let r ← HM.rem
  let e ← HM.get
  if startsWithValidEscape r then consumeIdentLike e.ctx.type
  else HM.emitAdv 1 .error

/-- The case of an opening brace (css.cpp:367-372). -/
def caseOpen : HM Ext Unit := do
  HM.modify fun e => { braceLevel := e.braceLevel + 1, ctx := .block }
  HM.emitAdv 1 .symbol_brace

/-- The members after a closing brace (css.cpp:374-379). -/
def afterClose (e : Ext) : Ext :=
  let level := if e.braceLevel ≠ 0 then e.braceLevel - 1 else e.braceLevel
  { braceLevel := level, ctx := if level = 0 then .topLevel else e.ctx }

/-- The case of a closing brace (css.cpp:373-382). -/
def caseClose : HM Ext Unit := do
  HM.modify afterClose
  HM.emitAdv 1 .symbol_brace

/-- The default case (css.cpp:396-404). -/
def caseDefault (c : UInt8) : HM Ext Unit := do
  let e ← HM.get
  if isIdStart c then consumeIdentLike e.ctx.type
  else HM.advance (sequenceLength c)

/-- The `switch` (css.cpp:196-405). -/
def caseChar (c : UInt8) : HM Ext Unit := do
  if c ∈ b!" \t\r\n" || c = 0x0C then do
    let r ← HM.rem
    HM.advance (Ascii.length_if r isHtmlWhitespace)
  else if c ∈ b!"\"'" then consumeString c
  else if c = c!"#" then caseHash
  else if c ∈ b!"()" then HM.emitAdv 1 .symbol_parens
  else if c = c!"." then caseDot
  else if c ∈ b!"+-" then caseSign c
  else if c = c!"," then HM.emitAdv 1 .symbol_punc
  else if c = c!":" then caseColon
  else if c = c!";" then caseSemicolon
  else if c = c!"<" then caseLess
  else if c ∈ b!">~*" then caseCombinator
  else if c = c!"@" then caseAt
  else if c = c!"!" then caseBang
  else if c ∈ b!"[]" then HM.emitAdv 1 .symbol_square
  else if c = c!"\\" then caseBackslash
  else if c = c!"{" then caseOpen
  else if c = c!"}" then caseClose
  else if isDigit c then consumeNumeric
  else caseDefault c

/-- The body of the loop in `operator()` (css.cpp:184-406). -/
def step : HM Ext Unit := do
  consumeComments
  let r ← HM.rem
  match r with
  | [] => pure ()
  | c :: _ => caseChar c

/-- `operator()` (css.cpp:182-408). -/
def run : HM Ext Bool := do
  let r ← HM.rem
  HM.whileNotEof (r.length + 1) step
  pure true

/-- `highlight_css` (css.cpp:521-529). -/
def highlight : Highlight := HM.run run {}

end Ulight.Css
