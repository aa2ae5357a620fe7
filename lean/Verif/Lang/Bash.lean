import Verif.Hl.Base

/-!
# Bash (src/main/cpp/lang/bash.cpp)
-/

namespace Ulight.Bash

/-- `is_bash_whitespace` (include/ulight/impl/lang/bash.hpp:15). -/
def isWhitespace (c : UInt8) : Bool := c ∈ b!" \t\x0b\r\n"

/-- `is_bash_blank` (bash.hpp:18). -/
def isBlank (c : UInt8) : Bool := c ∈ b!" \t"

/-- `is_bash_metacharacter` (bash.hpp:21). -/
def isMetacharacter (c : UInt8) : Bool := isBlank c || c ∈ b!"|&;()<>"

/-- `is_bash_escapable_in_double_quotes` (bash.hpp:30). -/
def isEscapable (c : UInt8) : Bool := c ∈ b!"'$`\"\\\n"

/-- `is_bash_special_parameter` (bash.hpp:39). -/
def isSpecialParameter (c : UInt8) : Bool := c ∈ b!"*@#?-$!0"

/-- `is_bash_identifier_start` (bash.hpp:42). -/
def isIdStart (c : UInt8) : Bool := isAlpha c || c = c!"_"

/-- `is_bash_identifier` (bash.hpp:45). -/
def isId (c : UInt8) : Bool := isAlnum c || c = c!"_"

/-- `is_bash_parameter_substitution_start` (bash.hpp:48-49). -/
def isSubstitutionStart (c : UInt8) : Bool := c ∈ b!"({" || isIdStart c || isSpecialParameter c

/-- `is_bash_unquoted_terminator` (bash.hpp:57-58). -/
def isUnquotedTerminator (c : UInt8) : Bool := c ∈ b!"\\'\"" || isWhitespace c || isMetacharacter c

/-- `match_single_quoted_string` (bash.cpp:54-65): length and `terminated`. -/
def matchSingleQuoted (s : Bytes) : Enclosed :=
  if !startsWith s b!"'" then {}
  else match Ascii.find_if s (· == c!"'") 1 with
    | none => ⟨s.length, false⟩
    | some k => ⟨k + 1, true⟩

/-- `match_comment` (bash.cpp:67-75). -/
def matchComment (s : Bytes) : Nat :=
  if !startsWith s b!"#" then 0
  else match Ascii.find_if s (· == 0x0A) 1 with
    | none => s.length
    | some k => k

/-- `match_blank` (bash.cpp:77-80). -/
def matchBlank (s : Bytes) : Nat := Ascii.length_if s isBlank

/-- `starts_with_substitution` (bash.cpp:82-87). -/
def startsWithSubstitution (s : Bytes) : Bool :=
  match s with
  | a :: b :: _ => a = c!"$" && isSubstitutionStart b
  | _ => false

/-- `match_identifier` (bash.cpp:89-92). -/
def matchIdentifier (s : Bytes) : Nat := Ascii.length_if_head_tail s isIdStart isId

/-- `match_operator` (bash.cpp:94-135).  A `Token_Type` is modelled by its code (bash.hpp:60-112),
from which `token_type_length` is computed. -/
def matchOperator (s : Bytes) : Option Bytes :=
  match s with
  | [] => none
  | c :: _ =>
    if c = c!"!" then some b!"!"
    else if c = c!"&" then some
      (if startsWith s b!"&&" then b!"&&" else if startsWith s b!"&>>" then b!"&>>"
       else if startsWith s b!"&>" then b!"&>" else b!"&")
    else if c = c!"(" then some b!"("
    else if c = c!")" then some b!")"
    else if c = c!"*" then some b!"+"
    else if c = c!"-" then some b!"-"
    else if c = c!":" then some b!":"
    else if c = c!";" then some b!";"
    else if c = c!"<" then some
      (if startsWith s b!"<<<" then b!"<<<" else if startsWith s b!"<<" then b!"<<"
       else if startsWith s b!"<&" then b!"<&" else if startsWith s b!"<>" then b!"<>" else b!"<")
    else if c = c!"=" then some b!"="
    else if c = c!">" then some
      (if startsWith s b!">>" then b!">>" else if startsWith s b!">&" then b!">&" else b!">")
    else if c = c!"?" then some b!"?"
    else if c = c!"@" then some b!"@"
    else if c = c!"[" then some (if startsWith s b!"[[" then b!"[[" else b!"[")
    else if c = c!"]" then some (if startsWith s b!"]]" then b!"]]" else b!"]")
    else if c = c!"{" then some b!"{"
    else if c = c!"|" then some (if startsWith s b!"||" then b!"||" else b!"|")
    else if c = c!"}" then some b!"}"
    else if c = c!"~" then some b!"~"
    else none

/-- `Context` (bash.cpp:141-147). -/
inductive Context where
  | file | parameter_sub | command_sub | subshell | arith_sub
  deriving DecidableEq, Repr

/-- `State` (bash.cpp:149-155). -/
inductive State where
  | before_command | in_command | before_argument | in_argument | parameter_sub
  deriving DecidableEq, Repr

/-- The loop in `consume_word` (bash.cpp:281-288). -/
def wordLength (ctx : Context) : Bytes → Nat
  | [] => 0
  | c :: s =>
    if isUnquotedTerminator c || startsWithSubstitution (c :: s) ||
      (ctx = .parameter_sub && c = c!"}") then 0
    else wordLength ctx s + 1

/-- `consume_word` (bash.cpp:279-313). -/
def consumeWord (ctx : Context) : HM State Unit := do
  let r ← HM.rem
  let length := wordLength ctx r
  HM.hassert (length != 0)
  match ← HM.get with
  | .before_command => do
    HM.emitAdv length .name_shell_command
    HM.set .in_command
  | .in_command => do
    HM.emitAdv length .name_shell_command
    HM.set .in_command
  | .before_argument => do
    HM.emitAdv length (if startsWith r b!"-" then .name_shell_option else .string)
    HM.set .in_argument
  | .in_argument => HM.emitAdv length .string
  | .parameter_sub => HM.emitAdv length .string_interpolation

/-- `consume_escape_character` (bash.cpp:315-324). -/
def consumeEscape : HM State Unit := do
  let r ← HM.rem
  if startsWith r b!"\\\n" then do
    HM.emitAdv 1 .string_escape
    HM.advance 1
  else HM.emitAdv (min 2 r.length) .string_escape

/-- `highlight_string` (bash.cpp:326-337). -/
def highlightString (e : Enclosed) : HM State Unit := do
  HM.hassert (e.length != 0)
  HM.emitAdv 1 .string_delim
  HM.emitAdvIf (e.length - (if e.terminated then 2 else 1)) .string
  if e.terminated then HM.emitAdv 1 .string_delim else pure ()

/-- The lambda `update_state` (bash.cpp:395-402). -/
def updateState : State → State
  | .before_command => .in_command
  | .before_argument => .in_argument
  | s => s

/-- `consume_substitution` (bash.cpp:372-415); `rec` is `consume_commands`. -/
def consumeSubstitution (rec : Context → HM State Unit) : HM State Unit := do
  let r ← HM.rem
  HM.hassert (r.length ≥ 2 && startsWith r b!"$")
  match r[1]? with
  | none => HM.fault .outOfBounds
  | some next =>
    if next = c!"{" then do
      HM.emitAdv 2 .string_interpolation_delim
      HM.set .parameter_sub
      rec .parameter_sub
    else if next = c!"(" then
      if r[2]? = some c!"(" then do
        HM.emitAdv 3 .string_interpolation_delim
        HM.set .before_command
        rec .arith_sub
      else do
        HM.emitAdv 2 .string_interpolation_delim
        HM.set .before_command
        rec .command_sub
    else if isSpecialParameter next then do
      HM.emitAdv 2 .string_interpolation
      HM.modify updateState
    else if matchIdentifier (r.drop 1) ≠ 0 then do
      HM.emitAdv (matchIdentifier (r.drop 1) + 1) .string_interpolation
      HM.modify updateState
    else HM.fault .unreachable

/-- The body of the loop in `consume_double_quoted_string` (bash.cpp:349-368), and what follows it;
the local variable is `chars`. -/
def doubleQuotedStep (rec : Context → HM State Unit) (chars : Nat) : HM State (Nat ⊕ Unit) := do
  let r ← HM.rem
  match r[chars]? with
  | none => do
    HM.emitAdvIf chars .string
    pure (.inr ())
  | some c =>
    if c = c!"\"" then do
      HM.emitAdvIf chars .string
      HM.emitAdv 1 .string_delim
      pure (.inr ())
    else if c = c!"\\" ∧ (r[chars + 1]?).any isEscapable then do
      HM.emitAdvIf chars .string
      HM.emitAdv 2 .string_escape
      pure (.inl 0)
    else if startsWithSubstitution (r.drop chars) then do
      HM.emitAdvIf chars .string
      consumeSubstitution rec
      pure (.inl 0)
    else pure (.inl (chars + 1))

/-- `consume_double_quoted_string` (bash.cpp:339-370). -/
def consumeDoubleQuoted (rec : Context → HM State Unit) : HM State Unit := do
  let r ← HM.rem
  HM.loop (r.length + 1) (doubleQuotedStep rec) 0

/-- The case of `)` (bash.cpp:233-252): whether to return. -/
def closeParen (ctx : Context) : HM State Bool := do
  if ctx = .command_sub then do
    HM.emitAdv 1 .string_interpolation_delim
    pure true
  else if ctx = .subshell then do
    HM.emitAdv 1 .symbol_parens
    pure true
  else if ctx = .arith_sub then do
    let r ← HM.rem
    if r[1]? = some c!")" then do
      HM.emitAdv 2 .string_interpolation_delim
      pure true
    else do
      HM.emitAdv 1 .symbol_parens
      pure false
  else do
    HM.emitAdv 1 .symbol_parens
    pure false

/-- The assignment after blanks (bash.cpp:206-208). -/
def afterBlank : State → State
  | .in_command => .before_argument
  | .in_argument => .before_argument
  | s => s

/-- The case of an operator (bash.cpp:253-262). -/
def consumeOperator : HM State Unit := do
  let r ← HM.rem
  match matchOperator r with
  | none => HM.fault .assert
  | some op => HM.emitAdv op.length .symbol_op

/-- The case of `#` (bash.cpp:194-201). -/
def consumeComment : HM State Unit := do
  let r ← HM.rem
  HM.emitAdv 1 .comment_delim
  HM.emitAdvIf (matchComment r - 1) .comment

/-- The `switch` in `consume_commands` (bash.cpp:179-275): whether to return. -/
def commandsSwitch (rec : Context → HM State Unit) (ctx : Context) (c : UInt8) : HM State Bool :=
  if c = c!"\\" then do
    consumeEscape
    pure false
  else if c = c!"'" then do
    let r ← HM.rem
    highlightString (matchSingleQuoted r)
    pure false
  else if c = c!"\"" then do
    HM.emitAdv 1 .string_delim
    consumeDoubleQuoted rec
    pure false
  else if c = c!"#" then do
    consumeComment
    pure false
  else if c = 0x20 ∨ c = 0x09 then do
    let r ← HM.rem
    HM.advance (matchBlank r)
    HM.modify afterBlank
    pure false
  else if c = 0x0B ∨ c = 0x0D ∨ c = 0x0A then do
    HM.advance 1
    HM.set .before_command
    pure false
  else if c = c!"$" then do
    let r ← HM.rem
    if startsWithSubstitution r then do
      consumeSubstitution rec
      pure false
    else do
      consumeWord ctx
      pure false
  else if c = c!"(" then do
    HM.emitAdv 1 .symbol_parens
    HM.set .before_command
    rec .subshell
    pure false
  else if c = c!")" then closeParen ctx
  else if c = c!"|" ∨ c = c!"&" ∨ c = c!";" ∨ c = c!"<" ∨ c = c!">" then do
    consumeOperator
    pure false
  else if c = c!"}" then
    if ctx = .parameter_sub then do
      HM.emitAdv 1 .string_interpolation_delim
      pure true
    else do
      HM.emitAdv 1 .symbol_brace
      pure false
  else do
    consumeWord ctx
    pure false

/-- The body of the loop in `consume_commands` (bash.cpp:178-276). -/
def commandsStep (rec : Context → HM State Unit) (ctx : Context) (_ : Unit) :
    HM State (Unit ⊕ Unit) := do
  match ← HM.rem with
  | [] => pure (.inr ())
  | c :: _ => do
    if ← commandsSwitch rec ctx c then pure (.inr ()) else pure (.inl ())

/-- `consume_commands` (bash.cpp:176-277).  The fuel bounds the depth of the recursion; the proofs
show that the length of the source is enough.  The stack depth is not modelled. -/
def consumeCommands : Nat → Context → HM State Unit
  | 0, _ => HM.fault .outOfFuel
  | fuel + 1, ctx => do
    let r ← HM.rem
    HM.loop (r.length + 1) (commandsStep (consumeCommands fuel) ctx) ()

/-- `operator()` (bash.cpp:169-173). -/
def run : HM State Bool := do
  let r ← HM.rem
  consumeCommands (r.length + 1) .file
  pure true

/-- `highlight_bash` (bash.cpp:421-429). -/
def highlight : Highlight := HM.run run .before_command

end Ulight.Bash
