import Verif.Lang.Json

/-!
# `parse_json` (include/ulight/json.hpp, src/main/cpp/lang/json.cpp:421-867)

The visitor is modelled by the list of calls of its member functions.  The parser ignores the result
of `JSON_Visitor::error`, so a visitor cannot influence it; exceptions thrown by a visitor are not
modelled.
-/

namespace Ulight.Json

/-- `Source_Position` (include/ulight/json.hpp:10-20). -/
structure Pos where
  codeUnit : Nat
  line : Nat
  lineCodeUnit : Nat
  deriving DecidableEq, Repr

/-- `JSON_Error` (include/ulight/json.hpp:22-42). -/
inductive JError where
  | error | comment | illegal_character | illegal_escape | illegal_number | unterminated_string
  | unterminated_object | unterminated_array | valueless_member
  deriving DecidableEq, Repr

/-- The member functions of `JSON_Visitor` (include/ulight/json.hpp:55-158) with their arguments
other than the position.  The value given to `number` is not modelled, only the text that
`std::strtod` is called with: the source from the number on, since there is no terminator. -/
inductive Payload where
  | lineComment (text : Bytes)
  | blockComment (text : Bytes)
  | literal (chars : Bytes)
  | escape (text : Bytes)
  | escapeValue (text : Bytes) (codePoint : Nat)
  | escapeUnits (text : Bytes) (codePoint : Nat) (units : Bytes)
  | number (text : Bytes)
  | numberValue (text : Bytes) (strtodArgument : Bytes)
  | null
  | boolean (value : Bool)
  | pushString | popString | pushProperty | popProperty
  | pushObject | popObject | pushArray | popArray
  | error (e : JError)
  deriving DecidableEq, Repr

/-- A call of a member function of the visitor. -/
structure Event where
  pos : Pos
  payload : Payload
  deriving DecidableEq, Repr

/-- `Escape_Parsing` (include/ulight/json.hpp:163-170). -/
inductive EscapeParsing where
  | none | parse | parseEncode
  deriving DecidableEq, Repr

/-- `JSON_Options` (include/ulight/json.hpp:173-181). -/
structure JOptions where
  allowComments : Bool := false
  parseNumbers : Bool := false
  escapes : EscapeParsing := .none
  deriving DecidableEq, Repr

namespace Parser

/-- The members of `Parser` (json.cpp:421-430) besides `remainder` and `pos.code_unit`, which are
`HS.rem` and `HS.idx`, and the calls of the visitor so far. -/
structure Ext where
  line : Nat := 0
  lineCodeUnit : Nat := 0
  events : List Event := []

/-- A member function of `Parser`. -/
abbrev PM := HM Ext

/-- `out.x(pos, …)` -/
def visit (p : Payload) : PM Unit := fun _ s =>
  .ok ((), { s with ext :=
    { s.ext with events := s.ext.events ++ [⟨⟨s.idx, s.ext.line, s.ext.lineCodeUnit⟩, p⟩] } })

/-- `error(e); return false;` (json.cpp:448-451). -/
def fail (e : JError) : PM Bool := do
  visit (.error e)
  pure false

/-- `ULIGHT_DEBUG_ASSERT_UNREACHABLE` (include/ulight/impl/assert.hpp:73-83): an assertion in debug
builds, undefined behaviour in others. -/
def debugUnreachable {α : Type} : PM α := fun env _ =>
  .error (if env.debug then .assert else .unreachable)

/-- `advance_on_same_line` (json.cpp:453-458). -/
def advanceSame (n : Nat) : PM Unit := do
  HM.advance n
  HM.modify fun x => { x with lineCodeUnit := x.lineCodeUnit + n }

/-- The body of the loop in `advance` (json.cpp:462-476); the local variable is `amount`. -/
def advanceStep (amount : Nat) : PM (Nat ⊕ Unit) :=
  if amount = 0 then pure (.inr ())
  else do
    let r ← HM.rem
    match (r.take amount).findIdx? (· == 0x0A) with
    | none => do
      advanceSame amount
      pure (.inr ())
    | some newline => do
      HM.advance (newline + 1)
      HM.modify fun x => { x with line := x.line + 1, lineCodeUnit := 0 }
      HM.dassert (amount ≥ newline + 1)
      pure (.inl (amount - (newline + 1)))

/-- `advance` (json.cpp:460-477). -/
def advance (amount : Nat) : PM Unit := HM.loop (amount + 1) advanceStep amount

/-- `consume_line_comment` (json.cpp:507-518). -/
def lineComment : PM Bool := do
  let r ← HM.rem
  let length := Js.matchLineComment r
  if length ≠ 0 then do
    visit (.lineComment (r.take length))
    advanceSame length
    pure true
  else debugUnreachable

/-- `consume_block_comment` (json.cpp:520-535). -/
def blockComment : PM Bool := do
  let r ← HM.rem
  let c := Js.matchBlockComment r
  if c.length ≠ 0 then
    if !c.terminated then fail .comment
    else do
      advance c.length
      let r' ← HM.rem
      visit (.blockComment (r'.take c.length))
      pure true
  else debugUnreachable

/-- The body of the loop in `consume_whitespace_comments` (json.cpp:487-501). -/
def wsStep (_ : Unit) : PM (Unit ⊕ Bool) := do
  let r ← HM.rem
  advance (matchWhitespace r)
  let r ← HM.rem
  if startsWith r b!"//" then do
    if ← lineComment then pure (.inl ()) else pure (.inr false)
  else if startsWith r b!"/*" then do
    if ← blockComment then pure (.inl ()) else pure (.inr false)
  else pure (.inr true)

variable (o : JOptions)

/-- `consume_whitespace_comments` (json.cpp:479-505). -/
def consumeWs : PM Bool := do
  let r ← HM.rem
  if !o.allowComments then do
    advance (matchWhitespace r)
    pure true
  else HM.loop (r.length + 1) wsStep ()

/-- The call of the visitor in `consume_escape` (json.cpp:665-678); `text` is the escape sequence. -/
def escapePayload (text : Bytes) (value : Nat) : Payload :=
  match o.escapes with
  | .none => .escape text
  | .parse => .escapeValue text value
  | .parseEncode => .escapeUnits text value (Utf8.encode8 value)

/-- `consume_escape` (json.cpp:654-682). -/
def consumeEscape : PM Bool := do
  let r ← HM.rem
  let e ← HM.lift (matchEscapeSequence r (o.escapes ≠ .none))
  if e.length = 0 then fail .illegal_escape
  else match e.value with
    | none => fail .illegal_escape
    | some v => do
      visit (escapePayload o (r.take e.length) v)
      advanceSame e.length
      pure true

/-- `flush` in `consume_string` (json.cpp:610-616); the caller sets `length` to zero. -/
def flush (length : Nat) : PM Unit :=
  if length ≠ 0 then do
    let r ← HM.rem
    visit (.literal (r.take length))
    advanceSame length
  else pure ()

/-- The body of the loop in `consume_string` (json.cpp:618-651); the local variable is `length`. -/
def stringStep (property : Bool) (length : Nat) : PM (Nat ⊕ Bool) := do
  let r ← HM.rem
  match r[length]? with
  | none => do
    let b ← fail .unterminated_string
    pure (.inr b)
  | some c =>
    if c = c!"\"" then do
      flush length
      visit (if property then .popProperty else .popString)
      advanceSame 1
      pure (.inr true)
    else if c = c!"\\" then do
      flush length
      if ← consumeEscape o then pure (.inl 0) else pure (.inr false)
    else if c < 0x20 then do
      flush length
      let b ← fail .illegal_character
      pure (.inr b)
    else pure (.inl (length + 1))

/-- `consume_string` (json.cpp:594-652). -/
def consumeString (property : Bool) : PM Bool := do
  let r ← HM.rem
  if !startsWith r b!"\"" then debugUnreachable
  else do
    visit (if property then .pushProperty else .pushString)
    advanceSame 1
    HM.loop (r.length + 1) (stringStep o property) 0

/-- `consume_number` (json.cpp:684-709).  `std::strtod` succeeds because the text begins with a
number. -/
def consumeNumber : PM Bool := do
  let r ← HM.rem
  let n := matchNumber r
  if n.length = 0 ∨ n.erroneous then fail .illegal_number
  else do
    visit (if o.parseNumbers then .numberValue (r.take n.length) r else .number (r.take n.length))
    advanceSame n.length
    pure true

/-- `consume_member` (json.cpp:754-782); `value` is `consume_value`. -/
def consumeMember (value : PM Bool) : PM Bool := do
  if !(← consumeString o true) then pure false
  else if !(← consumeWs o) then pure false
  else do
    let r ← HM.rem
    if !startsWith r b!":" then fail .valueless_member
    else do
      advanceSame 1
      if !(← consumeWs o) then pure false
      else do
        let r ← HM.rem
        if r.isEmpty || startsWith r b!"}" || startsWith r b!"," then fail .valueless_member
        else value

/-- The end of an iteration of the loops in `consume_object` and `consume_array`. -/
def again (m : PM Bool) : PM (Bool ⊕ Bool) := do
  if ← m then pure (.inl false) else pure (.inr false)

/-- `consume_whitespace_comments() && m` -/
def afterWs (m : PM Bool) : PM Bool := do
  if ← consumeWs o then m else pure false

/-- An iteration of the loop in `consume_object` after whitespace (json.cpp:727-747), or of the one in
`consume_array` (json.cpp:803-823), which differs only in the closing bracket, the call of the visitor
for it, and in what `item` is. -/
def listNext (close : Bytes) (pop : Payload) (item : PM Bool) (first : Bool) : PM (Bool ⊕ Bool) := do
  let r ← HM.rem
  if startsWith r close then do
    visit pop
    advanceSame 1
    pure (.inr true)
  else if first then again item
  else if startsWith r b!"," then do
    advanceSame 1
    again (afterWs o item)
  else do
    let b ← fail .illegal_character
    pure (.inr b)

/-- The body of the two loops; `err` is the error at the end of the source. -/
def listStep (close : Bytes) (pop : Payload) (err : JError) (item : PM Bool) (first : Bool) :
    PM (Bool ⊕ Bool) := do
  if ← HM.eof then do
    let b ← fail err
    pure (.inr b)
  else if !(← consumeWs o) then pure (.inr false)
  else listNext o close pop item first

/-- The body of the loop in `consume_object` (json.cpp:723-751); the local variable is
`first_member`. -/
def objectStep (value : PM Bool) : Bool → PM (Bool ⊕ Bool) :=
  listStep o b!"}" .popObject .unterminated_object (consumeMember o value)

/-- `consume_object` (json.cpp:711-752); the condition at its beginning was tested by the caller. -/
def consumeObject (value : PM Bool) : PM Bool := do
  let r ← HM.rem
  visit .pushObject
  advanceSame 1
  HM.loop (r.length + 1) (objectStep o value) true

/-- The body of the loop in `consume_array` (json.cpp:799-827); the local variable is
`first_element`. -/
def arrayStep (value : PM Bool) : Bool → PM (Bool ⊕ Bool) :=
  listStep o b!"]" .popArray .unterminated_array value

/-- `consume_array` (json.cpp:784-828); the condition at its beginning was tested by the caller. -/
def consumeArray (value : PM Bool) : PM Bool := do
  let r ← HM.rem
  visit .pushArray
  advanceSame 1
  if !(← consumeWs o) then pure false
  else HM.loop (r.length + 1) (arrayStep o value) true

/-- A literal in `consume_value` (json.cpp:566-589). -/
def literal (text : Bytes) (p : Payload) : PM Bool := do
  let r ← HM.rem
  if startsWith r text then do
    visit p
    advanceSame text.length
    pure true
  else pure false

/-- `consume_value` (json.cpp:537-592).  The fuel bounds the depth of the recursion; the limited
stack of a real machine is not modelled. -/
def consumeValue : Nat → PM Bool
  | 0 => HM.fault .outOfFuel
  | fuel + 1 => do
    let r ← HM.rem
    match r with
    | [] => pure false
    | c :: _ =>
      if c = c!"\"" then consumeString o false
      else if c = c!"[" then consumeArray o (consumeValue fuel)
      else if c = c!"{" then consumeObject o (consumeValue fuel)
      else if c = c!"-" || isDigit c then consumeNumber o
      else if c = c!"t" then literal b!"true" (.boolean true)
      else if c = c!"f" then literal b!"false" (.boolean false)
      else if c = c!"n" then literal b!"null" .null
      else fail .illegal_escape

/-- `operator()` (json.cpp:441-445). -/
def run : PM Bool := do
  if ← consumeWs o then do
    let r ← HM.rem
    if ← consumeValue o (r.length + 1) then consumeWs o
    else pure false
  else pure false

end Parser

/-- `parse_json` (json.cpp:855-867): the result and the calls of the visitor. -/
def parseJson (debug : Bool) (o : JOptions) (src : Bytes) : Except Fault (Bool × List Event) :=
  match Parser.run o ⟨debug, ⟨false, false⟩, src⟩ ⟨src, 0, [], {}⟩ with
  | .ok (b, s) => .ok (b, s.ext.events)
  | .error f => .error f

end Ulight.Json
