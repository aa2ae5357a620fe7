import Verif.Lang.JsCommon

/-!
# JSON: matching and highlighting (src/main/cpp/lang/json.cpp)
-/

namespace Ulight.Json

/-- `is_json_whitespace` (include/ulight/impl/lang/json.hpp:14). -/
def isWhitespace (c : UInt8) : Bool := c ∈ ([0x20, 0x09, 0x0C, 0x0A, 0x0D] : Bytes)

/-- `is_json_escapable` (include/ulight/impl/lang/json.hpp:16). -/
def isEscapable (c : UInt8) : Bool := c ∈ b!"\"\\/bfnrtu"

/-- `Identifier_Type` (json.hpp:28-33). -/
inductive IdType where
  | normal | true_ | false_ | null
  deriving DecidableEq, Repr

/-- `match_identifier` (json.cpp:23-36): length and type. -/
def matchIdentifier (s : Bytes) : Nat × IdType :=
  match s with
  | [] => (0, .normal)
  | c :: _ =>
    if !isAlpha c then (0, .normal)
    else
      let length := Ascii.length_if s isAlnum 1
      let id := s.take length
      (length, if id = b!"null" then .null else if id = b!"true" then .true_
        else if id = b!"false" then .false_ else .normal)

/-- `Escape_Result` (json.hpp:54-75): `value` is `none` for `no_value`. -/
structure EscapeResult where
  length : Nat := 0
  value : Option Nat := none
  deriving DecidableEq, Repr

/-- `match_escape_sequence` (json.cpp:38-80); `parse` is false for `Escape_Policy::match_only`.
`std::from_chars` on four hexadecimal digits is `parseUintDigits`. -/
def matchEscapeSequence (s : Bytes) (parse : Bool) : Except Fault EscapeResult :=
  match s with
  | a :: b :: _ =>
    if a ≠ c!"\\" ∨ !isEscapable b then .ok {}
    else
      let simple (v : Nat) : Except Fault EscapeResult := .ok ⟨2, some (if parse then v else 0)⟩
      if b = c!"\"" then simple 0x22
      else if b = c!"\\" then simple 0x5C
      else if b = c!"/" then simple 0x2F
      else if b = c!"b" then simple 0x08
      else if b = c!"f" then simple 0x0C
      else if b = c!"n" then simple 0x0A
      else if b = c!"r" then simple 0x0D
      else if b = c!"t" then simple 0x09
      else if b = c!"u" then
        let e := matchCommonEscapeAt .hex_4 s 2
        if e.erroneous then .ok ⟨e.length, none⟩
        else if !parse then .ok ⟨e.length, some 0⟩
        else .ok ⟨e.length, some (hexValue ((s.drop 2).take 4))⟩
      else .error .unreachable
  | _ => .ok {}
where
  /-- `std::from_chars(…, 16)` on hexadecimal digits -/
  hexValue (ds : Bytes) : Nat := ds.foldl (fun v c => v * 16 + digitValue c) 0

/-- `match_digits` (json.cpp:82-85). -/
def matchDigits (s : Bytes) : Nat := Ascii.length_if s isDigit

/-- `match_whitespace` (json.cpp:87-90). -/
def matchWhitespace (s : Bytes) : Nat := Ascii.length_if s isWhitespace

/-- `Number_Result` (json.hpp:99-125). -/
structure JNumber where
  length : Nat := 0
  integer : Nat := 0
  fraction : Nat := 0
  exponent : Nat := 0
  erroneous : Bool := false
  deriving DecidableEq, Repr

/-- The fraction of a number (json.cpp:115-122): its length and whether it is erroneous. -/
def matchFraction (s : Bytes) : Nat × Bool :=
  match s with
  | c :: t =>
    if c = c!"." then
      let n := matchDigits t
      (n + 1, n == 0)
    else (0, false)
  | [] => (0, false)

/-- The exponent of a number (json.cpp:124-136): its length and whether it is erroneous. -/
def matchExponent (s : Bytes) : Nat × Bool :=
  match s with
  | c :: t =>
    if c = c!"e" ∨ c = c!"E" then
      let sign := if startsWith t b!"+" || startsWith t b!"-" then 1 else 0
      let n := matchDigits (t.drop sign)
      (1 + sign + n, n == 0)
    else (0, false)
  | [] => (0, false)

/-- `match_number` (json.cpp:91-147).  The assertion at line 141 holds because `length` is always
advanced together with one of the three parts. -/
def matchNumber (s : Bytes) : JNumber :=
  let sign := if startsWith s b!"-" then 1 else 0
  let s1 := s.drop sign
  let digits := matchDigits s1
  let err1 := digits == 0 || (digits ≥ 2 && startsWith s1 b!"0")
  let s2 := s1.drop digits
  let (fraction, err2) := matchFraction s2
  let (exponent, err3) := matchExponent (s2.drop fraction)
  let length := sign + digits + fraction + exponent
  ⟨length, sign + digits, fraction, exponent, (err1 || err2 || err3) && length != 0⟩

section Highlighter

variable (comments : Bool)

/-- `expect_line_comment` (json.cpp:199-209). -/
def expectLineComment : HM Unit Bool := do
  let r ← HM.rem
  let length := Js.matchLineComment r
  if length ≠ 0 then do
    HM.emitAdv 2 .comment_delim
    HM.emitAdvIf (length - 2) .comment
    pure true
  else pure false

/-- `emit` if the condition holds. -/
def emitWhen (c : Bool) (beg len : Nat) (ty : HT) : HM Unit Unit :=
  if c then HM.emit beg len ty else pure ()

/-- `expect_block_comment` (json.cpp:211-227). -/
def expectBlockComment : HM Unit Bool := do
  let r ← HM.rem
  let b := Js.matchBlockComment r
  if b.length ≠ 0 then do
    let i ← HM.index
    HM.emit i 2 .comment_delim
    let suffix := if b.terminated then 2 else 0
    HM.emitIf (i + 2) (b.length - 2 - suffix) .comment
    emitWhen b.terminated (i + b.length - 2) 2 .comment_delim
    HM.advance b.length
    pure true
  else pure false

/-- The body of the loop in `consume_whitespace_comments` (json.cpp:189-196). -/
def wsStep (_ : Unit) : HM Unit (Unit ⊕ Unit) := do
  let r ← HM.rem
  HM.advance (matchWhitespace r)
  if comments then do
    if ← HM.or expectLineComment expectBlockComment then pure (.inl ()) else pure (.inr ())
  else pure (.inr ())

/-- `consume_whitespace_comments` (json.cpp:187-197). -/
def consumeWs : HM Unit Unit := do
  let r ← HM.rem
  HM.loop (r.length + 1) (wsStep comments) ()

/-- The highlighting of an escape sequence (json.cpp:285-294). -/
def stringEscape : HM Unit Unit := do
  let r ← HM.rem
  let e ← HM.lift (matchEscapeSequence r false)
  if e.length ≠ 0 then HM.emitAdv e.length (if e.value.isNone then .error else .string_escape)
  else HM.emitAdv 1 .error

/-- The body of the loop in `expect_string` (json.cpp:260-306); the local variable is `length`.
`property` says whether the type is `String_Type::property`. -/
def stringStep (property : Bool) (length : Nat) : HM Unit (Nat ⊕ Bool) := do
  let ty : HT := if property then .markup_attr else .string
  let r ← HM.rem
  match r[length]? with
  | none => do
    HM.emitAdvIf length ty
    pure (.inr true)
  | some c =>
    if c = c!"\"" then
      if property then do
        HM.emitAdvIf (length + 1) ty
        pure (.inr true)
      else do
        HM.emitAdvIf length ty
        HM.emitAdv 1 .string_delim
        pure (.inr true)
    else if c = 0x0A ∨ c = 0x0D ∨ c = 0x0B then do
      HM.emitAdvIf length ty
      pure (.inr true)
    else if c = c!"\\" then do
      HM.emitAdvIf length ty
      stringEscape
      pure (.inl 0)
    else if c < 0x20 then do
      HM.emitAdvIf length ty
      HM.emitAdv 1 .error
      pure (.inl 0)
    else pure (.inl (length + 1))

/-- `expect_string` (json.cpp:238-311). -/
def expectString (property : Bool) : HM Unit Bool := do
  let r ← HM.rem
  if !startsWith r b!"\"" then pure false
  else if property then HM.loop (r.length + 1) (stringStep true) 1
  else do
    HM.emitAdv 1 .string_delim
    HM.loop (r.length + 1) (stringStep false) 0

/-- `expect_number` (json.cpp:313-323). -/
def expectNumber : HM Unit Bool := do
  let r ← HM.rem
  let n := matchNumber r
  if n.length ≠ 0 then do
    HM.emitAdv n.length (if n.erroneous then .error else .number)
    pure true
  else pure false

/-- `at_end` in `consume_member` (json.cpp:353-357). -/
def atEnd : HM Unit Bool := do
  consumeWs comments
  let r ← HM.rem
  pure (r.isEmpty || startsWith r b!"}" || startsWith r b!",")

/-- `expect_true_false_null` (json.cpp:407-419). -/
def expectTrueFalseNull : HM Unit Bool := do
  let r ← HM.rem
  let (length, type) := matchIdentifier r
  let ty : HT := match type with
    | .null => .null
    | .true_ => .bool_
    | .false_ => .bool_
    | .normal => .error
  if length ≠ 0 then do
    HM.emitAdv length ty (if ty = .error then .forced else .normal)
    pure false
  else pure false

/-- A call whose result is ignored. -/
def ignore (m : HM Unit Bool) : HM Unit Unit := do
  let _ ← m
  pure ()

/-- `consume_member` (json.cpp:351-376); `value` is `expect_value`. -/
def consumeMember (value : HM Unit Bool) : HM Unit Unit := do
  if ← atEnd comments then pure ()
  else do
    ignore (expectString true)
    if ← atEnd comments then pure ()
    else do
      let r ← HM.rem
      if startsWith r b!":" then do
        HM.emitAdv 1 .symbol_punc
        if ← atEnd comments then pure ()
        else do
          ignore value
          consumeWs comments
      else pure ()

/-- The part of the loop in `expect_object` after the member (json.cpp:334-344). -/
def objectNext : HM Unit (Unit ⊕ Bool) := do
  let r ← HM.rem
  if startsWith r b!"}" then do
    HM.emitAdv 1 .symbol_brace
    pure (.inr true)
  else if startsWith r b!"," then do
    HM.emitAdv 1 .symbol_punc
    pure (.inl ())
  else if !r.isEmpty then do
    HM.emitAdv 1 .error .forced
    pure (.inl ())
  else pure (.inl ())

/-- The body of the loop in `expect_object` (json.cpp:332-345). -/
def objectStep (value : HM Unit Bool) (_ : Unit) : HM Unit (Unit ⊕ Bool) := do
  if ← HM.eof then pure (.inr true)
  else do
    consumeMember comments value
    objectNext

/-- `expect_object` (json.cpp:325-349). -/
def expectObject (value : HM Unit Bool) : HM Unit Bool := do
  let r ← HM.rem
  if !startsWith r b!"{" then pure false
  else do
    HM.emitAdv 1 .symbol_brace
    HM.loop (r.length + 1) (objectStep comments value) ()

/-- The body of the loop in `expect_array` (json.cpp:385-401). -/
def arrayStep (value : HM Unit Bool) (_ : Unit) : HM Unit (Unit ⊕ Bool) := do
  if ← HM.eof then pure (.inr true)
  else do
    consumeWs comments
    let r ← HM.rem
    if startsWith r b!"]" then do
      HM.emitAdv 1 .symbol_square
      pure (.inr true)
    else if startsWith r b!"," then do
      HM.emitAdv 1 .symbol_punc
      pure (.inl ())
    else if ← value then pure (.inl ())
    else if !(← HM.eof) then do
      HM.emitAdv 1 .error .forced
      pure (.inl ())
    else pure (.inl ())

/-- `expect_array` (json.cpp:378-405). -/
def expectArray (value : HM Unit Bool) : HM Unit Bool := do
  let r ← HM.rem
  if !startsWith r b!"[" then pure false
  else do
    HM.emitAdv 1 .symbol_square
    HM.loop (r.length + 1) (arrayStep comments value) ()

/-- `expect_value` (json.cpp:229-236).  The fuel bounds the depth of the recursion; the limited
stack of a real machine is not modelled. -/
def expectValue : Nat → HM Unit Bool
  | 0 => HM.fault .outOfFuel
  | fuel + 1 =>
    HM.or (expectString false) <| HM.or expectNumber <|
      HM.or (expectObject comments (expectValue fuel)) <|
        HM.or (expectArray comments (expectValue fuel)) expectTrueFalseNull

/-- `operator()` (json.cpp:178-184). -/
def run : HM Unit Bool := do
  consumeWs comments
  let r ← HM.rem
  ignore (expectValue comments (r.length + 1))
  consumeWs comments
  pure true

end Highlighter

/-- `highlight_json` (json.cpp:834-843). -/
def highlight : Highlight := fun debug opts src => HM.run (run (!opts.strict)) () debug opts src

/-- `highlight_jsonc` (json.cpp:845-853). -/
def highlightC : Highlight := HM.run (run true) ()

end Ulight.Json
