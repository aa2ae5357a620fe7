import Verif.Hl.Base
import Verif.Parse.Utils
import Verif.Parse.Numbers

/-!
# COWEL (src/main/cpp/lang/cowel.cpp)

The functions of the highlighter are mutually recursive.  Here, they have a parameter `again` for the
calls that close the cycle: the content of a group after its opening parenthesis, and text after an
opening brace or quotation mark.
-/

namespace Ulight.Cowel

/-- `is_cowel_escapeable` (cowel.hpp:17). -/
def isEscapeable (c : UInt8) : Bool := (b!"{}\\\"'+\r\n").contains c

/-- `is_horizontal_whitespace` (cowel.hpp:21). -/
def isHorizontal (c : UInt8) : Bool := ([0x20, 0x09, 0x0C] : Bytes).contains c

/-- `is_cowel_identifier_start` (cowel.hpp:26). -/
def isIdStart (c : UInt8) : Bool := isAlpha c || c = c!"_"

/-- `is_cowel_identifier` (cowel.hpp:30). -/
def isId (c : UInt8) : Bool := isIdStart c || isDigit c

/-- `is_cowel_ascii_reserved_escapable` (cowel.hpp:34-35). -/
def isReservedEscapable (c : UInt8) : Bool :=
  c < 0x80 && !isEscapeable c && !isIdStart c && !(b!":*( \n\r").contains c

/-- `is_character_name` (unicode_chars.hpp:133-134). -/
def isCharacterName (c : UInt8) : Bool := isUpper c || isDigit c || c = c!" " || c = c!"-"

/-- `match_char` in `match_numeric_char_escape` (cowel.cpp:33-46); the result is the new
`case_decision`. -/
def matchHex (decision : Int) (c : UInt8) : Option Int :=
  if isDigit c then some decision
  else if c ≥ c!"A" && c ≤ c!"F" && decision ≥ 0 then some 1
  else if c ≥ c!"a" && c ≤ c!"f" && decision ≤ 0 then some (-1)
  else none

/-- The number of characters for which `match_char` succeeds. -/
def hexRun : Int → Bytes → Nat
  | _, [] => 0
  | d, c :: t =>
    match matchHex d c with
    | some d' => hexRun d' t + 1
    | none => 0

/-- `match_numeric_char_escape` (cowel.cpp:27-61). -/
def matchNumericEscape (s : Bytes) : Nat :=
  if s.length < 6 || !startsWith s b!"\\+" then 0
  else if s.length < 10 then if hexRun 0 ((s.drop 2).take 4) = 4 then 6 else 0
  else
    let k := hexRun 0 ((s.drop 2).take 8)
    if k = 8 then 10 else if k + 2 ≥ 6 then 6 else 0

/-- `match_identifier` (cowel.cpp:65-68). -/
def matchIdentifier (s : Bytes) : Nat := Ascii.length_if_head_tail s isIdStart isId

/-- `Escape_Result` (cowel.hpp:68-76). -/
structure EscapeResult where
  length : Nat := 0
  reserved : Bool := false
  deriving DecidableEq, Repr

/-- The case of a character name in `match_escape` (cowel.cpp:86-105). -/
def matchNameEscape (s : Bytes) : EscapeResult :=
  match Ascii.find_if s (fun c => c = c!"'" || c = 0x0D || c = 0x0A) 2 with
  | none => ⟨2, true⟩
  | some k =>
    if s[k]? ≠ some c!"'" then ⟨2, true⟩
    else if k = 2 then ⟨3, true⟩
    else
      let name := (s.drop 2).take (k - 2)
      if name.head? = some c!" " || name.getLast? = some c!" " || !name.all isCharacterName then ⟨k + 1, true⟩
      else ⟨k + 1, false⟩

/-- `match_escape` (cowel.cpp:70-123).  The debug assertion `is_ascii(str[1])` (cowel.cpp:111) follows from
`is_cowel_escapeable(str[1])`. -/
def matchEscape (s : Bytes) : EscapeResult :=
  if s[0]? ≠ some c!"\\" then {}
  else
    match s[1]? with
    | none => ⟨1, true⟩
    | some c =>
      if isEscapeable c then
        if c = c!"+" then
          if matchNumericEscape s ≠ 0 then ⟨matchNumericEscape s, false⟩ else ⟨2, true⟩
        else if c = c!"'" then matchNameEscape s
        else if startsWith s b!"\\\r\n" then ⟨3, false⟩
        else ⟨2, false⟩
      else if !(c < 0x80) then ⟨(Utf8.decodeOrReplacement (s.drop 1)).2 + 1, true⟩
      else if isReservedEscapable c then ⟨2, true⟩
      else {}

/-- `match_ellipsis` (cowel.cpp:125-129). -/
def matchEllipsis (s : Bytes) : Nat := if startsWith s b!"..." then 3 else 0

/-- `match_whitespace` (cowel.cpp:131-134). -/
def matchWhitespace (s : Bytes) : Nat := Ascii.length_if s isHtmlWhitespace

/-- `match_line_comment` (cowel.cpp:136-147). -/
def matchLineComment (s : Bytes) : Nat :=
  if !startsWith s b!"\\:" then 0 else Ascii.length_if_not s (fun c => c = 0x0D || c = 0x0A) 2

/-- `Comment_Result` (cowel.hpp:93-102). -/
structure CommentResult where
  length : Nat := 0
  terminated : Bool := false
  deriving DecidableEq, Repr

/-- `match_block_comment` (cowel.cpp:149-164). -/
def matchBlockComment (s : Bytes) : CommentResult :=
  if !startsWith s b!"\\*" then {}
  else
    match findSub b!"*\\" (s.drop 2) with
    | none => ⟨s.length, false⟩
    | some k => ⟨k + 2 + 2, true⟩

/-- The options of `match_number` (cowel.cpp:168-182). -/
def numberOptions : NumberOptions := {
  minus := true
  prefixes := [⟨b!"0b", 2, false⟩, ⟨b!"0o", 8, false⟩, ⟨b!"0x", 16, false⟩]
  exponentSeparators := [b!"E+", b!"E-", b!"E", b!"e+", b!"e-", b!"e"]
}

/-- The loop of `match_reserved_number` (cowel.cpp:195-207). -/
def reservedRun : Bytes → Nat
  | [] => 0
  | [c] => if isAlnum c || c = c!"." then 1 else 0
  | c :: d :: t =>
    if (c = c!"e" || c = c!"E") && (d = c!"+" || d = c!"-") then reservedRun t + 2
    else if isAlnum c || c = c!"." then reservedRun (d :: t) + 1
    else 0

/-- `match_reserved_number` (cowel.cpp:186-209). -/
def matchReservedNumber (s : Bytes) : Nat :=
  match s with
  | [] => 0
  | c :: t => if c = c!"." then reservedRun t + 1 else reservedRun (c :: t)

/-- The loop of `match_blank` (cowel.cpp:213-229). -/
def blankLoop : Nat → Bytes → Nat
  | 0, _ => 0
  | fuel + 1, s =>
    if matchWhitespace s ≠ 0 then matchWhitespace s + blankLoop fuel (s.drop (matchWhitespace s))
    else if matchLineComment s ≠ 0 then matchLineComment s + blankLoop fuel (s.drop (matchLineComment s))
    else if (matchBlockComment s).length ≠ 0 then
      (matchBlockComment s).length + blankLoop fuel (s.drop (matchBlockComment s).length)
    else 0

/-- `match_blank` (cowel.cpp:211-230).  The fuel is enough because every iteration moves on. -/
def matchBlank (s : Bytes) : Nat := blankLoop (s.length + 1) s

/-- The loop of `match_quoted_member_name` (cowel.cpp:239-260); `none` if the closing quotation mark is
missing. -/
def quotedLoop : Nat → Bytes → Option Nat
  | 0, _ => none
  | _ + 1, [] => none
  | fuel + 1, c :: t =>
    if c = c!"\"" then some 1
    else if c = c!"\\" then
      if (matchEscape (c :: t)).length ≠ 0 then
        (quotedLoop fuel ((c :: t).drop (matchEscape (c :: t)).length)).map ((matchEscape (c :: t)).length + ·)
      else if matchLineComment (c :: t) ≠ 0 then
        (quotedLoop fuel ((c :: t).drop (matchLineComment (c :: t)))).map (matchLineComment (c :: t) + ·)
      else if (matchBlockComment (c :: t)).length ≠ 0 then
        (quotedLoop fuel ((c :: t).drop (matchBlockComment (c :: t)).length)).map
          ((matchBlockComment (c :: t)).length + ·)
      else none
    else (quotedLoop fuel t).map (1 + ·)

/-- `match_quoted_member_name` (cowel.cpp:233-262). -/
def matchQuotedName (s : Bytes) : Nat :=
  match s with
  | [] => 0
  | c :: t =>
    if c = c!"\"" then
      match quotedLoop (t.length + 1) t with
      | some n => n + 1
      | none => 0
    else 0

/-- `match_fixed_token` (cowel.cpp:304-330).  A `Fixed_Token_Type` is modelled by its code and its highlight
type (cowel.hpp:37-58). -/
def fixedToken (s : Bytes) : Option (Bytes × HT) :=
  match s[0]? with
  | none => none
  | some c =>
    if c = c!"(" then some (b!"(", .symbol_parens)
    else if c = c!")" then some (b!")", .symbol_parens)
    else if c = c!"{" then some (b!"{", .symbol_brace)
    else if c = c!"}" then some (b!"}", .symbol_brace)
    else if c = c!"," then some (b!",", .symbol_punc)
    else if c = c!"=" then
      if startsWith s b!"==" then some (b!"==", .symbol_op) else some (b!"=", .symbol_punc)
    else if c = c!"|" then if startsWith s b!"||" then some (b!"||", .symbol_op) else none
    else if c = c!"&" then if startsWith s b!"&&" then some (b!"&&", .symbol_op) else none
    else if c = c!"!" then
      if startsWith s b!"!=" then some (b!"!=", .symbol_op) else some (b!"!", .symbol_op)
    else if c = c!"<" then
      if startsWith s b!"<=" then some (b!"<=", .symbol_op) else some (b!"<", .symbol_op)
    else if c = c!">" then
      if startsWith s b!">=" then some (b!">=", .symbol_op) else some (b!">", .symbol_op)
    else if c = c!"+" then some (b!"+", .symbol_op)
    else if c = c!"-" then some (b!"-", .symbol_op)
    else if c = c!"*" then some (b!"*", .symbol_op)
    else if c = c!"/" then some (b!"/", .symbol_op)
    else if c = c!"%" then some (b!"%", .symbol_op)
    else if c = c!"~" then some (b!"~", .symbol_op)
    else none

/-- A token for which `is_group_member_token` (cowel.cpp:290-301). -/
def memberToken (s : Bytes) : Option (Bytes × HT) :=
  (fixedToken s).filter fun t => !([b!"(", b!")", b!"{", b!"}", b!","]).contains t.1

/-- `Text_Kind` (cowel.cpp:332-337). -/
inductive Kind where
  | document
  | memberName
  | string
  | block
  deriving DecidableEq, Repr

/-- The calls that close the cycle of recursion. -/
inductive Call where
  | group
  | text (k : Kind)

/-- The loop of `expect_text` (cowel.cpp:380-406): the length and the new `brace_level`.  Simplified:
`brace_level` does not overflow. -/
def textScan (k : Kind) : Int → Bytes → Nat × Int
  | level, [] => (0, level)
  | level, c :: t =>
    if c = c!"\\" then (0, level)
    else
      match k with
      | .document => ((textScan k level t).1 + 1, (textScan k level t).2)
      | .memberName | .string =>
        if c = c!"\"" then (0, level) else ((textScan k level t).1 + 1, (textScan k level t).2)
      | .block =>
        if c = c!"}" then
          if level = 0 then (0, -1)
          else ((textScan k (level - 1) t).1 + 1, (textScan k (level - 1) t).2)
        else if c = c!"{" then ((textScan k (level + 1) t).1 + 1, (textScan k (level + 1) t).2)
        else ((textScan k level t).1 + 1, (textScan k level t).2)

/-- How text is highlighted (cowel.cpp:413-428). -/
def textType : Kind → Option HT
  | .document | .block => none
  | .memberName => some .markup_attr
  | .string => some .string

/-- `expect_text` (cowel.cpp:374-430), after the scan. -/
def emitText (k : Kind) (n : Nat) : HM Unit Bool :=
  if n = 0 then pure false
  else
    match textType k with
    | none => do
      HM.advance n
      pure true
    | some ty => do
      HM.emitAdv n ty
      pure true

/-- `expect_escape` (cowel.cpp:479-498). -/
def expectEscape : HM Unit Bool := do
  let r ← HM.rem
  let e := matchEscape r
  if e.length = 0 then pure false
  else if (r.take e.length).getLast? = some 0x0A || (r.take e.length).getLast? = some 0x0D then do
    HM.emitAdv 1 .string_escape
    pure true
  else do
    HM.emitAdv e.length (if e.reserved then .error else .string_escape)
    pure true

/-- `expect_line_comment` (cowel.cpp:500-508) with `highlight_line_comment` (cowel.cpp:872-879). -/
def expectLineComment : HM Unit Bool := do
  let r ← HM.rem
  let c := matchLineComment r
  if c ≠ 0 then do
    HM.hassert (c ≥ 2)
    HM.emitAdv 2 .comment_delim
    HM.emitAdvIf (c - 2) .comment
    pure true
  else pure false

/-- `expect_block_comment` (cowel.cpp:510-518) with `highlight_block_comment` (cowel.cpp:881-894). -/
def expectBlockComment : HM Unit Bool := do
  let r ← HM.rem
  let c := matchBlockComment r
  if c.length ≠ 0 then do
    HM.hassert (c.length ≥ 2)
    HM.emitAdv 2 .comment_delim
    if c.terminated then do
      HM.emitAdvIf (c.length - 4) .comment
      HM.emitAdv 2 .comment_delim
      pure true
    else do
      HM.emitAdvIf (c.length - 2) .comment
      pure true
  else pure false

/-- One iteration of `consume_blank` (cowel.cpp:846-853) or `consume_horizontal_blank`
(cowel.cpp:862-869). -/
def blankStep (space : UInt8 → Bool) (_ : Unit) : HM Unit (Unit ⊕ Unit) := do
  let r ← HM.rem
  if r.isEmpty then pure (.inr ())
  else do
    HM.advance (Ascii.length_if r space)
    if ← HM.or expectLineComment expectBlockComment then pure (.inl ())
    else pure (.inr ())

/-- `consume_blank` (cowel.cpp:844-854). -/
def consumeBlank : HM Unit Unit := do
  let r ← HM.rem
  HM.loop (r.length + 1) (blankStep isHtmlWhitespace) ()

/-- `consume_horizontal_blank` (cowel.cpp:860-870). -/
def consumeHorizontalBlank : HM Unit Unit := do
  let r ← HM.rem
  HM.loop (r.length + 1) (blankStep isHorizontal) ()

/-- `emit_and_advance` of a fixed token. -/
def emitFixed (t : Bytes × HT) : HM Unit Unit := HM.emitAdv t.1.length t.2

/-- `expect_ellipsis` (cowel.cpp:698-706). -/
def expectEllipsis : HM Unit Bool := do
  let r ← HM.rem
  if matchEllipsis r ≠ 0 then do
    HM.emitAdv (matchEllipsis r) .name_attr
    pure true
  else pure false

/-- The name of a function after `fun` (cowel.cpp:765-768). -/
def functionName : HM Unit Unit := do
  let r ← HM.rem
  HM.emitAdvIf (matchIdentifier r) .name_function_decl

/-- `expect_identifier_like` (cowel.cpp:739-785). -/
def expectIdentifierLike : HM Unit Bool := do
  let r ← HM.rem
  if startsWith r b!"-" then
    if r.take (matchIdentifier (r.drop 1) + 1) = b!"-infinity" then do
      HM.emitAdv 1 .value_delim
      HM.emitAdv 8 .value
      pure true
    else pure false
  else
    let n := matchIdentifier r
    if n = 0 then pure false
    else do
      let str := r.take n
      HM.dassert (!(str.head?.any isDigit))
      if str = b!"fun" then do
        HM.emitAdv n .keyword
        consumeHorizontalBlank
        functionName
        pure true
      else if str = b!"unit" || str = b!"null" || str = b!"let" then do
        HM.emitAdv n .keyword
        pure true
      else if str = b!"true" then do
        HM.emitAdv 4 .bool_
        pure true
      else if str = b!"false" then do
        HM.emitAdv 5 .bool_
        pure true
      else if str = b!"infinity" then do
        HM.emitAdv 8 .value
        pure true
      else do
        HM.emitAdv n .name_var
        pure true

/-- `expect_number` (cowel.cpp:787-803). -/
def expectNumber : HM Unit Bool := do
  let r ← HM.rem
  let n := matchReservedNumber r
  if n = 0 then pure false
  else do
    let number := matchCommonNumber (r.take n) numberOptions
    if number.length ≠ n || number.erroneous then do
      HM.emitAdv n .error
      pure true
    else do
      HM.highlightNumber number none
      pure true

/-- `if (remainder.starts_with(c)) emit_and_advance(1, ty)` -/
def emitIfStarts (w : Bytes) (ty : HT) : HM Unit Bool := do
  let r ← HM.rem
  if startsWith r w then do
    HM.emitAdv w.length ty
    pure true
  else pure false

section

variable (again : Call → HM Unit Unit)

/-- `expect_quoted_string` (cowel.cpp:805-816), `expect_quoted_member_name` (cowel.cpp:818-829) and
`expect_block` (cowel.cpp:831-842), with the delimiters. -/
def enclosed (first last : Bytes) (ty : HT) (k : Kind) : HM Unit Bool := do
  if ← emitIfStarts first ty then do
    again (.text k)
    let _ ← emitIfStarts last ty
    pure true
  else pure false

/-- `expect_quoted_string` (cowel.cpp:805-816). -/
def expectQuotedString : HM Unit Bool := enclosed again b!"\"" b!"\"" .string_delim .string

/-- `expect_quoted_member_name` (cowel.cpp:818-829). -/
def expectQuotedName : HM Unit Bool := enclosed again b!"\"" b!"\"" .markup_attr_delim .memberName

/-- `expect_block` (cowel.cpp:831-842). -/
def expectBlock : HM Unit Bool := enclosed again b!"{" b!"}" .symbol_brace .block

/-- `expect_group` (cowel.cpp:578-636); the loop is `groupRest`. -/
def expectGroup : HM Unit Bool := do
  if ← emitIfStarts b!"(" .symbol_parens then do
    again .group
    pure true
  else pure false

/-- `expect_primary_value` (cowel.cpp:730-737). -/
def expectPrimary : HM Unit Bool :=
  HM.or expectIdentifierLike (HM.or expectNumber (HM.or (expectQuotedString again)
    (HM.or (expectBlock again) (expectGroup again))))

/-- The condition for `expect_directive_call` (cowel.cpp:710-721). -/
def isCall (r : Bytes) : Bool :=
  let n := matchIdentifier r
  n ≠ 0 && (r[n + matchBlank (r.drop n)]?).any (fun c => c = c!"(" || c = c!"{")

/-- `expect_directive_call` (cowel.cpp:708-728). -/
def expectCall : HM Unit Bool := do
  let r ← HM.rem
  if isCall r then do
    HM.emitAdv (matchIdentifier r) .markup_tag
    consumeBlank
    let _ ← expectGroup again
    consumeBlank
    let _ ← expectBlock again
    pure true
  else pure false

/-- `expect_expression` (cowel.cpp:693-696). -/
def expectExpression : HM Unit Bool := HM.or (expectCall again) (expectPrimary again)

/-- `expect_group_member` for a member without a name (cowel.cpp:669-690). -/
def memberValue : HM Unit Bool := do
  let r ← HM.rem
  HM.advance (matchWhitespace r)
  if ← HM.or expectEllipsis (expectExpression again) then pure true
  else do
    let r ← HM.rem
    match memberToken r with
    | some t => do
      emitFixed t
      pure true
    | none => pure false

/-- The length of the name of a member (cowel.cpp:640-645). -/
def nameLength (r : Bytes) : Nat := if matchIdentifier r ≠ 0 then matchIdentifier r else matchQuotedName r

/-- Whether `=` follows the name (cowel.cpp:646-650). -/
def isNamed (r : Bytes) : Bool :=
  let n := nameLength r
  let after := r.drop (n + matchBlank (r.drop n))
  n ≠ 0 && after[0]? = some c!"=" && after[1]? ≠ some c!"="

/-- The name of a member (cowel.cpp:651-653). -/
def memberName (n : Nat) : HM Unit Unit := do
  if ← expectQuotedName again then pure ()
  else HM.emitAdv n .markup_attr

/-- `expect_group_member` (cowel.cpp:638-691). -/
def expectMember : HM Unit Bool := do
  let r ← HM.rem
  if isNamed r then do
    memberName again (nameLength r)
    consumeBlank
    let r ← HM.rem
    HM.hassert (startsWith r b!"=")
    HM.emitAdv 1 .symbol_punc
    consumeBlank
    let _ ← expectExpression again
    pure true
  else memberValue again

/-- What happens if there is no member (cowel.cpp:616-632). -/
def recover : HM Unit (Unit ⊕ Unit) := do
  let r ← HM.rem
  match Ascii.find_if r (b!",})").contains with
  | none => do
    HM.advance r.length
    pure (.inr ())
  | some k => do
    HM.advance k
    let r ← HM.rem
    if r.head? = some c!"," then pure (.inl ())
    else do
      HM.emitAdv 1 (if r.head? = some c!"}" then .symbol_brace else .symbol_parens)
      pure (.inr ())

/-- The end of an iteration in `expect_group` (cowel.cpp:592-632). -/
def groupNext (member : Bool) : HM Unit (Unit ⊕ Unit) := do
  let r ← HM.rem
  if r.isEmpty then pure (.inr ())
  else if startsWith r b!")" then do
    HM.emitAdv 1 .symbol_parens
    pure (.inr ())
  else if startsWith r b!"," then do
    HM.emitAdv 1 .symbol_punc
    pure (.inl ())
  else if startsWith r b!"}" then pure (.inr ())
  else if member then pure (.inl ())
  else recover

/-- One iteration of the loop in `expect_group` (cowel.cpp:585-633). -/
def groupStep (_ : Unit) : HM Unit (Unit ⊕ Unit) := do
  let r ← HM.rem
  if r.isEmpty then pure (.inr ())
  else do
    consumeBlank
    let member ← expectMember again
    consumeBlank
    groupNext member

/-- `expect_group` after the parenthesis (cowel.cpp:585-635). -/
def groupRest : HM Unit Unit := do
  let r ← HM.rem
  HM.loop (r.length + 1) (groupStep again) ()

/-- A fixed token, or an error (cowel.cpp:465-473, 548-556). -/
def soup : HM Unit Unit := do
  let r ← HM.rem
  match memberToken r with
  | some t => emitFixed t
  | none => HM.emitAdv 1 .error

/-- One iteration of the loop in `expect_expression_splice` (cowel.cpp:528-557). -/
def spliceStep (_ : Unit) : HM Unit (Unit ⊕ Unit) := do
  let r ← HM.rem
  if r.isEmpty then pure (.inr ())
  else do
    consumeBlank
    let _ ← expectExpression again
    consumeBlank
    let r ← HM.rem
    if r.isEmpty then pure (.inr ())
    else if startsWith r b!")" then do
      HM.emitAdv 1 .string_interpolation_delim
      pure (.inr ())
    else if startsWith r b!"}" then pure (.inr ())
    else do
      soup
      pure (.inl ())

/-- `expect_expression_splice` (cowel.cpp:520-561). -/
def expectSplice : HM Unit Bool := do
  if ← emitIfStarts b!"\\(" .string_interpolation_delim then do
    let r ← HM.rem
    HM.loop (r.length + 1) (spliceStep again) ()
    pure true
  else pure false

/-- One iteration of the loop in `expect_expression_line_splice` (cowel.cpp:444-474). -/
def lineStep (_ : Unit) : HM Unit (Unit ⊕ Unit) := do
  let r ← HM.rem
  if r.isEmpty then pure (.inr ())
  else if startsWith r b!"\r\n" then do
    HM.advance 2
    pure (.inr ())
  else if startsWith r b!"\n" || startsWith r b!"\r" then do
    HM.advance 1
    pure (.inr ())
  else if ← HM.or expectEscape (HM.or expectLineComment (HM.or expectBlockComment (expectExpression again))) then
    pure (.inl ())
  else if matchWhitespace r ≠ 0 then do
    HM.advance (matchWhitespace r)
    pure (.inl ())
  else do
    soup
    pure (.inl ())

/-- `expect_expression_line_splice` (cowel.cpp:432-477). -/
def expectLineSplice : HM Unit Bool := do
  let r ← HM.rem
  if startsWith r b!"\\ " && (r.drop 2).any (fun c => c = 0x0D || c = 0x0A) then do
    HM.emitAdv 2 .string_interpolation_delim
    let r ← HM.rem
    HM.loop (r.length + 1) (lineStep again) ()
    pure true
  else pure false

/-- `expect_directive_splice` (cowel.cpp:563-576). -/
def expectDirective : HM Unit Bool := do
  let r ← HM.rem
  if startsWith r b!"\\" && matchIdentifier (r.drop 1) ≠ 0 then do
    HM.emitAdv (1 + matchIdentifier (r.drop 1)) .markup_tag
    let _ ← expectGroup again
    let _ ← expectBlock again
    pure true
  else pure false

/-- `expect_content` (cowel.cpp:362-372) without the last alternative. -/
def expectMarkup : HM Unit Bool :=
  HM.or expectEscape (HM.or (expectDirective again) (HM.or (expectSplice again) (HM.or (expectLineSplice again)
    (HM.or expectLineComment expectBlockComment))))

/-- One iteration of the loop in `consume_markup_element_sequence` (cowel.cpp:359).  The state is
`brace_level`. -/
def textStep (k : Kind) (level : Int) : HM Unit (Int ⊕ Unit) := do
  if level ≥ 0 then do
    HM.hassert (level ≥ 0)
    if ← expectMarkup again then pure (.inl level)
    else do
      let r ← HM.rem
      let t := textScan k level r
      if ← emitText k t.1 then pure (.inl t.2)
      else pure (.inr ())
  else pure (.inr ())

/-- `consume_markup_element_sequence` (cowel.cpp:356-360).  The fuel has one more for the iteration in which
`brace_level` becomes negative. -/
def consumeText (k : Kind) : HM Unit Unit := do
  let r ← HM.rem
  HM.loop (r.length + 1) (textStep again k) 0

end

/-- The calls that close the cycle.  The fuel is enough because every call is after an opening delimiter. -/
def call : Nat → Call → HM Unit Unit
  | 0, _ => HM.fault .outOfFuel
  | fuel + 1, .group => groupRest (call fuel)
  | fuel + 1, .text k => consumeText (call fuel) k

/-- `operator()` (cowel.cpp:350-354). -/
def run : HM Unit Bool := do
  let r ← HM.rem
  call (r.length + 1) (.text .document)
  pure true

/-- `highlight_cowel` (cowel.cpp:900-908). -/
def highlight : Highlight := HM.run run ()

end Ulight.Cowel
