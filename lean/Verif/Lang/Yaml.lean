import Verif.Hl.Base
import Verif.Search
import Verif.Parse.Numbers
import Verif.Parse.Escapes

/-!
# YAML highlighting (src/main/cpp/lang/yaml.cpp)

The state is the stack of indentations (`Indent_Stack`, yaml.cpp:214-247), its top first.  The
functions of the highlighter are mutually recursive; here, they have a parameter `again` for the calls
that close the cycle.  Loops that advance by one code unit of whitespace at a time are modelled as one
step over the whole run.
-/

namespace Ulight.Yaml

/-- `Indent_Stack` (yaml.cpp:214-247) without its capacity, which `push` checks. -/
abbrev St := List Nat

/-- `is_yaml_whitespace` (yaml.hpp:15) -/
def isWs (c : UInt8) : Bool := b!" \t".contains c

/-- `is_yaml_flow_indicator` (yaml.hpp:18) -/
def isFlowIndicator (c : UInt8) : Bool := b!",[]{}".contains c

/-- `is_yaml_word_char` (yaml.hpp:21) -/
def isWordChar (c : UInt8) : Bool := isAlnum c || c = c!"-"

/-- `is_yaml_plain_terminator` (yaml.hpp:27) -/
def isPlainEnd (c : UInt8) : Bool := b!"\r\n,[]{}#".contains c

/-- `is_yaml_word_terminator` (yaml.hpp:31) -/
def isWordEnd (c : UInt8) : Bool := b!"\r\n,[]{}# \t&*!".contains c

/-- `match_line_break` (yaml.cpp:14-25) -/
def matchLineBreak (s : Bytes) : Nat :=
  if startsWith s b!"\r\n" then 2
  else if (s[0]?).any (fun c => c = 0x0D || c = 0x0A) then 1
  else 0

/-- The loops that count the code units before the next line break (yaml.cpp:473-476, 1308-1311). -/
def lineLength : Bytes → Nat
  | [] => 0
  | c :: t => if matchLineBreak (c :: t) ≠ 0 then 0 else lineLength t + 1

/-- `match_escape_sequence` (yaml.cpp:27-61) -/
def matchEscape (s : Bytes) : Escape :=
  if s.length < 2 || s[0]? ≠ some c!"\\" then ⟨min s.length 1, true⟩
  else
    match s[1]? with
    | none => ⟨1, true⟩
    | some c =>
      if (b!"0abefnrtv\"/\\_NLP \t").contains c then ⟨2, false⟩
      else if c = c!"x" then matchCommonEscapeAt .hex_2 s 2
      else if c = c!"u" then matchCommonEscapeAt .hex_4 s 2
      else if c = c!"U" then matchCommonEscapeAt .hex_8 s 2
      else if c = 0x0D || c = 0x0A then matchCommonEscapeAt .lf_cr_crlf s 1
      else ⟨1, true⟩

/-- `specials` (yaml.cpp:69-75) -/
def specials : List (Bytes × Bool) :=
  [(b!".inf", true), (b!".Inf", true), (b!".INF", true),
    (b!".nan", false), (b!".NaN", false), (b!".NAN", false)]

/-- One round of the loop over `specials` (yaml.cpp:76-86). -/
def matchSpecial (s : Bytes) (x : Bytes × Bool) : Option NumberResult :=
  let start := if x.2 && (startsWith s b!"+" || startsWith s b!"-") then 1 else 0
  if startsWith (s.drop start) x.1 then
    some { length := start + x.1.length, sign := start, integer := x.1.length }
  else none

/-- The options for numbers with prefixes (yaml.cpp:92-100). -/
def prefixedOptions : NumberOptions :=
  { prefixes := [⟨b!"0x", 16, false⟩, ⟨b!"0X", 16, false⟩, ⟨b!"0o", 8, false⟩, ⟨b!"0O", 8, false⟩,
      ⟨b!"0b", 2, false⟩, ⟨b!"0B", 2, false⟩]
    nonemptyInteger := true }

/-- The options for decimal numbers (yaml.cpp:127-135). -/
def decimalOptions : NumberOptions :=
  { plus := true, minus := true, exponentSeparators := [b!"e+", b!"e-", b!"e", b!"E+", b!"E-", b!"E"] }

/-- The case of sexagesimal numbers (yaml.cpp:107-123): the length. -/
def matchSexagesimal (s : Bytes) : Option Nat :=
  let a := Ascii.length_if s isDigit
  if a > 0 && s[a]? = some c!":" then
    let b := Ascii.length_if (s.drop (a + 1)) isDigit
    if b > 0 then
      if s[a + 1 + b]? = some c!":" then
        some (a + 1 + b + 1 + Ascii.length_if (s.drop (a + 1 + b + 1)) isDigit)
      else some (a + 1 + b)
    else none
  else none

/-- `match_number` (yaml.cpp:63-138) -/
def matchNumber (s : Bytes) : NumberResult :=
  match specials.findSome? (matchSpecial s) with
  | some r => r
  | none =>
    let r := matchCommonNumber s prefixedOptions
    if r.length ≠ 0 && r.pre > 0 then r
    else
      match matchSexagesimal s with
      | some n => { length := n, integer := n }
      | none => matchCommonNumber s decimalOptions

/-- `entries` in `match_plain_identifier` (yaml.cpp:147-169), with the highlight type that
`consume_plain_scalar` chooses (yaml.cpp:1174-1177). -/
def words : List (Bytes × HT) :=
  [(b!"FALSE", .bool_), (b!"False", .bool_), (b!"NO", .bool_), (b!"NULL", .null), (b!"No", .bool_),
    (b!"Null", .null), (b!"OFF", .bool_), (b!"ON", .bool_), (b!"Off", .bool_), (b!"On", .bool_),
    (b!"TRUE", .bool_), (b!"True", .bool_), (b!"YES", .bool_), (b!"Yes", .bool_), (b!"false", .bool_),
    (b!"no", .bool_), (b!"null", .null), (b!"off", .bool_), (b!"on", .bool_), (b!"true", .bool_),
    (b!"yes", .bool_)]

/-- `match_plain_identifier` (yaml.cpp:140-185) -/
def matchWord (s : Bytes) : Option (Bytes × HT) :=
  let k := lowerBound (fun x : Bytes × HT => bytesLt x.1 s) words
  match (words[k]?).filter (fun x => startsWith s x.1) with
  | some x => some x
  | none =>
    match k with
    | 0 => none
    | j + 1 => (words[j]?).filter (fun x => startsWith s x.1)

/-- `match_anchor` and `match_alias` (yaml.cpp:187-205), without the test of the first code unit, which the
callers have made: the length of the name. -/
def nameLength (s : Bytes) : Nat := Ascii.length_if_not (s.drop 1) isWordEnd

/-- `current_indent` (yaml.cpp:299-304) -/
def currentIndent (s : Bytes) : Nat := Ascii.length_if s (· == c!" ")

/-- `skip_line_break` (yaml.cpp:290-297) -/
def skipLineBreak : HM St Unit := do
  HM.advance (matchLineBreak (← HM.rem))

/-- `skip_line` (yaml.cpp:281-288) -/
def skipLine : HM St Unit := do
  HM.advance (lineLength (← HM.rem))
  skipLineBreak

/-- `consume_indent` (yaml.cpp:306-312) -/
def consumeIndent (n : Nat) : HM St Unit := do
  HM.advance (min n (currentIndent (← HM.rem)))

/-- `consume_inline_whitespace` (yaml.cpp:826-832), and yaml.cpp:674-682. -/
def inlineWhitespace : HM St Unit := do
  HM.advance (Ascii.length_if (← HM.rem) isWs)

/-- The loops that skip spaces (yaml.cpp:1071-1073, 1148-1150). -/
def skipSpaces : HM St Unit := do
  HM.advance (currentIndent (← HM.rem))

/-- `consume_comment` (yaml.cpp:468-480) -/
def comment : HM St Unit := do
  HM.hassert (startsWith (← HM.rem) b!"#")
  HM.emitAdv 1 .comment_delim
  HM.emitAdvIf (lineLength (← HM.rem)) .comment

/-- The body of the loop in `consume_whitespace_and_comments` (yaml.cpp:447-465). -/
def whitespaceStep : HM St (Unit ⊕ Unit) := do
  if ← HM.eof then pure (.inr ())
  else do
    inlineWhitespace
    let s ← HM.rem
    if s[0]? = some c!"#" then do
      comment
      pure (.inl ())
    else if matchLineBreak s ≠ 0 then do
      skipLineBreak
      pure (.inl ())
    else pure (.inr ())

/-- `consume_whitespace_and_comments` (yaml.cpp:445-466) -/
def whitespace : HM St Unit := do
  HM.loop ((← HM.rem).length + 1) (fun _ => whitespaceStep) ()

/-- `expect_comment_or_blank` (yaml.cpp:482-500) -/
def expectCommentOrBlank : HM St Bool := do
  whitespace
  let s ← HM.rem
  if s = [] then pure true
  else if s[0]? = some c!"#" then do
    comment
    skipLineBreak
    pure true
  else if matchLineBreak s ≠ 0 then do
    skipLineBreak
    pure true
  else pure false

/-- The body of the loop in `skip_blank_and_comment_lines` (yaml.cpp:505-519). -/
def blankStep : HM St (Unit ⊕ Unit) := do
  let s ← HM.rem
  if s = [] then pure (.inr ())
  else if matchLineBreak s ≠ 0 then do
    skipLineBreak
    pure (.inl ())
  else if s[currentIndent s]? = some c!"#" then do
    consumeIndent (currentIndent s)
    comment
    skipLineBreak
    pure (.inl ())
  else pure (.inr ())

/-- `skip_blank_and_comment_lines` (yaml.cpp:502-520) -/
def skipBlank : HM St Unit := do
  HM.loop ((← HM.rem).length + 1) (fun _ => blankStep) ()

/-- The loops that emit one code unit at a time as long as `p` holds (yaml.cpp:842-845, 882-884). -/
def emitEach (p : UInt8 → Bool) (ty : HT) : HM St Unit := do
  HM.loop ((← HM.rem).length + 1) (fun _ => do
    if ((← HM.rem)[0]?).any p then do
      HM.emitAdv 1 ty
      pure (.inl ())
    else pure (.inr ())) ()

/-- `consume_tag` (yaml.cpp:834-878) and `consume_tag_suffix` (yaml.cpp:880-885). -/
def tag : HM St Unit := do
  let s ← HM.rem
  HM.hassert (startsWith s b!"!")
  if startsWith s b!"!<" then do
    HM.emitAdv 2 .name_attr_delim
    emitEach (fun c => !(b!">\r\n").contains c) .name_attr
    if startsWith (← HM.rem) b!">" then HM.emitAdv 1 .name_attr_delim else pure ()
  else if startsWith s b!"!!" then do
    HM.emitAdv 2 .name_attr_delim
    emitEach (fun c => !isWordEnd c) .name_attr
  else do
    HM.emitAdv 1 .name_attr_delim
    let s ← HM.rem
    let k := Ascii.length_if s isWordChar
    if k > 0 && s[k]? = some c!"!" then do
      HM.emitAdv k .name_attr
      HM.emitAdv 1 .name_attr_delim
      emitEach (fun c => !isWordEnd c) .name_attr
    else emitEach (fun c => !isWordEnd c) .name_attr

/-- `consume_anchor` (yaml.cpp:887-899) and `consume_alias` (yaml.cpp:901-912), after the test of the first
code unit. -/
def reference : HM St Unit := do
  let n := nameLength (← HM.rem)
  HM.emitAdv 1 .name_attr_delim
  HM.emitAdvIf n .name

/-- The first half of the body of the loop in `consume_node_properties` (yaml.cpp:812-817). -/
def propertyTag : HM St Bool := do
  if startsWith (← HM.rem) b!"!" then do
    tag
    inlineWhitespace
    pure true
  else pure false

/-- The second half of that body (yaml.cpp:818-822). -/
def propertyAnchor : HM St Bool := do
  if startsWith (← HM.rem) b!"&" then do
    reference
    inlineWhitespace
    pure true
  else pure false

/-- `consume_node_properties` (yaml.cpp:803-824) -/
def nodeProperties : HM St Unit := do
  HM.loop ((← HM.rem).length + 1) (fun _ => do
    let a ← propertyTag
    let b ← propertyAnchor
    if a || b then pure (.inl ()) else pure (.inr ())) ()

/-- `consume_flow_node_content` (yaml.cpp:791-801) for the first `k` code units. -/
def flowNodeContent (k : Nat) (ty : HT) : HM St Unit := do
  HM.emitAdvIf ((((← HM.rem).take k).reverse.dropWhile isWs).reverse.length) ty

/-- The length of a double-quoted key after its first quotation mark (yaml.cpp:1031-1043). -/
def doubleKey : Bytes → Nat
  | [] => 0
  | c :: t =>
    if c = c!"\"" then 1
    else if c = c!"\\" then
      match t with
      | [] => 1
      | _ :: u => doubleKey u + 2
    else doubleKey t + 1

/-- The length of a single-quoted key after its first quotation mark (yaml.cpp:1104-1116). -/
def singleKey : Bytes → Nat
  | [] => 0
  | c :: t =>
    if c = c!"'" then
      match t with
      | [] => 1
      | d :: u => if d = c!"'" then singleKey u + 2 else 1
    else singleKey t + 1

/-- The code units of a single-quoted scalar before the next line break or single quotation mark, where two
quotation marks count as content (yaml.cpp:1130-1155). -/
def singleRun : Bytes → Nat
  | [] => 0
  | c :: t =>
    if c = c!"'" then
      match t with
      | [] => 0
      | d :: u => if d = c!"'" then singleRun u + 2 else 0
    else if c = 0x0D || c = 0x0A then 0
    else singleRun t + 1

/-- The loop in `consume_double_quoted_scalar` (yaml.cpp:1049-1095).  One round goes to the next quotation
mark, line break or backslash.  `esc` is never empty (yaml.cpp:1086-1088), which is `matchEscape_pos`. -/
def doubleStep : HM St (Unit ⊕ Unit) := do
  HM.emitAdvIf (Ascii.length_if (← HM.rem) (fun c => !(b!"\"\\\r\n").contains c)) .string
  let s ← HM.rem
  match s[0]? with
  | none => pure (.inr ())
  | some c =>
    if c = c!"\"" then do
      HM.emitAdv 1 .string_delim
      pure (.inr ())
    else if c = 0x0D || c = 0x0A then do
      skipLineBreak
      skipSpaces
      pure (.inl ())
    else do
      HM.emitAdv (matchEscape s).length (if (matchEscape s).erroneous then .error else .string_escape)
      pure (.inl ())

/-- `consume_double_quoted_scalar` (yaml.cpp:1023-1096) -/
def doubleQuoted (isKey : Bool) : HM St Unit := do
  let s ← HM.rem
  HM.hassert (startsWith s b!"\"")
  if isKey then HM.emitAdv (doubleKey (s.drop 1) + 1) .markup_attr
  else do
    HM.emitAdv 1 .string_delim
    HM.loop ((← HM.rem).length + 1) (fun _ => doubleStep) ()

/-- The loop in `consume_single_quoted_scalar` (yaml.cpp:1122-1157); as `doubleStep`. -/
def singleStep : HM St (Unit ⊕ Unit) := do
  HM.emitAdvIf (singleRun (← HM.rem)) .string
  let s ← HM.rem
  match s[0]? with
  | none => pure (.inr ())
  | some c =>
    if c = c!"'" then do
      HM.emitAdv 1 .string_delim
      pure (.inr ())
    else do
      skipLineBreak
      skipSpaces
      pure (.inl ())

/-- `consume_single_quoted_scalar` (yaml.cpp:1098-1158) -/
def singleQuoted (isKey : Bool) : HM St Unit := do
  let s ← HM.rem
  HM.hassert (startsWith s b!"'")
  if isKey then HM.emitAdv (singleKey (s.drop 1) + 1) .markup_attr
  else do
    HM.emitAdv 1 .string_delim
    HM.loop ((← HM.rem).length + 1) (fun _ => singleStep) ()

/-- The condition "space, line break or end" after a colon (yaml.cpp:664-665, 1198-1199, 1231-1232). -/
def separates (s : Bytes) : Bool := s = [] || s[0]? = some c!" " || matchLineBreak s ≠ 0

/-- Whether a word ends here (yaml.cpp:1171-1173). -/
def wordStops (s : Bytes) : Bool :=
  match s[0]? with
  | none => true
  | some c => isWordEnd c || matchLineBreak s ≠ 0 || c = c!":" || c = c!"-"

/-- Whether a number ends here (yaml.cpp:1188, 1194-1206). -/
def numberStops (s : Bytes) : Bool :=
  match s with
  | [] => true
  | c :: t =>
    isPlainEnd c || matchLineBreak s ≠ 0 || c = c!"]" || c = c!"}" || (c = c!":" && separates t) ||
      (c = c!" " && (t[0]?).any (fun d => d = c!"#" || isFlowIndicator d))

/-- The length of a plain string (yaml.cpp:1214-1237); `past` says that there was a code unit before. -/
def plainLength : Bool → Bytes → Nat
  | _, [] => 0
  | past, c :: t =>
    if isPlainEnd c then 0
    else if past && c = c!" " && t[0]? = some c!"#" then 0
    else if past && c = c!":" && separates t then 0
    else plainLength true t + 1

/-- `consume_plain_scalar` (yaml.cpp:1160-1244) -/
def plainScalar (isKey : Bool) : HM St Unit := do
  let s ← HM.rem
  if startsWith s b!"~" then HM.emitAdv 1 .null
  else
    match (matchWord s).filter (fun w => wordStops (s.drop w.1.length)) with
    | some w => HM.emitAdv w.1.length w.2
    | none =>
      let n := matchNumber s
      if n.length ≠ 0 && numberStops (s.drop n.length) then
        HM.emitAdv n.length (if n.erroneous then .error else .number)
      else HM.emitAdvIf (plainLength false s) (if isKey then .markup_attr else .string)

/-- `consume_flow_scalar` (yaml.cpp:1009-1021) -/
def flowScalar (isKey : Bool) : HM St Unit := do
  match (← HM.rem)[0]? with
  | none => pure ()
  | some c =>
    if c = c!"\"" then doubleQuoted isKey
    else if c = c!"'" then singleQuoted isKey
    else if c = c!"*" then reference
    else plainScalar isKey

/-- The header of a block scalar (yaml.cpp:1253-1270). -/
def blockHeader : HM St Unit := do
  let s ← HM.rem
  HM.hassert (startsWith s b!"|" || startsWith s b!">")
  HM.emitAdv 1 .string_delim
  let s ← HM.rem
  HM.emitAdvIf (if startsWith s b!"+" || startsWith s b!"-" then 1 else 0) .number_decor
  let s ← HM.rem
  HM.emitAdvIf (if (s[0]?).any (fun c => c!"1" ≤ c && c ≤ c!"9") then 1 else 0) .number_decor
  if startsWith (← HM.rem) b!"#" then do
    comment
    skipLine
  else skipLine

/-- The loop over leading blank lines (yaml.cpp:1274-1276). -/
def blankLines : HM St Unit := do
  HM.loop ((← HM.rem).length + 1) (fun _ => do
    if matchLineBreak (← HM.rem) ≠ 0 then do
      skipLineBreak
      pure (.inl ())
    else pure (.inr ())) ()

/-- One line of a block scalar (yaml.cpp:1285-1316). -/
def blockLine (contentIndent : Nat) : HM St (Unit ⊕ Unit) := do
  let s ← HM.rem
  if s = [] then pure (.inr ())
  else if currentIndent s < contentIndent && matchLineBreak s = 0 then pure (.inr ())
  else if matchLineBreak s ≠ 0 then do
    skipLineBreak
    pure (.inl ())
  else if s[0]? = some c!"#" && currentIndent s < contentIndent then pure (.inr ())
  else do
    consumeIndent contentIndent
    HM.emitAdvIf (lineLength (← HM.rem)) .string
    skipLineBreak
    pure (.inl ())

/-- `consume_block_scalar` (yaml.cpp:1250-1317) -/
def blockScalar (indent : Nat) : HM St Unit := do
  blockHeader
  blankLines
  let s ← HM.rem
  if currentIndent s ≤ indent && s ≠ [] then pure ()
  else HM.loop (s.length + 1) (fun _ => blockLine (currentIndent s)) ()

/-- The `switch` that `consume_flow_sequence` (yaml.cpp:925-936) and `consume_flow_mapping` (yaml.cpp:953-964)
have in common, after whitespace and comments, with the closing and the mismatched bracket.  `none`
stands for the default case. -/
def flowSwitch (close wrong : UInt8) (ty : HT) : HM St (Option (Unit ⊕ Unit)) := do
  whitespace
  let s ← HM.rem
  match s[0]? with
  | none => pure (some (.inr ()))
  | some c =>
    if c = close then do
      HM.emitAdv 1 ty
      pure (some (.inr ()))
    else if c = wrong then do
      HM.emitAdv 1 .error
      pure (some (.inr ()))
    else if c = c!"," then do
      HM.emitAdv 1 .symbol_punc
      pure (some (.inl ()))
    else if c = 0x0D || c = 0x0A then do
      skipLineBreak
      pure (some (.inl ()))
    else if c = c!"#" then do
      comment
      skipLineBreak
      pure (some (.inl ()))
    else pure none

/-- The body of the loop in `consume_flow_sequence` (yaml.cpp:920-939). -/
def flowSequenceStep (again : Nat → Bool → HM St Unit) (indent : Nat) : HM St (Unit ⊕ Unit) := do
  match ← flowSwitch c!"]" c!"}" .symbol_square with
  | some r => pure r
  | none => do
    again indent false
    whitespace
    pure (.inl ())

/-- `consume_flow_sequence` (yaml.cpp:914-940) -/
def flowSequence (again : Nat → Bool → HM St Unit) (indent : Nat) : HM St Unit := do
  HM.hassert (startsWith (← HM.rem) b!"[")
  HM.emitAdv 1 .symbol_square
  HM.loop ((← HM.rem).length + 1) (fun _ => flowSequenceStep again indent) ()

/-- The key of `consume_flow_mapping_entry` (yaml.cpp:974-982). -/
def entryKey (again : Nat → Bool → HM St Unit) (indent : Nat) : HM St Unit := do
  if startsWith (← HM.rem) b!"?" then do
    HM.emitAdv 1 .symbol_punc
    whitespace
    again indent true
  else again indent true

/-- `consume_flow_mapping_entry` (yaml.cpp:972-1007).  The optional space after the colon
(yaml.cpp:994-997) is part of the whitespace that follows. -/
def flowEntry (again : Nat → Bool → HM St Unit) (indent : Nat) : HM St Unit := do
  entryKey again indent
  whitespace
  if startsWith (← HM.rem) b!":" then do
    HM.emitAdv 1 .symbol_punc
    whitespace
    let s ← HM.rem
    if s ≠ [] && s[0]? ≠ some c!"," && s[0]? ≠ some c!"}" && matchLineBreak s = 0 then again indent false
    else pure ()
  else pure ()

/-- The body of the loop in `consume_flow_mapping` (yaml.cpp:948-969). -/
def flowMappingStep (again : Nat → Bool → HM St Unit) (indent : Nat) : HM St (Unit ⊕ Unit) := do
  match ← flowSwitch c!"}" c!"]" .symbol_brace with
  | some r => pure r
  | none => do
    flowEntry again indent
    whitespace
    pure (.inl ())

/-- `consume_flow_mapping` (yaml.cpp:942-970) -/
def flowMapping (again : Nat → Bool → HM St Unit) (indent : Nat) : HM St Unit := do
  HM.hassert (startsWith (← HM.rem) b!"{")
  HM.emitAdv 1 .symbol_brace
  HM.loop ((← HM.rem).length + 1) (fun _ => flowMappingStep again indent) ()

/-- The body of `consume_flow_node` (yaml.cpp:758-789). -/
def flowNodeBody (again : Nat → Bool → HM St Unit) (indent : Nat) (isKey : Bool) : HM St Unit := do
  whitespace
  let s ← HM.rem
  if s = [] || matchLineBreak s ≠ 0 then pure ()
  else do
    nodeProperties
    let s ← HM.rem
    if startsWith s b!"[" then flowSequence again indent
    else if startsWith s b!"{" then flowMapping again indent
    else if startsWith s b!"|" || startsWith s b!">" then blockScalar indent
    else flowScalar isKey

/-- `consume_flow_node` (yaml.cpp:758-789).  The fuel bounds the nesting of calls. -/
def flowNodeLoop : Nat → Nat → Bool → HM St Unit
  | 0, _, _ => HM.fault .outOfFuel
  | fuel + 1, indent, isKey => flowNodeBody (flowNodeLoop fuel) indent isKey

/-- `consume_flow_node` (yaml.cpp:758-789), with enough fuel. -/
def flowNode (indent : Nat) (isKey : Bool) : HM St Unit := do
  flowNodeLoop ((← HM.rem).length + 1) indent isKey

/-- The search for the colon of a mapping key (yaml.cpp:637-665, 726-732), from inside quotation marks `q` or
outside of them. -/
def findColon : Option UInt8 → Bytes → Option Nat
  | _, [] => none
  | q, c :: t =>
    if c = 0x0D || c = 0x0A then none
    else
      match q with
      | some k =>
        if c = k then (findColon none t).map (· + 1)
        else if c = c!"\\" && k = c!"\"" then
          match t with
          | [] => none
          | _ :: u => (findColon (some k) u).map (· + 2)
        else (findColon (some k) t).map (· + 1)
      | none =>
        if c = c!"\"" || c = c!"'" then (findColon (some c) t).map (· + 1)
        else if c = c!"#" then none
        else if c = c!":" && separates t then some 0
        else (findColon none t).map (· + 1)

/-- `Indent_Stack::push` (yaml.cpp:219-223) -/
def push (n : Nat) : HM St Unit := do
  HM.hassert ((← HM.get).length < 64)
  HM.modify (n :: ·)

/-- Descend into lines that have a greater indentation (yaml.cpp:690-697, 716-723). -/
def descend (again : Nat → Nat → HM St Unit) (lineIndent : Nat) : HM St Unit := do
  skipBlank
  let s ← HM.rem
  if s ≠ [] && matchLineBreak s = 0 && lineIndent < currentIndent s then again lineIndent 0 else pure ()

/-- The value of a mapping entry, after its colon and whitespace (yaml.cpp:684-725). -/
def mappingValue (again : Nat → Nat → HM St Unit) (lineIndent : Nat) : HM St Unit := do
  let s ← HM.rem
  if startsWith s b!"- " || startsWith s b!"? " then do
    skipLine
    descend again lineIndent
  else if startsWith s b!"|" || startsWith s b!">" then flowNode lineIndent false
  else if s ≠ [] && matchLineBreak s = 0 && s[0]? ≠ some c!"#" then do
    flowNode lineIndent false
    skipLine
    descend again lineIndent
  else do
    skipLine
    descend again lineIndent

/-- `try_consume_block_mapping_key` (yaml.cpp:630-733) -/
def mappingKey (again : Nat → Nat → HM St Unit) (lineIndent : Nat) : HM St Bool := do
  match findColon none (← HM.rem) with
  | none => pure false
  | some k => do
    flowNodeContent k .markup_attr
    HM.emitAdv 1 .symbol_punc
    inlineWhitespace
    mappingValue again lineIndent
    pure true

/-- `try_consume_compact_sequence_or_mapping` (yaml.cpp:735-756) -/
def compact (again : Nat → Nat → HM St Unit) (indent : Nat) : HM St Unit := do
  let s ← HM.rem
  if s = [] then pure ()
  else if startsWith s b!"- " then again indent 1
  else if ← mappingKey again indent then pure ()
  else flowNode indent false

/-- Whether an inline value follows (yaml.cpp:562, 572-573, 592, 620). -/
def hasValue (s : Bytes) : Bool := s ≠ [] && matchLineBreak s = 0 && s[0]? ≠ some c!"#"

/-- The value of an explicit mapping key (yaml.cpp:566-580).  `consume_indent` (yaml.cpp:569) has no effect,
because a colon follows. -/
def explicitValue (again : Nat → Nat → HM St Unit) (lineIndent : Nat) : HM St Unit := do
  skipLine
  whitespace
  if startsWith (← HM.rem) b!": " then do
    HM.emitAdv 1 .symbol_punc
    whitespace
    if hasValue (← HM.rem) then again lineIndent 0
    else do
      skipLine
      again lineIndent 0
  else pure ()

/-- An explicit mapping key (yaml.cpp:560-580). -/
def explicitKey (again : Nat → Nat → HM St Unit) (lineIndent : Nat) : HM St Unit := do
  HM.emitAdv 1 .symbol_punc
  whitespace
  if hasValue (← HM.rem) then do
    flowNode (lineIndent + 1) false
    explicitValue again lineIndent
  else explicitValue again lineIndent

/-- The end of a sequence entry (yaml.cpp:595-599). -/
def entryEnd (again : Nat → Nat → HM St Unit) (lineIndent : Nat) : HM St Unit := do
  if matchLineBreak (← HM.rem) ≠ 0 then do
    skipLine
    push lineIndent
    again lineIndent 0
  else do
    push lineIndent
    again lineIndent 0

/-- A block sequence entry (yaml.cpp:586-599).  The space after the dash (yaml.cpp:587-589) is part of the
whitespace that follows. -/
def sequenceEntry (again : Nat → Nat → HM St Unit) (lineIndent : Nat) : HM St Unit := do
  HM.emitAdv 1 .symbol_punc
  whitespace
  if hasValue (← HM.rem) then do
    compact again (lineIndent + 1)
    entryEnd again lineIndent
  else entryEnd again lineIndent

/-- Whether this is the header of a block scalar (yaml.cpp:604-607). -/
def isBlockHeader (s : Bytes) : Bool :=
  startsWith s b!"| " || startsWith s b!"> " ||
    ((startsWith s b!"|" || startsWith s b!">") && matchLineBreak (s.drop 1) ≠ 0)

/-- The rest of the body of the loop in `consume_block_node` (yaml.cpp:556-626), after the indentation. -/
def blockEntry (again : Nat → Nat → HM St Unit) (lineIndent : Nat) : HM St (Unit ⊕ Unit) := do
  let s ← HM.rem
  if startsWith s b!"? " || (startsWith s b!"?" && matchLineBreak (s.drop 1) ≠ 0) then do
    explicitKey again lineIndent
    pure (.inl ())
  else if startsWith s b!"- " then do
    sequenceEntry again lineIndent
    pure (.inl ())
  else if isBlockHeader s then do
    blockScalar lineIndent
    pure (.inl ())
  else if ← mappingKey again lineIndent then do
    push lineIndent
    pure (.inl ())
  else if hasValue s then do
    flowNode lineIndent false
    skipLine
    pure (.inl ())
  else pure (.inr ())

/-- The body of the loop in `consume_block_node` (yaml.cpp:529-627).  No caller has
`block_indent < seq_offset`. -/
def blockStep (again : Nat → Nat → HM St Unit) (blockIndent seqOffset : Nat) : HM St (Unit ⊕ Unit) := do
  skipBlank
  let s ← HM.rem
  if s = [] then pure (.inr ())
  else if currentIndent s = 0 && (startsWith s b!"---" || startsWith s b!"...") then pure (.inr ())
  else do
    let stack ← HM.get
    if currentIndent s < blockIndent - seqOffset && stack ≠ [] && currentIndent s ≤ stack.headD 0 then do
      HM.modify (List.dropWhile (currentIndent s ≤ ·))
      pure (.inr ())
    else do
      consumeIndent (currentIndent s)
      blockEntry again (currentIndent s)

/-- `consume_block_node` (yaml.cpp:522-628).  The fuel bounds the nesting of calls. -/
def blockNodeLoop : Nat → Nat → Nat → HM St Unit
  | 0, _, _ => HM.fault .outOfFuel
  | fuel + 1, blockIndent, seqOffset => do
    HM.loop ((← HM.rem).length + 1) (fun _ => blockStep (blockNodeLoop fuel) blockIndent seqOffset) ()

/-- `consume_block_node` (yaml.cpp:522-628), with enough fuel. -/
def blockNode (blockIndent seqOffset : Nat) : HM St Unit := do
  blockNodeLoop ((← HM.rem).length + 1) blockIndent seqOffset

/-- The parameters of a directive (yaml.cpp:433-441). -/
def parameterStep : HM St (Unit ⊕ Unit) := do
  let s ← HM.rem
  match s[0]? with
  | none => pure (.inr ())
  | some c =>
    if matchLineBreak s ≠ 0 then pure (.inr ())
    else if isWs c then do
      HM.advance 1
      pure (.inl ())
    else do
      HM.emitAdv 1 .string
      pure (.inl ())

/-- The length of the name of a directive (yaml.cpp:424-428). -/
def directiveName : Bytes → Nat
  | [] => 0
  | c :: t => if isWs c || matchLineBreak (c :: t) ≠ 0 then 0 else directiveName t + 1

/-- `consume_directive_line` (yaml.cpp:417-443) -/
def directiveLine : HM St Unit := do
  HM.hassert (startsWith (← HM.rem) b!"%")
  HM.emitAdv 1 .name_macro_delim
  HM.emitAdvIf (directiveName (← HM.rem)) .name_macro
  HM.loop ((← HM.rem).length + 1) (fun _ => parameterStep) ()
  skipLine

/-- The body of the loop in `consume_directives` (yaml.cpp:408-414). -/
def directiveStep : HM St (Unit ⊕ Unit) := do
  whitespace
  if startsWith (← HM.rem) b!"%" then do
    directiveLine
    pure (.inl ())
  else pure (.inr ())

/-- `consume_directives` (yaml.cpp:405-415) -/
def directives : HM St Unit := do
  HM.loop ((← HM.rem).length + 1) (fun _ => directiveStep) ()

/-- A document marker and the rest of its line. -/
def marker : HM St Unit := do
  HM.emitAdv 3 .symbol_punc
  skipLine

/-- The explicit start of a document (yaml.cpp:375-384). -/
def documentStart : HM St Unit := do
  let s ← HM.rem
  if currentIndent s = 0 && startsWith s b!"---" then do
    marker
    whitespace
  else pure ()

/-- Directives and the marker after them (yaml.cpp:386-395). -/
def documentDirectives (indent : Nat) : HM St Unit := do
  if indent = 0 && startsWith (← HM.rem) b!"%" then do
    directives
    whitespace
    if startsWith (← HM.rem) b!"---" then do
      marker
      whitespace
    else pure ()
  else pure ()

/-- `consume_document` (yaml.cpp:364-403) -/
def document : HM St Unit := do
  HM.modify (fun _ => [])
  whitespace
  if ← HM.eof then pure ()
  else do
    let indent := currentIndent (← HM.rem)
    documentStart
    if ← HM.eof then pure ()
    else do
      documentDirectives indent
      if ← HM.eof then pure () else blockNode 0 0

/-- The body of the loop in `consume_document_suffix` (yaml.cpp:337-361). -/
def suffixStep : HM St (Unit ⊕ Unit) := do
  whitespace
  let s ← HM.rem
  if startsWith s b!"..." && currentIndent s = 0 then do
    marker
    pure (.inl ())
  else if startsWith s b!"---" && currentIndent s = 0 then do
    marker
    pure (.inr ())
  else pure (.inr ())

/-- `consume_document_suffix` (yaml.cpp:334-362) -/
def documentSuffix : HM St Unit := do
  HM.loop ((← HM.rem).length + 1) (fun _ => suffixStep) ()

/-- The body of the loop in `consume_document_prefix` (yaml.cpp:321-331). -/
def prefixStep : HM St (Unit ⊕ Unit) := do
  whitespace
  if ← HM.eof then pure (.inr ())
  else if ← expectCommentOrBlank then pure (.inl ())
  else pure (.inr ())

/-- `consume_document_prefix` (yaml.cpp:318-332) -/
def documentPrefix : HM St Unit := do
  HM.loop ((← HM.rem).length + 1) (fun _ => prefixStep) ()

/-- The body of the loop in `operator()` (yaml.cpp:266-272). -/
def step : HM St (Unit ⊕ Unit) := do
  if ← HM.eof then pure (.inr ())
  else do
    document
    if ← HM.eof then pure (.inr ())
    else do
      documentSuffix
      pure (.inl ())

/-- `Highlighter::operator()` (yaml.cpp:262-274) -/
def main : HM St Bool := do
  documentPrefix
  HM.loop ((← HM.rem).length + 1) (fun _ => step) ()
  pure true

/-- `highlight_yaml` (yaml.cpp:1324-1332) -/
def highlight : Highlight := HM.run main []

end Ulight.Yaml
