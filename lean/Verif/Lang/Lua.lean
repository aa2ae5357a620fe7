import Verif.Lang.CppCommon
import Verif.Search

/-!
# Lua (src/main/cpp/lang/lua.cpp)

This highlighter does not use `Highlighter_Base`: it writes to the buffer without any assertion.
-/

namespace Ulight.Lua

/-- `ULIGHT_LUA_TOKEN_ENUM_DATA` (lua.hpp:29-84): codes and highlights. -/
def tokens : List (Bytes × HT) := [
  (b!"#", .symbol_op),
  (b!"%", .symbol_op),
  (b!"&", .symbol_op),
  (b!"(", .symbol_parens),
  (b!")", .symbol_parens),
  (b!"*", .symbol_op),
  (b!"+", .symbol_op),
  (b!",", .symbol_punc),
  (b!"-", .symbol_op),
  (b!".", .symbol_op),
  (b!"..", .symbol_op),
  (b!"...", .symbol_op),
  (b!"/", .symbol_op),
  (b!"//", .symbol_op),
  (b!":", .symbol_op),
  (b!"::", .symbol_op),
  (b!";", .symbol_punc),
  (b!"<", .symbol_op),
  (b!"<<", .symbol_op),
  (b!"<=", .symbol_op),
  (b!"=", .symbol_op),
  (b!"==", .symbol_op),
  (b!">", .symbol_op),
  (b!">=", .symbol_op),
  (b!">>", .symbol_op),
  (b!"[", .symbol_square),
  (b!"]", .symbol_square),
  (b!"^", .symbol_op),
  (b!"and", .keyword),
  (b!"break", .keyword_control),
  (b!"do", .keyword_control),
  (b!"else", .keyword_control),
  (b!"elseif", .keyword_control),
  (b!"end", .keyword_control),
  (b!"false", .bool_),
  (b!"for", .keyword_control),
  (b!"function", .keyword),
  (b!"goto", .keyword_control),
  (b!"if", .keyword_control),
  (b!"in", .keyword),
  (b!"local", .keyword),
  (b!"nil", .null),
  (b!"not", .keyword),
  (b!"or", .keyword),
  (b!"repeat", .keyword_control),
  (b!"return", .keyword_control),
  (b!"then", .keyword_control),
  (b!"true", .bool_),
  (b!"until", .keyword_control),
  (b!"while", .keyword_control),
  (b!"{", .symbol_brace),
  (b!"|", .symbol_op),
  (b!"}", .symbol_brace),
  (b!"~", .symbol_op),
  (b!"~=", .symbol_op)]

/-- `lua_token_type_by_code` (lua.cpp:76-83) and `lua_token_type_highlight` (lua.cpp:64-67). -/
def highlightByCode (s : Bytes) : Option HT := (lookupSorted Prod.fst tokens s).map Prod.snd

/-- `is_lua_whitespace` (lua.hpp:18). -/
def isWhitespace (c : UInt8) : Bool := (b!"\t\n\x0c\r \x0b").contains c

/-- `match_whitespace` (lua.cpp:85-88). -/
def matchWhitespace (s : Bytes) : Nat := Ascii.length_if s isWhitespace

/-- The loops that count equals signs from position `i` on (lua.cpp:111-113, 147-150, 260-263). -/
def countEq (s : Bytes) (i : Nat) : Nat := ((s.drop i).takeWhile (· = c!"=")).length

/-- `match_line_comment` (lua.cpp:95-133). -/
def matchLineComment (s : Bytes) : Nat :=
  if !startsWith s b!"--" then 0
  else if startsWith s b!"--[[" then 0
  else if s[2]? = some c!"[" ∧ s[3 + countEq s 3]? = some c!"[" then 0
  else 2 + ((s.drop 2).takeWhile (· ≠ c!"\n")).length

/-- The closing bracket with `eq` equals signs that the loops search for. -/
def closing (eq : Nat) : Bytes := c!"]" :: (List.replicate eq c!"=" ++ b!"]")

/-- The loops that try every position from `k` on for a closing bracket
(lua.cpp:159-178, 184-190, 239-246, 270-291), and what is returned after them.  Simplified: the inner
loop over the equals signs is a comparison of strings. -/
def search (eq : Nat) (s : Bytes) (k : Nat) : Enclosed :=
  match findSub (closing eq) (s.drop k) with
  | some j => ⟨k + j + 2 + eq, true⟩
  | none => ⟨s.length, false⟩

/-- `match_block_comment` (lua.cpp:135-194).  `Comment_Result` (lua.hpp:129-137) has the same members as
`Enclosed_Result`. -/
def matchBlockComment (s : Bytes) : Enclosed :=
  if s.length < 4 ∨ !startsWith s b!"--[[" then
    if s.length < 5 ∨ !startsWith s b!"--[" then {}
    else if countEq s 3 = 0 ∨ s[3 + countEq s 3]? ≠ some c!"[" then {}
    else search (countEq s 3) s (3 + countEq s 3 + 1)
  else search 0 s 4

/-- The loop in `match_string_literal` (lua.cpp:208-231): how far it goes and whether the string is
terminated. -/
def quotedLoop (quote : UInt8) (escaped : Bool) : Bytes → Nat × Bool
  | [] => (0, false)
  | c :: t =>
    if escaped then ((quotedLoop quote false t).1 + 1, (quotedLoop quote false t).2)
    else if c = c!"\\" then ((quotedLoop quote true t).1 + 1, (quotedLoop quote true t).2)
    else if c = quote then (1, true)
    else if c = c!"\n" then (0, false)
    else ((quotedLoop quote false t).1 + 1, (quotedLoop quote false t).2)

/-- `String_Literal_Result` (lua.hpp:152-162). -/
structure StringResult where
  length : Nat
  long : Bool
  terminated : Bool
  deriving DecidableEq, Repr

/-- `match_string_literal` (lua.cpp:196-300). -/
def matchString (s : Bytes) : StringResult :=
  match s with
  | [] => ⟨0, false, false⟩
  | c :: t =>
    if c = c!"\"" ∨ c = c!"'" then ⟨1 + (quotedLoop c false t).1, false, (quotedLoop c false t).2⟩
    else if startsWith s b!"[[" then ⟨(search 0 s 2).length, true, (search 0 s 2).terminated⟩
    else if startsWith s b!"[" ∧ 3 ≤ s.length then
      if countEq s 1 = 0 ∨ s[1 + countEq s 1]? ≠ some c!"[" then ⟨0, false, false⟩
      else
        ⟨(search (countEq s 1) s (1 + countEq s 1 + 1)).length, true,
          (search (countEq s 1) s (1 + countEq s 1 + 1)).terminated⟩
    else ⟨0, false, false⟩

/-- A loop over digits from position `i` on. -/
def digits (p : UInt8 → Bool) (s : Bytes) (i : Nat) : Nat := ((s.drop i).takeWhile p).length

/-- An optional point and digits from position `i` on (lua.cpp:318-323, 354-359). -/
def fraction (p : UInt8 → Bool) (s : Bytes) (i : Nat) : Nat :=
  if s[i]? = some c!"." then 1 + digits p s (i + 1) else 0

/-- An optional sign at position `i` (lua.cpp:331-333, 372-374). -/
def sign (s : Bytes) (i : Nat) : Nat := if s[i]? = some c!"+" ∨ s[i]? = some c!"-" then 1 else 0

/-- `match_number` (lua.cpp:302-391). -/
def matchNumber (s : Bytes) : Nat :=
  if s[0]? = some c!"0" ∧ (s[1]? = some c!"x" ∨ s[1]? = some c!"X") then
    let a := 2 + digits isHexDigit s 2
    let b := a + fraction isHexDigit s a
    if s[b]? = some c!"p" ∨ s[b]? = some c!"P" then
      let d := b + 1 + sign s (b + 1)
      d + digits isDigit s d
    else b
  else
    let a := digits isDigit s 0
    let b :=
      if a = 0 ∧ s[0]? = some c!"." ∧ (s[1]?).any isDigit then 1 + digits isDigit s 1
      else if 0 < a then a + fraction isDigit s a
      else a
    if b = 0 ∨ (b = 1 ∧ s[0]? = some c!".") then 0
    else if s[b]? = some c!"e" ∨ s[b]? = some c!"E" then
      let d := b + 1 + sign s (b + 1)
      if digits isDigit s d = 0 then b else d + digits isDigit s d
    else b

/-- `is_lua_identifier_start` (lua.hpp:22) for `char32_t` (charset.hpp:88-91). -/
def isIdStart (c : Nat) : Bool := c ≤ 0xFF && (isAsciiXidStart (UInt8.ofNat c) || c = 0x5F)

/-- `is_lua_identifier_continue` (lua.hpp:26) for `char32_t` (charset.hpp:88-91). -/
def isIdContinue (c : Nat) : Bool := c ≤ 0xFF && isAsciiXidContinue (UInt8.ofNat c)

/-- `match_identifier` (lua.cpp:393-417). -/
def matchIdentifier (s : Bytes) : Nat := lengthHeadTail isIdStart isIdContinue s

/-- `match_operator_or_punctuation` (lua.cpp:419-519): the code of the token.  The comparison of
`str.substr(1, 5)` with `const>` (lua.cpp:458) compares strings of different lengths, so that it is
always false. -/
def matchOperator : Bytes → Option Bytes
  | [] => none
  | c :: t =>
    if c = c!"/" then (if startsWith t b!"/" then some b!"//" else some b!"/")
    else if c = c!"=" then (if startsWith t b!"=" then some b!"==" else some b!"=")
    else if c = c!"<" then
      (if startsWith t b!"=" then some b!"<=" else if startsWith t b!"<" then some b!"<<"
       else if t.length ≥ 5 ∧ t.take 5 = b!"const>" then none else some b!"<")
    else if c = c!">" then
      (if startsWith t b!"=" then some b!">=" else if startsWith t b!">" then some b!">>" else some b!">")
    else if c = c!"~" then (if startsWith t b!"=" then some b!"~=" else some b!"~")
    else if c = c!"." then
      (if startsWith t b!".." then some b!"..." else if startsWith t b!"." then some b!".." else some b!".")
    else if c = c!":" then (if startsWith t b!":" then some b!"::" else some b!":")
    else if (b!"+-*%^#&|;,(){}[]").contains c then some [c]
    else none

/-- The highlighting of a comment or string in long brackets (lua.cpp:591-603, 629-641): the lengths of
the whole, of the prefix and of the closing bracket.  A difference below zero is a fault. -/
def long (index length pre close : Nat) (terminated : Bool) (delim content : HT) : Except Fault (List Emit) :=
  if length < pre + close then .error .outOfBounds
  else
    .ok ([⟨index, pre, delim, .normal⟩, ⟨index + pre, length - pre - close, content, .normal⟩] ++
      if terminated then [⟨index + length - close, close, delim, .normal⟩] else [])

/-- The length of the prefix of a block comment (lua.cpp:578-585). -/
def commentPrefix (r : Bytes) : Nat :=
  if r[2]? = some c!"[" ∧ r[3]? ≠ some c!"[" then 3 + countEq r 3 + 1 else 4

/-- `closing_delim_length` (lua.cpp:587-589). -/
def commentClose (r : Bytes) (terminated : Bool) : Nat :=
  if terminated then (if r[2]? = some c!"[" ∧ r[3]? ≠ some c!"[" then 2 + (commentPrefix r - 4) else 2) else 0

/-- `opening_delim_len` (lua.cpp:612-622). -/
def stringOpen (r : Bytes) : Nat :=
  if r[0]? = some c!"[" ∧ 3 ≤ r.length ∧ r[1]? = some c!"=" then 1 + countEq r 1 + 1 else 2

/-- `closing_delim_len` (lua.cpp:613, 624-626). -/
def stringClose (r : Bytes) (terminated : Bool) : Nat :=
  if terminated then (if r[0]? = some c!"[" ∧ 3 ≤ r.length ∧ r[1]? = some c!"=" then stringOpen r else 2) else 0

/-- One iteration of the loop (lua.cpp:545-685) for the remainder `r`, without the first case: the tokens,
and by how much the index grows. -/
def stepRest (r : Bytes) (i : Nat) : Except Fault (List Emit × Nat) :=
  if matchWhitespace r ≠ 0 then .ok ([], matchWhitespace r)
  else if matchLineComment r ≠ 0 then
    .ok ([⟨i, 2, .comment_delim, .normal⟩, ⟨i + 2, matchLineComment r - 2, .comment, .normal⟩], matchLineComment r)
  else if (matchBlockComment r).length ≠ 0 then
    (long i (matchBlockComment r).length (commentPrefix r) (commentClose r (matchBlockComment r).terminated)
      (matchBlockComment r).terminated .comment_delim .comment).map (·, (matchBlockComment r).length)
  else if (matchString r).length ≠ 0 then
    if (matchString r).long then
      (long i (matchString r).length (stringOpen r) (stringClose r (matchString r).terminated)
        (matchString r).terminated .string .string).map (·, (matchString r).length)
    else .ok ([⟨i, (matchString r).length, .string, .normal⟩], (matchString r).length)
  else if matchNumber r ≠ 0 then .ok ([⟨i, matchNumber r, .number, .normal⟩], matchNumber r)
  else if matchIdentifier r ≠ 0 then
    .ok ([⟨i, matchIdentifier r, (highlightByCode (r.take (matchIdentifier r))).getD .name, .normal⟩], matchIdentifier r)
  else
    match matchOperator r with
    | some op =>
      match highlightByCode op with
      | some ty => .ok ([⟨i, op.length, ty, .normal⟩], op.length)
      | none => .error .outOfBounds
    | none => .ok ([⟨i, 1, .symbol, .normal⟩], 1)

/-- One iteration of the loop (lua.cpp:545-685) for the remainder `r`. -/
def step (r : Bytes) (i : Nat) : Except Fault (List Emit × Nat) :=
  if startsWith r b!"<const>" then
    .ok ([⟨i, 1, .name_attr_delim, .normal⟩, ⟨i + 1, 5, .name_attr, .normal⟩, ⟨i + 6, 1, .name_attr_delim, .normal⟩], 7)
  else stepRest r i

/-- The loop (lua.cpp:545-685); every iteration advances, so that the length of the source is enough
fuel. -/
def loop (src : Bytes) : Nat → Nat → List Emit → Except Fault (List Emit)
  | 0, _, _ => .error .outOfFuel
  | fuel + 1, index, out =>
    if src.length ≤ index then .ok out
    else
      match step (src.drop index) index with
      | .error f => .error f
      | .ok (es, n) => loop src fuel (index + n) (out ++ es)

/-- `highlight_lua` (lua.cpp:523-688).  Its local function `emit` (lua.cpp:530-541) is
`Highlighter_Base::emit` without the assertions. -/
def highlight : Highlight := fun _ _ src =>
  match loop src (src.length + 1) 0 [] with
  | .ok es => .ok (true, es)
  | .error f => .error f

end Ulight.Lua
