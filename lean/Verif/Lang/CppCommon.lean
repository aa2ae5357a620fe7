import Verif.Hl.Base

/-!
# Identifiers and comments of C++, which other languages share (src/main/cpp/lang/cpp.cpp)
-/

namespace Ulight

open Utf8 (decodeOrReplacement)

/-- A loop that decodes characters as long as they satisfy `p`, and returns the number of bytes; the
form of such loops is `while (!str.empty()) { decode; if (!p(c)) return length; remove_prefix; }`.
The fuel is the length of the string: every character has at least one byte. -/
def charsWhile (p : Nat → Bool) : Nat → Bytes → Nat
  | 0, _ => 0
  | fuel + 1, s =>
    if s = [] then 0
    else
      let d := decodeOrReplacement s
      if p d.1 then d.2 + charsWhile p fuel (s.drop d.2) else 0

/-- The code units of a string that satisfy a predicate on characters, as many as possible. -/
def lengthWhile (p : Nat → Bool) (s : Bytes) : Nat := charsWhile p s.length s

/-- A character that satisfies `start` and then characters that satisfy `cont`. -/
def lengthHeadTail (start cont : Nat → Bool) (s : Bytes) : Nat :=
  if s = [] then 0
  else
    let d := decodeOrReplacement s
    if start d.1 then d.2 + lengthWhile cont (s.drop d.2) else 0

namespace Cpp

/-- `is_identifier_start_likely_ascii` (cpp.cpp:243-250), `is_cpp_ascii_identifier_start` and
`is_cpp_identifier_start` (cpp.hpp:15-26). -/
def isIdStart (c : Nat) : Bool :=
  if c < 0x80 then isAsciiXidStart (UInt8.ofNat c) || c = 0x5F else c = 0x5F || isXidStart c

/-- `is_identifier_continue_likely_ascii` (cpp.cpp:252-259), `is_cpp_ascii_identifier_continue` and
`is_cpp_identifier_continue` (cpp.hpp:29-40). -/
def isIdContinue (c : Nat) : Bool :=
  if c < 0x80 then isAsciiXidContinue (UInt8.ofNat c) else c = 0x5F || isXidContinue c

/-- `match_identifier` (cpp.cpp:326-349). -/
def matchIdentifier (s : Bytes) : Nat := lengthHeadTail isIdStart isIdContinue s

/-- `match_block_comment` (cpp.cpp:195-206).  `Comment_Result` (cpp.hpp:334-343) has the same members
as `Enclosed_Result`. -/
def matchBlockComment (s : Bytes) : Enclosed :=
  if !startsWith s b!"/*" then {}
  else
    match findSub b!"*/" (s.drop 2) with
    | none => ⟨s.length, false⟩
    | some k => ⟨2 + k + 2, true⟩

/-- `emit` under a condition. -/
def emitWhen {σ : Type} (c : Bool) (beg n : Nat) (ty : HT) : HM σ Unit :=
  if c then HM.emit beg n ty else pure ()

/-- The highlighting of a block comment of nonzero length, which several languages repeat
(cpp.cpp:695-704, css.cpp:419-428 and others). -/
def highlightBlockComment {σ : Type} (b : Enclosed) : HM σ Unit := do
  let i ← HM.index
  HM.emit i 2 .comment_delim
  let terminator := if b.terminated then 2 else 0
  HM.emitIf (i + 2) (b.length - 2 - terminator) .comment
  emitWhen b.terminated (i + b.length - 2) 2 .comment_delim
  HM.advance b.length

end Cpp

end Ulight
