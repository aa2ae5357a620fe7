import Verif.Hl.Base

/-!
# JavaScript comments (src/main/cpp/lang/js.cpp), also used by JSON
-/

namespace Ulight.Js

/-- `starts_with_line_terminator` (js.cpp:154-162): LF, CR, U+2028, U+2029. -/
def startsWithLineTerminator (s : Bytes) : Bool :=
  startsWith s b!"\n" || startsWith s b!"\r" || startsWith s [0xE2, 0x80, 0xA8] ||
    startsWith s [0xE2, 0x80, 0xA9]

/-- The loop of `match_line_comment` (js.cpp:195-200): the text from position `length` on. -/
def lineCommentLoop : Bytes → Nat → Nat
  | [], length => length
  | s@(_ :: t), length =>
    if startsWithLineTerminator s then length else lineCommentLoop t (length + 1)

/-- `match_line_comment` (js.cpp:186-203). -/
def matchLineComment (s : Bytes) : Nat :=
  if !startsWith s b!"//" then 0 else lineCommentLoop (s.drop 2) 2

/-- The loop of `match_block_comment` (js.cpp:213-220): the text from position `length` on; `n` is
the length of the whole text. -/
def blockCommentLoop (n : Nat) : Bytes → Nat → Enclosed
  | a :: b :: t, length =>
    if a = c!"*" ∧ b = c!"/" then ⟨length + 2, true⟩ else blockCommentLoop n (b :: t) (length + 1)
  | _, _ => ⟨n, false⟩

/-- `match_block_comment` (js.cpp:205-221).  `Comment_Result` has the same members as
`Enclosed_Result`. -/
def matchBlockComment (s : Bytes) : Enclosed :=
  if !startsWith s b!"/*" then {} else blockCommentLoop s.length (s.drop 2) 2

end Ulight.Js
