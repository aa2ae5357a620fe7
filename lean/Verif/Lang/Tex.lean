import Verif.Hl.Base

/-!
# TeX (src/main/cpp/lang/tex.cpp)
-/

namespace Ulight.Tex

/-- `is_tex_command_name` (include/ulight/impl/lang/tex.hpp:8). -/
def isCommandName (c : UInt8) : Bool := isAlpha c

/-- `is_tex_special` (include/ulight/impl/lang/tex.hpp:14). -/
def isSpecial (c : UInt8) : Bool := c ∈ b!"~%$\\#$&^_~@"

/-- `flush_text` (tex.cpp:33-38), without the assignment to `text_length`. -/
def flushText (n : Nat) : HM Unit Unit := if n ≠ 0 then HM.advance n else pure ()

/-- The case of a backslash (tex.cpp:52-70), after `flush_text()`. -/
def backslash : HM Unit Unit := do
  let r ← HM.rem
  HM.hassert (r.length ≥ 1)
  if r.length = 1 then HM.emitAdv 1 .error
  else do
    let nameLength := Ascii.length_if r isCommandName 1
    HM.hassert (nameLength ≥ 1)
    if nameLength = 1 then HM.emitAdv 2 .string_escape
    else HM.emitAdv nameLength .markup_tag

/-- The body of the loop (tex.cpp:40-83); the local variable is `text_length`. -/
def step (textLength : Nat) : HM Unit (Nat ⊕ Nat) := do
  let r ← HM.rem
  match r[textLength]? with
  | none => pure (.inr textLength)
  | some c =>
    if c = c!"[" ∨ c = c!"]" then do
      flushText textLength
      HM.emitAdv 1 .symbol_square
      pure (.inl 0)
    else if c = c!"{" ∨ c = c!"}" then do
      flushText textLength
      HM.emitAdv 1 .symbol_brace
      pure (.inl 0)
    else if c = c!"\\" then do
      flushText textLength
      backslash
      pure (.inl 0)
    else if isSpecial c then do
      flushText textLength
      HM.emitAdv 1 .symbol_op
      pure (.inl 0)
    else pure (.inl (textLength + 1))

/-- `operator()` (tex.cpp:30-87). -/
def run : HM Unit Bool := do
  let r ← HM.rem
  let textLength ← HM.loop (r.length + 1) step 0
  flushText textLength
  pure true

/-- `highlight_tex` (tex.cpp:95-103). -/
def highlight : Highlight := HM.run run ()

end Ulight.Tex
