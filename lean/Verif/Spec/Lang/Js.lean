import Verif.Spec.Parse

/-!
# Specification of JavaScript comments
-/

namespace Ulight.Spec.Js

/-- The texts that end a line. -/
def lineTerminators : List Bytes := [b!"\n", b!"\r", [0xE2, 0x80, 0xA8], [0xE2, 0x80, 0xA9]]

/-- A line terminator at offset `k`. -/
def LineTerminatorAt (s : Bytes) (k : Nat) : Prop := ∃ t ∈ lineTerminators, OccursAt t s k

/-- `s` begins with a line comment whose text after `//` is `body`, followed by `rest`. -/
structure LineComment (s body rest : Bytes) : Prop where
  split : s = b!"//" ++ body ++ rest
  first : ∀ k, LineTerminatorAt (body ++ rest) k → body.length ≤ k
  ends : rest ≠ [] → LineTerminatorAt (body ++ rest) body.length

/-- `s` begins with a block comment whose text between the delimiters is `body`, followed by
`rest`. -/
structure BlockComment (s body rest : Bytes) : Prop where
  split : s = b!"/*" ++ body ++ b!"*/" ++ rest
  first : ∀ k, OccursAt b!"*/" (body ++ b!"*/" ++ rest) k → body.length ≤ k

/-- `s` begins with a block comment that is not closed. -/
structure OpenComment (s body : Bytes) : Prop where
  split : s = b!"/*" ++ body
  none : ∀ k, ¬ OccursAt b!"*/" body k

/-- The first `n` bytes of `s` are what precedes the first line terminator. -/
def Line (s : Bytes) (n : Nat) : Prop :=
  (∀ k, LineTerminatorAt s k → n ≤ k) ∧ (n = s.length ∨ LineTerminatorAt s n)

end Ulight.Spec.Js
