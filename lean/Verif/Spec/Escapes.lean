import Verif.Parse.Escapes

/-!
# Specification of escape sequences

The language of each kind of escape, as documented at include/ulight/impl/escapes.hpp:30-55.  Only
the enumeration of kinds is taken from the model.
-/

namespace Ulight.Spec

/-- An octal digit. -/
def Octal (c : UInt8) : Prop := 0x30 ≤ c.toNat ∧ c.toNat ≤ 0x37

/-- A hexadecimal digit. -/
def Hex (c : UInt8) : Prop := (0x30 ≤ c.toNat ∧ c.toNat ≤ 0x39) ∨ (0x61 ≤ c.toNat ∧ c.toNat ≤ 0x66) ∨
  (0x41 ≤ c.toNat ∧ c.toNat ≤ 0x46)

/-- `t` is a complete escape of the given kind (without the introducer such as a backslash). -/
def IsEscape (kind : EscapeKind) (t : Bytes) : Prop :=
  match kind with
  | .octal_1_to_2 => 1 ≤ t.length ∧ t.length ≤ 2 ∧ ∀ c ∈ t, Octal c
  | .octal_1_to_3 => 1 ≤ t.length ∧ t.length ≤ 3 ∧ ∀ c ∈ t, Octal c
  | .octal_3 => t.length = 3 ∧ ∀ c ∈ t, Octal c
  | .octal_braced => ∃ ds, t = b!"{" ++ ds ++ b!"}" ∧ ds ≠ [] ∧ ∀ c ∈ ds, Octal c
  | .hex_1_to_2 => 1 ≤ t.length ∧ t.length ≤ 2 ∧ ∀ c ∈ t, Hex c
  | .hex_1_to_inf => 1 ≤ t.length ∧ ∀ c ∈ t, Hex c
  | .hex_2 => t.length = 2 ∧ ∀ c ∈ t, Hex c
  | .hex_4 => t.length = 4 ∧ ∀ c ∈ t, Hex c
  | .hex_8 => t.length = 8 ∧ ∀ c ∈ t, Hex c
  | .nonempty_braced => ∃ ds, t = b!"{" ++ ds ++ b!"}" ∧ ds ≠ [] ∧ c!"}" ∉ ds
  | .hex_braced => ∃ ds, t = b!"{" ++ ds ++ b!"}" ∧ ds ≠ [] ∧ ∀ c ∈ ds, Hex c
  | .lf_cr_crlf => t = b!"\n" ∨ t = b!"\r" ∨ t = b!"\r\n"

/-- The kinds written in braces. -/
def Braced (kind : EscapeKind) : Prop :=
  kind = .octal_braced ∨ kind = .hex_braced ∨ kind = .nonempty_braced

/-- What is accepted as an escape.  This differs from `IsEscape` in two cases, which `C28` describes:
the closing brace may be missing at the end of the text, and the braces of `nonempty_braced` may be
empty. -/
def Accepted (kind : EscapeKind) (t : Bytes) : Prop :=
  match kind with
  | .octal_braced => ∃ ds, ds ≠ [] ∧ (∀ c ∈ ds, Octal c) ∧ (t = b!"{" ++ ds ∨ t = b!"{" ++ ds ++ b!"}")
  | .hex_braced => ∃ ds, ds ≠ [] ∧ (∀ c ∈ ds, Hex c) ∧ (t = b!"{" ++ ds ∨ t = b!"{" ++ ds ++ b!"}")
  | .nonempty_braced => ∃ ds, t = b!"{" ++ ds ++ b!"}" ∧ c!"}" ∉ ds
  | kind => IsEscape kind t

/-! ## The escapes of a language

They begin with a backslash, and the next character tells which form they have. -/

/-- The form of an escape. -/
inductive EscapeForm where
  /-- the next character belongs to the escape of the kind -/
  | own (kind : EscapeKind)
  /-- the escape of the kind follows the next character -/
  | after (kind : EscapeKind)
  /-- there is only the next character -/
  | simple
  deriving DecidableEq

/-- The forms of the escapes of a language, each with the characters it is for. -/
abbrev EscapeForms := List (Bytes × EscapeForm)

/-- The rest of the escape, `c` being the character after the backslash. -/
def EscapeForm.Is (A : EscapeKind → Bytes → Prop) (c : UInt8) (t : Bytes) : EscapeForm → Prop
  | .own k => A k (c :: t)
  | .after k => A k t
  | .simple => t = []

/-- `w` is an escape. -/
def EscapeForms.Is (F : EscapeForms) (A : EscapeKind → Bytes → Prop) (w : Bytes) : Prop :=
  ∃ c t, w = c!"\\" :: c :: t ∧ ∃ e ∈ F, c ∈ e.1 ∧ e.2.Is A c t

/-- The first `n` bytes of `s` are an escape, and it could not be longer. -/
def EscapeForms.Good (F : EscapeForms) (s : Bytes) (n : Nat) : Prop :=
  F.Is Accepted (s.take n) ∧ ∀ m, n < m → m ≤ s.length → ¬ F.Is IsEscape (s.take m)

/-- There is a backslash at the beginning of `s`, but no escape. -/
def EscapeForms.Bad (F : EscapeForms) (s : Bytes) : Prop :=
  s[0]? = some c!"\\" ∧ ∀ m, ¬ F.Is IsEscape (s.take m)

end Ulight.Spec
