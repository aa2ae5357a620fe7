import Verif.Text.Ascii

/-!
# Escape sequences (include/ulight/impl/escapes.hpp)
-/

namespace Ulight

/-- `Escape_Result` (escapes.hpp:15-28). -/
structure Escape where
  length : Nat
  erroneous : Bool := false
  deriving DecidableEq, Repr

/-- `Common_Escape` (escapes.hpp:30-55). -/
inductive EscapeKind where
  | octal_1_to_2 | octal_1_to_3 | octal_3 | octal_braced | hex_1_to_2 | hex_1_to_inf
  | hex_2 | hex_4 | hex_8 | nonempty_braced | hex_braced | lf_cr_crlf
  deriving DecidableEq, Repr

/-- `detail::match_common_braced_escape` (escapes.hpp:105-120). -/
def matchBracedEscape (s : Bytes) (p : UInt8 → Bool) : Escape :=
  if !startsWith s b!"{" then ⟨0, true⟩
  else
    let lengthWithoutBrace := Ascii.length_before s c!"}" 1
    let digits := (s.drop 1).take (lengthWithoutBrace - 1)
    let erroneous := lengthWithoutBrace ≤ 1 || !digits.all p
    let length := if lengthWithoutBrace = s.length ∨ s[lengthWithoutBrace]? ≠ some c!"}" then
      lengthWithoutBrace else lengthWithoutBrace + 1
    ⟨length, erroneous⟩

/-- `match_common_escape<type>(str)` (escapes.hpp:124-200). -/
def matchCommonEscape (kind : EscapeKind) (s : Bytes) : Escape :=
  match kind with
  | .octal_1_to_2 =>
    let n := Ascii.length_if (s.take 2) isOctalDigit
    ⟨n, n == 0⟩
  | .octal_1_to_3 =>
    let n := Ascii.length_if (s.take 3) isOctalDigit
    ⟨n, n == 0⟩
  | .octal_3 =>
    let n := Ascii.length_if (s.take 3) isOctalDigit
    ⟨n, n != 3⟩
  | .octal_braced => matchBracedEscape s isOctalDigit
  | .hex_1_to_2 =>
    let n := Ascii.length_if (s.take 2) isHexDigit
    ⟨n, n == 0⟩
  | .hex_1_to_inf =>
    let n := Ascii.length_if s isHexDigit
    ⟨n, n == 0⟩
  | .hex_2 => fixed 2
  | .hex_4 => fixed 4
  | .hex_8 => fixed 8
  | .nonempty_braced =>
    if !startsWith s b!"{" then ⟨0, true⟩
    else
      match Ascii.findLoop (· == c!"}") true 1 (s.drop 1) with
      | none => ⟨s.length, true⟩
      | some i => ⟨i + 1, false⟩
  | .hex_braced => matchBracedEscape s isHexDigit
  | .lf_cr_crlf =>
    let n := if startsWith s b!"\r\n" then 2
      else if startsWith s b!"\r" || startsWith s b!"\n" then 1 else 0
    ⟨n, n == 0⟩
where
  /-- The branch for `hex_2`, `hex_4` and `hex_8` (escapes.hpp:163-172). -/
  fixed (min : Nat) : Escape :=
    let str := s.take min
    if str.length < min then ⟨str.length, true⟩ else ⟨str.length, !str.all isHexDigit⟩

/-- `match_common_escape<type>(str, prefix_length)` (escapes.hpp:209-216).  `substr` throws if the
prefix is longer than the string; all callers have matched the prefix, so this is not modelled. -/
def matchCommonEscapeAt (kind : EscapeKind) (s : Bytes) (prefixLength : Nat) : Escape :=
  let r := matchCommonEscape kind (s.drop prefixLength)
  { r with length := r.length + prefixLength }

end Ulight
