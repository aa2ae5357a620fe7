import Verif.Text.Ascii

/-!
# Parsing utilities (include/ulight/impl/parse_utils.hpp, src/main/cpp/parse_utils.cpp)
-/

namespace Ulight

/-- `is_html_whitespace` (include/ulight/impl/lang/html.hpp:20-28): tab, LF, FF, CR, space. -/
def isHtmlWhitespace (c : UInt8) : Bool :=
  c = 0x09 || c = 0x0A || c = 0x0C || c = 0x0D || c = 0x20

/-- `State` in `find_blank_line_sequence` (parse_utils.cpp:22-29). -/
inductive BlankState where
  | maybeBlank | notBlank | blank
  deriving DecidableEq, Repr

/-- The loop of `find_blank_line_sequence` (parse_utils.cpp:35-71): `size` is `str.size()`, `i` the
position of the front of the remaining string, `b` and `e` are `blank_begin` and `blank_end`.
Returns `begin` and `length`. -/
def blankLoop (size : Nat) : BlankState → Nat → Nat → Nat → Bytes → Nat × Nat
  | st, b, _, _, [] => if st = .blank then (b, size - b) else (0, 0)
  | .maybeBlank, b, e, i, c :: s =>
    if c = 0x0A then blankLoop size .blank b (i + 1) (i + 1) s
    else if !isHtmlWhitespace c then blankLoop size .notBlank b e (i + 1) s
    else blankLoop size .maybeBlank b e (i + 1) s
  | .notBlank, b, e, i, c :: s =>
    if c = 0x0A then blankLoop size .maybeBlank (i + 1) e (i + 1) s
    else blankLoop size .notBlank b e (i + 1) s
  | .blank, b, e, i, c :: s =>
    if c = 0x0A then blankLoop size .blank b (i + 1) (i + 1) s
    else if !isHtmlWhitespace c then (b, e - b)
    else blankLoop size .blank b e (i + 1) s

/-- `find_blank_line_sequence` (parse_utils.cpp:19-72): begin and length.  `blank_end` starts
uninitialized; it is assigned before it is read, so its initial value 0 here does not matter. -/
def findBlankLineSequence (s : Bytes) : Nat × Nat := blankLoop s.length .maybeBlank 0 0 0 s

/-- `Line_Result` (parse_utils.hpp:37-49). -/
structure LineResult where
  content : Nat
  terminator : Nat
  deriving DecidableEq, Repr

/-- `match_crlf_line` (parse_utils.cpp:90-99). -/
def matchCrlfLine (s : Bytes) : LineResult :=
  match s.findIdx? (fun c => c = 0x0D || c = 0x0A) with
  | none => ⟨s.length, 0⟩
  | some length =>
    ⟨length, if s[length]? = some 0x0D ∧ s[length + 1]? = some 0x0A then 2 else 1⟩

/-- `Enclosed_Result` (parse_utils.hpp:56-69). -/
structure Enclosed where
  length : Nat := 0
  terminated : Bool := false
  deriving DecidableEq, Repr

/-- `match_enclosed` (parse_utils.hpp:82-121).  The overload for single characters is the case of
one-byte strings. -/
def matchEnclosed (s pre suf : Bytes) : Enclosed :=
  if !startsWith s pre then {}
  else
    match findSub suf (s.drop pre.length) with
    | none => ⟨s.length, false⟩
    | some k => ⟨pre.length + k + suf.length, true⟩

/-- Value of a digit for `std::from_chars`. -/
def digitValue (c : UInt8) : Nat :=
  if isDigit c then c.toNat - 0x30
  else if isLower c then c.toNat - 0x61 + 10
  else if isUpper c then c.toNat - 0x41 + 10
  else 36

/-- The digits that `std::from_chars` matches: the longest prefix of digits of the base. -/
def fromCharsDigits (base : Nat) (s : Bytes) : Bytes := s.takeWhile (fun c => digitValue c < base)

/-- The value of a digit string. -/
def digitsValue (base : Nat) (ds : Bytes) : Nat := ds.foldl (fun v c => v * base + digitValue c) 0

/-- `std::from_chars` for `unsigned long long`, as used by `parse_uinteger_digits`
(parse_utils.cpp:76-86): no value for an empty match or one that does not fit into 64 bits.
Characters after the digits are ignored. -/
def parseUintDigits (s : Bytes) (base : Nat) : Option Nat :=
  let ds := fromCharsDigits base s
  if ds = [] then none
  else if digitsValue base ds ≥ 2 ^ 64 then none
  else some (digitsValue base ds)

/-- `parse_uinteger_literal` (parse_utils.cpp:101-116). -/
def parseUintLiteral (s : Bytes) : Option Nat :=
  if s = [] then none
  else if startsWith s b!"0b" then parseUintDigits (s.drop 2) 2
  else if startsWith s b!"0x" then parseUintDigits (s.drop 2) 16
  else if startsWith s b!"0" then parseUintDigits s 8
  else parseUintDigits s 10

/-- Conversion of a 64-bit unsigned value to `long long`. -/
def toSigned (n : Nat) : Int := if n % 2 ^ 64 < 2 ^ 63 then (n % 2 ^ 64 : Nat) else (n % 2 ^ 64 : Nat) - 2 ^ 64

/-- `parse_integer_literal` (parse_utils.cpp:118-134). -/
def parseIntLiteral (s : Bytes) : Option Int :=
  if s = [] then none
  else if startsWith s b!"-" then
    match parseUintLiteral (s.drop 1) with
    | some positive => some (toSigned (2 ^ 64 - positive))
    | none => none
  else
    match parseUintLiteral s with
    | some r => some (toSigned r)
    | none => none

end Ulight
