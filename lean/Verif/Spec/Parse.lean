import Verif.Basic

/-!
# Specification of the parsing utilities

Nothing here refers to the model; only byte strings and lists.
-/

namespace Ulight.Spec

/-- The first line of `s`: its content has no line break, and it is followed by one terminator
(CRLF, LF or CR) or by the end of the text. -/
structure FirstLine (s content term rest : Bytes) : Prop where
  split : s = content ++ term ++ rest
  content : ∀ c ∈ content, c ≠ 0x0A ∧ c ≠ 0x0D
  term : term = [0x0D, 0x0A] ∨ term = [0x0A] ∨ (term = [0x0D] ∧ rest.head? ≠ some 0x0A) ∨
    (term = [] ∧ rest = [])

/-- `s` has an occurrence of `p` at offset `k`. -/
def OccursAt (p s : Bytes) (k : Nat) : Prop := ∃ a b, s = a ++ p ++ b ∧ a.length = k

/-- A separated digit string: digits and separators. -/
def SeparatedDigits (digit : UInt8 → Bool) (sep : UInt8) (s : Bytes) : Prop :=
  ∀ c ∈ s, digit c = true ∨ c = sep

/-- A separator is misplaced: leading, trailing, or doubled. -/
def MisplacedSeparator (sep : UInt8) (s : Bytes) : Prop :=
  s.head? = some sep ∨ s.getLast? = some sep ∨ ∃ a b, s = a ++ [sep, sep] ++ b

/-- A whitespace byte of HTML. -/
def Whitespace (c : UInt8) : Prop := c ∈ ([0x20, 0x09, 0x0A, 0x0C, 0x0D] : Bytes)

/-- Offset `b` is the beginning of a line (terminated by LF). -/
def AtLineStart (s : Bytes) (b : Nat) : Prop := b = 0 ∨ s[b - 1]? = some 0x0A

/-- The line starting at offset `b` is blank: whitespace up to a line feed. -/
def BlankLineAt (s : Bytes) (b : Nat) : Prop :=
  AtLineStart s b ∧ ∃ e, b ≤ e ∧ s[e]? = some 0x0A ∧
    ∀ j c, b ≤ j → j < e → s[j]? = some c → Whitespace c

/-- The digit value of a character in bases up to 36. -/
def digitVal (c : UInt8) : Option Nat :=
  if 0x30 ≤ c.toNat ∧ c.toNat ≤ 0x39 then some (c.toNat - 0x30)
  else if 0x61 ≤ c.toNat ∧ c.toNat ≤ 0x7A then some (c.toNat - 0x61 + 10)
  else if 0x41 ≤ c.toNat ∧ c.toNat ≤ 0x5A then some (c.toNat - 0x41 + 10)
  else none

/-- `Numeral b ds v`: `ds` is a nonempty numeral with value `v` in base `b`. -/
inductive Numeral (b : Nat) : Bytes → Nat → Prop where
  | digit {c v} (h : digitVal c = some v) (lt : v < b) : Numeral b [c] v
  | snoc {ds v c w} (h : Numeral b ds v) (hc : digitVal c = some w) (lt : w < b) :
      Numeral b (ds ++ [c]) (v * b + w)

/-- `Literal s v`: `s` is a literal with value `v`: binary after `0b`, hexadecimal after `0x`,
octal after `0`, otherwise decimal. -/
inductive Literal : Bytes → Nat → Prop where
  | binary {ds v} (h : Numeral 2 ds v) : Literal (b!"0b" ++ ds) v
  | hex {ds v} (h : Numeral 16 ds v) : Literal (b!"0x" ++ ds) v
  | octal {ds v} (h : Numeral 8 ds v) (z : ds.head? = some 0x30) : Literal ds v
  | decimal {ds v} (h : Numeral 10 ds v) (z : ds.head? ≠ some 0x30) : Literal ds v

/-- `SignedLiteral s v`: an optional minus sign and a literal. -/
inductive SignedLiteral : Bytes → Int → Prop where
  | pos {s v} (h : Literal s v) : SignedLiteral s v
  | neg {s v} (h : Literal s v) : SignedLiteral (b!"-" ++ s) (-(v : Int))

/-- The parts of a number literal that `match_common_number` distinguishes. -/
structure NumberParts where
  sign : Bytes
  pre : Bytes
  integer : Bytes
  point : Bytes
  fraction : Bytes
  expSep : Bytes
  expDigits : Bytes
  suffix : Bytes

/-- The text of a number. -/
def NumberParts.text (p : NumberParts) : Bytes :=
  p.sign ++ p.pre ++ p.integer ++ p.point ++ p.fraction ++ p.expSep ++ p.expDigits ++ p.suffix

/-- Something is missing from a number or a digit separator is misplaced. -/
def NumberParts.Malformed (sep : UInt8) (p : NumberParts) : Prop :=
  p.integer = [] ∨ (p.point ≠ [] ∧ p.fraction = []) ∨ (p.expSep ≠ [] ∧ p.expDigits = []) ∨
  (sep ≠ 0 ∧ (MisplacedSeparator sep p.integer ∨ MisplacedSeparator sep p.fraction))

end Ulight.Spec
