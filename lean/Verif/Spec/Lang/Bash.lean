import Verif.Spec.Lang.Common

/-!
# Specification of Bash highlighting
-/

namespace Ulight.Spec.Bash

/-- Whitespace. -/
def Space (c : UInt8) : Prop := c ∈ ([0x20, 0x09, 0x0B, 0x0D, 0x0A] : Bytes)

/-- Characters that end a word: whitespace, metacharacters, quotes and the backslash. -/
def Terminator (c : UInt8) : Prop := Space c ∨ c ∈ b!"|&;()<>" ∨ c ∈ b!"\\'\""

/-- Special parameters, such as `$?`. -/
def Special (c : UInt8) : Prop := c ∈ b!"*@#?-$!0"

/-- The first character of a name. -/
def NameStart (c : UInt8) : Prop := Letter c ∨ c = c!"_"

/-- The other characters of a name. -/
def NameChar (c : UInt8) : Prop := NameStart c ∨ DecDigit c

/-- A word: it contains no terminator, and after it there is one, or a substitution, or the end of a
parameter substitution, or nothing. -/
def Word (s : Bytes) (n : Nat) : Prop :=
  (∀ c ∈ s.take n, ¬ Terminator c) ∧
    ∀ c, s[n]? = some c → Terminator c ∨ c = c!"$" ∨ c = c!"}"

/-- The operators that are highlighted. -/
def operators : List Bytes :=
  [b!"|", b!"||", b!"&", b!"&&", b!"&>", b!"&>>", b!";", b!"<", b!"<<", b!"<<<", b!"<&", b!"<>",
   b!">", b!">>", b!">&"]

/-- A token of type `ty` may cover the first `n` bytes of `s`. -/
inductive Tok : Bytes → Nat → HT → Prop where
  /-- a backslash and the next character -/
  | escape {s n c} (h : s.take n = [c!"\\", c]) : Tok s n .string_escape
  /-- a backslash before a line break or at the end -/
  | continuation {s n} (h : s.take n = b!"\\") (h' : s[n]? = some 0x0A ∨ s[n]? = none) :
      Tok s n .string_escape
  | quote {s n} (h : s.take n ∈ [b!"'", b!"\""]) : Tok s n .string_delim
  /-- the content of a string in single quotes extends to the next quote -/
  | single {s n} (h : Longest (· ≠ c!"'") s n) : Tok s n .string
  | double {s n} (h : ∀ c ∈ s.take n, c ≠ c!"\"") : Tok s n .string
  | argument {s n} (h : Word s n) : Tok s n .string
  | commentDelim {s n} (h : s.take n = b!"#") : Tok s n .comment_delim
  /-- a comment extends to the end of the line -/
  | comment {s n} (h : Longest (· ≠ 0x0A) s n) : Tok s n .comment
  | parens {s n} (h : s.take n ∈ [b!"(", b!")"]) : Tok s n .symbol_parens
  | brace {s n} (h : s.take n = b!"}") : Tok s n .symbol_brace
  /-- the longest operator -/
  | operator {s n} (h : LongestIn operators s n) : Tok s n .symbol_op
  | interpolationDelim {s n} (h : s.take n ∈ [b!"${", b!"$(", b!"$((", b!")", b!"))", b!"}"]) :
      Tok s n .string_interpolation_delim
  | special {s n c} (h : s.take n = [c!"$", c]) (hc : Special c) : Tok s n .string_interpolation
  | variable {s n c t} (h : s.take n = c!"$" :: c :: t) (hc : NameStart c)
      (ht : Longest NameChar (s.drop 1) (n - 1)) : Tok s n .string_interpolation
  | interpolation {s n} (h : Word s n) : Tok s n .string_interpolation
  | command {s n} (h : Word s n) : Tok s n .name_shell_command
  | option {s n} (h : Word s n) (h' : s[0]? = some c!"-") : Tok s n .name_shell_option

/-- Text without a token is whitespace. -/
def rules : Rules := ⟨Tok, fun s n => ∀ c ∈ s.take n, Space c⟩

end Ulight.Spec.Bash
