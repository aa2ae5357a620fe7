import Verif.Spec.Compose

/-!
# Numbers and their parts
-/

namespace Ulight.Spec

/-- Parts of a text with their highlight types.  Empty parts have no token. -/
def parts (i : Nat) : List (Bytes × HT) → List Token
  | [] => []
  | (p, ty) :: ps => opt i p ty ++ parts (i + p.length) ps

/-- The digits of a base. -/
def digitsOf (base : Nat) : Bytes :=
  if base = 2 then b!"01" else if base = 8 then b!"01234567" else if base = 10 then b!"0123456789"
  else if base = 16 then b!"0123456789abcdefABCDEF" else b!""

/-- Digits of a base, at least one. -/
def Digits (base : Nat) (s : Bytes) : Prop := s ≠ [] ∧ ∀ c ∈ s, c ∈ digitsOf base

/-- The parts of a number: a prefix such as `0x`, groups of digits with underscores between them, a radix point with more
groups of digits, the letter of an exponent with a sign, the digits of the exponent, and a suffix such as `L`. -/
structure Written where
  pre : Bytes := []
  int : List Bytes := []
  point : Bytes := []
  frac : List Bytes := []
  exp : Bytes := []
  digits : Bytes := []
  suf : Bytes := []

/-- Groups of digits with underscores between them. -/
def groups : List Bytes → List (Bytes × HT)
  | [] => []
  | [g] => [(g, .number)]
  | g :: gs => (g, .number) :: (b!"_", .number_delim) :: groups gs

/-- The parts and their highlight types. -/
def Written.parts (n : Written) : List (Bytes × HT) :=
  [(n.pre, .number_decor)] ++ groups n.int ++ [(n.point, .number_delim)] ++ groups n.frac ++
    [(n.exp, .number_delim), (n.digits, .number), (n.suf, .number_decor)]

/-- The whole number. -/
def Written.text (n : Written) : Bytes := n.parts.flatMap Prod.fst

/-- One way to write the numbers of a language. -/
structure Radix where
  pre : Bytes := []
  base : Nat := 10
  /-- underscores between digits are possible -/
  separated : Bool := true
  /-- the letters of exponents, if fractions and exponents are possible -/
  exps : Option Bytes := none
  /-- numbers may begin with the radix point -/
  point : Bool := false
  /-- the suffixes of integers -/
  ints : List Bytes := []
  /-- the suffixes of numbers with a fraction or an exponent -/
  floats : List Bytes := []

/-- Digits in one group, or in several groups if that is possible. -/
def Radix.Groups (R : Radix) (gs : List Bytes) : Prop :=
  gs ≠ [] ∧ (∀ g ∈ gs, Digits R.base g) ∧ (R.separated = false → gs.length = 1)

/-- The number is written in this way. -/
structure Written.In (n : Written) (R : Radix) : Prop where
  pre : n.pre = R.pre
  int : R.Groups n.int ∨ n.int = [] ∧ R.point = true ∧ n.frac ≠ []
  /-- a number without prefix does not begin with unnecessary zeros -/
  zero : n.pre = [] → n.int = [b!"0"] ∨ ∀ g, n.int.head? = some g → g.head? ≠ some c!"0"
  frac : n.point = [] ∧ n.frac = [] ∨ R.exps ≠ none ∧ n.point = b!"." ∧ R.Groups n.frac
  exp : n.exp = [] ∧ n.digits = [] ∨
    (∃ ls, R.exps = some ls ∧ ∃ c ∈ ls, ∃ sign ∈ [b!"", b!"+", b!"-"], n.exp = c :: sign) ∧ Digits 10 n.digits
  suf : n.suf = [] ∨ n.suf ∈ if n.point = [] ∧ n.exp = [] then R.ints else R.floats

/-- A text that begins with a character that is not part of words and numbers. -/
def Boundary (b : Bytes) : Prop :=
  ∀ c, b.head? = some c → c.toNat < 0x80 ∧ ¬ Letter c ∧ ¬ DecDigit c ∧ c ∉ b!"_."

/-- Numbers that are written in one of these ways get tokens for their parts. -/
def WrittenNumbers (hl : Highlight) (Rs : List Radix) : Prop :=
  ∀ R ∈ Rs, ∀ n b, Written.In n R → Boundary b → Piece hl n.text (parts 0 n.parts) b

end Ulight.Spec
