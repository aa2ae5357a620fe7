import Verif.Spec.Stream
import Verif.Spec.Parse
import Verif.Spec.Utf8

/-!
# Vocabulary for the tokens of programming languages
-/

namespace Ulight.Spec

/-- The first `n` bytes of `s` satisfy `p`, and the byte after them, if there is one, does not. -/
def Longest (p : UInt8 → Prop) (s : Bytes) (n : Nat) : Prop :=
  (∀ c ∈ s.take n, p c) ∧ ∀ c, s[n]? = some c → ¬ p c

/-- The first `n` bytes of `s` are the longest of the given words at the beginning of `s`. -/
def LongestIn (words : List Bytes) (s : Bytes) (n : Nat) : Prop :=
  s.take n ∈ words ∧ ∀ m, n < m → m ≤ s.length → s.take m ∉ words

/-- The first `n` bytes of `s` are what precedes the first occurrence of `suf`, or everything if
there is none. -/
def UpTo (suf s : Bytes) (n : Nat) : Prop :=
  (∀ k, OccursAt suf s k → n ≤ k) ∧ (n = s.length ∨ OccursAt suf s n)

/-- A character of a line. -/
def InLine (c : UInt8) : Prop := c ≠ 0x0A ∧ c ≠ 0x0D

/-- A decimal digit. -/
def DecDigit (c : UInt8) : Prop := 0x30 ≤ c.toNat ∧ c.toNat ≤ 0x39

/-- An ASCII letter. -/
def Letter (c : UInt8) : Prop :=
  (0x61 ≤ c.toNat ∧ c.toNat ≤ 0x7A) ∨ (0x41 ≤ c.toNat ∧ c.toNat ≤ 0x5A)

/-- The lower-case version of an ASCII letter. -/
def lower (c : UInt8) : UInt8 := if c!"A" ≤ c ∧ c ≤ c!"Z" then c + 32 else c

/-- What the numbers of a language are made of. -/
structure Numerals where
  /-- signs and prefixes, such as `-0x` -/
  decor : List Bytes := []
  /-- between the number and its exponent -/
  exps : List Bytes := []
  /-- after the number -/
  suffix : Bytes → Prop := fun _ => False
  /-- the largest base of the digits -/
  base : Nat := 10
  /-- the digit separator; zero if there is none -/
  sep : UInt8 := 0

/-- A digit in the largest base. -/
def Numerals.Digit (N : Numerals) (c : UInt8) : Prop := ∃ v, digitVal c = some v ∧ v < N.base

/-- A digit or the separator. -/
def Numerals.Digits (N : Numerals) (c : UInt8) : Prop := N.Digit c ∨ (N.sep ≠ 0 ∧ c = N.sep)

/-- The parts of a number, some of which may be missing. -/
structure Numerals.Parts (N : Numerals) (p : NumberParts) : Prop where
  decor : p.sign ++ p.pre = [] ∨ p.sign ++ p.pre ∈ N.decor
  integer : ∀ c ∈ p.integer, N.Digits c
  point : p.point = [] ∨ p.point = b!"."
  fraction : ∀ c ∈ p.fraction, N.Digits c
  expSep : p.expSep = [] ∨ p.expSep ∈ N.exps
  expDigits : ∀ c ∈ p.expDigits, DecDigit c
  suffix : p.suffix = [] ∨ N.suffix p.suffix

/-- `NumberTok N split s n ty`: a token of type `ty` for the first `n` bytes of `s`, when `s` is
inside of a number.  If `split` is set, digit separators have tokens of their own. -/
inductive NumberTok (N : Numerals) (split : Bool) : Bytes → Nat → HT → Prop where
  | digits {s n} (h : ∀ c ∈ s.take n, N.Digits c) (sp : split = true → ∀ c ∈ s.take n, c ≠ N.sep) :
      NumberTok N split s n .number
  | point {s n} (h : s.take n = b!".") : NumberTok N split s n .number_delim
  | exponent {s n} (h : s.take n ∈ N.exps) : NumberTok N split s n .number_delim
  | separator {s n} (sp : split = true) (h : s.take n = [N.sep]) : NumberTok N split s n .number_delim
  | decor {s n} (h : s.take n ∈ N.decor) : NumberTok N split s n .number_decor
  | suffix {s n} (h : N.suffix (s.take n)) : NumberTok N split s n .number_decor
  /-- a number is an error as a whole if it is malformed -/
  | error {s n p} (h : s.take n = p.text) (hp : N.Parts p) (m : p.Malformed N.sep) :
      NumberTok N split s n .error

/-- The first `n` bytes of `s` are whole characters that satisfy `P`, and the next character, if
there is one, does not. -/
def LongestChars (P : Nat → Prop) (s : Bytes) (n : Nat) : Prop :=
  ∃ a b : List (Nat × Bytes), Chars s (a ++ b) ∧ (a.flatMap Prod.snd).length = n ∧
    (∀ c ∈ a, P c.1) ∧ ∀ c, b.head? = some c → ¬ P c.1

/-- The first `n` bytes of `s` are an identifier, which could not be longer. -/
def Identifier (Start Continue : Nat → Prop) (s : Bytes) (n : Nat) : Prop :=
  ∃ c p rest, s = p ++ rest ∧ FirstChar c p rest ∧ Start c ∧ p.length ≤ n ∧
    LongestChars Continue rest (n - p.length)

/-- `Content q s n`: the first `n` bytes of `s` are the text of a string with the quotation marks
`q`, up to the next escape sequence, the end of the string, or (if `q` is a single quotation mark)
the end of the line. -/
structure Content (q s : Bytes) (n : Nat) : Prop where
  open_ : ∀ k, k < n → ¬ OccursAt q s k
  plain : ∀ c ∈ s.take n, c ≠ c!"\\" ∧ (q.length = 1 → InLine c)
  until_ : n = s.length ∨ OccursAt q s n ∨ s[n]? = some c!"\\" ∨
    (q.length = 1 ∧ (s[n]? = some 0x0A ∨ s[n]? = some 0x0D))

/-- `TextTo q stop s n`: the first `n` bytes of `s` are all of the text before `q`, before a byte that
satisfies `stop`, or before the end. -/
structure TextTo (q : Bytes) (stop : UInt8 → Prop) (s : Bytes) (n : Nat) : Prop where
  open_ : ∀ k, k < n → ¬ OccursAt q s k
  plain : ∀ c ∈ s.take n, ¬ stop c
  until_ : n = s.length ∨ OccursAt q s n ∨ ∃ c, s[n]? = some c ∧ stop c

end Ulight.Spec
