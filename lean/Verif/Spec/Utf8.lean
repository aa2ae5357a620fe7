import Verif.Basic

/-!
# Specification of UTF-8 (The Unicode Standard, chapter 3, definitions D76, D92, D93b, table 3-6)
-/

namespace Ulight.Spec

/-- D76: a Unicode scalar value is any code point except the surrogates. -/
def IsScalar (c : Nat) : Prop := c < 0xD800 ∨ (0xE000 ≤ c ∧ c ≤ 0x10FFFF)

instance (c : Nat) : Decidable (IsScalar c) := by unfold IsScalar; infer_instance

/-- Table 3-6: the bytes of a scalar value. -/
def utf8 (c : Nat) : Bytes :=
  if c < 0x80 then [UInt8.ofNat c]
  else if c < 0x800 then [UInt8.ofNat (0xC0 + c / 64), UInt8.ofNat (0x80 + c % 64)]
  else if c < 0x10000 then
    [UInt8.ofNat (0xE0 + c / 4096), UInt8.ofNat (0x80 + c / 64 % 64), UInt8.ofNat (0x80 + c % 64)]
  else
    [UInt8.ofNat (0xF0 + c / 262144), UInt8.ofNat (0x80 + c / 4096 % 64),
     UInt8.ofNat (0x80 + c / 64 % 64), UInt8.ofNat (0x80 + c % 64)]

/-- The UTF-8 text of a sequence of scalar values. -/
def utf8All (cs : List Nat) : Bytes := cs.flatMap utf8

/-- Well-formed UTF-8 (D92): a concatenation of encodings of scalar values. -/
def IsUtf8 (s : Bytes) : Prop := ∃ cs, (∀ c ∈ cs, IsScalar c) ∧ s = utf8All cs

/-- If `s` is well-formed, then its first `n` bytes are whole characters. -/
def Whole (s : Bytes) (n : Nat) : Prop := IsUtf8 s → IsUtf8 (s.take n) ∧ IsUtf8 (s.drop n)

/-- `p` is a non-empty beginning of the encoding of some scalar value. -/
def IsUtf8Start (p : Bytes) : Prop := p ≠ [] ∧ ∃ c, IsScalar c ∧ p <+: utf8 c

/-- `p` is what has to be replaced by one U+FFFD at the front of the ill-formed text `p ++ rest`
("substitution of maximal subparts", D93b): no scalar value's encoding is at the front; `p` is a
single byte or the beginning of some encoding; and no longer prefix of the text is the beginning of
an encoding. -/
def MaximalSubpart (p rest : Bytes) : Prop :=
  (∀ c, IsScalar c → ¬ utf8 c <+: p ++ rest) ∧
  (p.length = 1 ∨ IsUtf8Start p) ∧
  ∀ q, q <+: p ++ rest → p.length < q.length → ¬ IsUtf8Start q

/-- The first character `c` of a text, with its bytes `p`: a scalar value, or U+FFFD standing for
an ill-formed part. -/
def FirstChar (c : Nat) (p rest : Bytes) : Prop :=
  (IsScalar c ∧ p = utf8 c) ∨ (c = 0xFFFD ∧ p ≠ [] ∧ MaximalSubpart p rest)

/-- Splitting any byte string into characters, left to right. -/
inductive Chars : Bytes → List (Nat × Bytes) → Prop where
  | nil : Chars [] []
  | cons {c p rest cs} : FirstChar c p rest → Chars rest cs → Chars (p ++ rest) ((c, p) :: cs)

/-- Byte offset of the first character satisfying a predicate. -/
def firstOffset (pred : Nat → Bool) : List (Nat × Bytes) → Option Nat
  | [] => none
  | (c, p) :: cs => if pred c then some 0 else (firstOffset pred cs).map (p.length + ·)

end Ulight.Spec
