import Verif.Spec.Lang.Common
import Verif.Spec.Words

/-!
# Specification of Lua highlighting
-/

namespace Ulight.Spec.Lua

/-- A long bracket that opens, with `k` equals signs. -/
def open_ (k : Nat) : Bytes := b!"[" ++ List.replicate k c!"=" ++ b!"["

/-- A long bracket that closes, with `k` equals signs. -/
def close (k : Nat) : Bytes := b!"]" ++ List.replicate k c!"=" ++ b!"]"

/-- The white space. -/
def Space (c : UInt8) : Prop := c ∈ b!" \t\n\r" ∨ c = 0x0B ∨ c = 0x0C

/-- A hexadecimal digit. -/
def HexDigit (c : UInt8) : Prop := ∃ v, digitVal c = some v ∧ v < 16

/-- `Quoted q s n`: the rest of a string that began with `q` has `n` bytes: up to the quotation mark (which is part
of it), the end of the line, or the end of the text.  A character after a backslash counts for nothing. -/
inductive Quoted (q : UInt8) : Bytes → Nat → Prop where
  | atEnd : Quoted q [] 0
  | lineEnd {t} : Quoted q (c!"\n" :: t) 0
  | closed {t} : Quoted q (q :: t) 1
  | escape {c t n} (h : Quoted q t n) : Quoted q (c!"\\" :: c :: t) (n + 2)
  | lastBackslash : Quoted q [c!"\\"] 1
  | plain {c t n} (hc : c ∉ [q, c!"\\", c!"\n"]) (h : Quoted q t n) : Quoted q (c :: t) (n + 1)

/-- As many bytes as possible that satisfy `D`. -/
def Digits (D : UInt8 → Prop) (s : Bytes) (n : Nat) : Prop := n ≤ s.length ∧ Longest D s n

/-- The fractional part of a number: a point and digits, or nothing if there is no point. -/
def Fraction (D : UInt8 → Prop) (s : Bytes) (n : Nat) : Prop :=
  if s[0]? = some c!"." then 0 < n ∧ Digits D (s.drop 1) (n - 1) else n = 0

/-- An optional sign. -/
def Sign (s : Bytes) (n : Nat) : Prop := if s[0]? = some c!"+" ∨ s[0]? = some c!"-" then n = 1 else n = 0

/-- The exponent of a number, with at least `least` digits. -/
def Exponent (letters : Bytes) (least : Nat) (s : Bytes) (n : Nat) : Prop :=
  ∃ c k m, s[0]? = some c ∧ c ∈ letters ∧ Sign (s.drop 1) k ∧ Digits DecDigit (s.drop (1 + k)) m ∧ least ≤ m ∧
    n = 1 + k + m

/-- The exponent of a number, if there is one. -/
def MaybeExponent (letters : Bytes) (least : Nat) (s : Bytes) (n : Nat) : Prop :=
  Exponent letters least s n ∨ (n = 0 ∧ ∀ m, ¬ Exponent letters least s m)

/-- A number in base 16. -/
def Hex (s : Bytes) (n : Nat) : Prop :=
  (s.take 2 = b!"0x" ∨ s.take 2 = b!"0X") ∧ ∃ a f e, Digits HexDigit (s.drop 2) a ∧ Fraction HexDigit (s.drop (2 + a)) f ∧
    MaybeExponent b!"pP" 0 (s.drop (2 + a + f)) e ∧ n = 2 + a + f + e

/-- A number in base 10: there is at least one digit before or after the point. -/
def Decimal (s : Bytes) (n : Nat) : Prop :=
  ¬ (s.take 2 = b!"0x" ∨ s.take 2 = b!"0X") ∧ ∃ a f e, Digits DecDigit s a ∧ Fraction DecDigit (s.drop a) f ∧
    MaybeExponent b!"eE" 1 (s.drop (a + f)) e ∧ (0 < a ∨ 1 < f) ∧ n = a + f + e

/-- The characters that may begin an identifier. -/
def IdStart (c : Nat) : Prop := c = 0x5F ∨ 0x41 ≤ c ∧ c ≤ 0x5A ∨ 0x61 ≤ c ∧ c ≤ 0x7A

/-- The characters that may continue an identifier. -/
def IdContinue (c : Nat) : Prop := IdStart c ∨ 0x30 ≤ c ∧ c ≤ 0x39

/-- The keywords and symbols, and how they are highlighted. -/
def words : List (Bytes × HT) := vocabulary [
  (.bool_, b!"false true"),
  (.keyword, b!"and function in local not or"),
  (.keyword_control, b!"break do else elseif end for goto if repeat return then until while"),
  (.null, b!"nil"),
  (.symbol_brace, b!"{ }"),
  (.symbol_op, b!"# % & * + - . .. ... / // : :: < << <= = == > >= >> ^ | ~ ~="),
  (.symbol_parens, b!"( )"),
  (.symbol_punc, b!", ;"),
  (.symbol_square, b!"[ ]")]

/-- The symbols. -/
def symbols : List Bytes :=
  [b!"#", b!"%", b!"&", b!"(", b!")", b!"*", b!"+", b!",", b!"-", b!".", b!"..", b!"...", b!"/", b!"//", b!":", b!"::",
    b!";", b!"<", b!"<<", b!"<=", b!"=", b!"==", b!">", b!">=", b!">>", b!"[", b!"]", b!"^", b!"{", b!"|", b!"}", b!"~", b!"~="]

/-- No construct that is longer than a symbol begins here. -/
structure Plain (s : Bytes) : Prop where
  comment : ¬ OccursAt b!"--" s 0
  bracket : ∀ k, ¬ OccursAt (open_ k) s 0
  attr : ¬ OccursAt b!"<const>" s 0
  number : ∀ n, ¬ Hex s n ∧ ¬ Decimal s n
  other : ∀ c, s[0]? = some c → ¬ Space c ∧ c ≠ c!"\"" ∧ c ≠ c!"'" ∧ ¬ IdStart c.toNat

/-- `Tok s n ty`: a token of type `ty` may cover the first `n` bytes of `s`. -/
inductive Tok : Bytes → Nat → HT → Prop where
  | attrOpen {s} (h : OccursAt b!"<const>" s 0) : Tok s 1 .name_attr_delim
  | attr {s} (h : OccursAt b!"const>" s 0) : Tok s 5 .name_attr
  | attrClose {s} (h : OccursAt b!">" s 0) : Tok s 1 .name_attr_delim
  /-- the beginning of a comment that ends with the line -/
  | commentDelim {s} (h : OccursAt b!"--" s 0) (l : ∀ k, ¬ OccursAt (open_ k) s 2) : Tok s 2 .comment_delim
  | comment {s n} (h : Longest (· ≠ c!"\n") s n) : Tok s n .comment
  /-- the beginning of a comment in long brackets -/
  | commentOpen {s n k} (h : s.take n = b!"--" ++ open_ k) : Tok s n .comment_delim
  | blockComment {s n k} (h : UpTo (close k) s n) : Tok s n .comment
  | commentClose {s n k} (h : s.take n = close k) : Tok s n .comment_delim
  | longOpen {s n k} (h : s.take n = open_ k) : Tok s n .string
  | long {s n k} (h : UpTo (close k) s n) : Tok s n .string
  | longClose {s n k} (h : s.take n = close k) : Tok s n .string
  /-- a string, including its quotation marks -/
  | quoted {q t n} (hq : q = c!"\"" ∨ q = c!"'") (h : Quoted q t n) : Tok (q :: t) (n + 1) .string
  | number {s n} (h : Hex s n ∨ Decimal s n) : Tok s n .number
  | keyword {s n ty} (h : Identifier IdStart IdContinue s n) (t : (s.take n, ty) ∈ words) : Tok s n ty
  | name {s n} (h : Identifier IdStart IdContinue s n) (t : ∀ ty, (s.take n, ty) ∉ words) : Tok s n .name
  | symbol {s n ty} (h : LongestIn symbols s n) (t : (s.take n, ty) ∈ words) (p : Plain s) : Tok s n ty
  /-- any other byte -/
  | other {s} (h : s ≠ []) (sym : ∀ w ∈ symbols, ¬ OccursAt w s 0) (p : Plain s) : Tok s 1 .symbol

/-- Text without a token is white space. -/
def rules : Rules := ⟨Tok, fun s n => ∀ c ∈ s.take n, Space c⟩

/-- A comment or string has just begun, before which is the first text, and the second text is its end: there is nothing
in it. -/
inductive Hollow : Bytes → Bytes → Prop where
  | line {u t} (h : t = [] ∨ t.head? = some c!"\n") : Hollow (u ++ b!"--") t
  | long {u t k} (h : t = [] ∨ OccursAt (close k) t 0) : Hollow (u ++ open_ k) t

/-- The text has no place where there may be an empty comment or an empty string in long brackets. -/
def Filled (src : Bytes) : Prop := ∀ u t, src = u ++ t → ¬ Hollow u t

end Ulight.Spec.Lua
