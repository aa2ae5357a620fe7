import Verif.Spec.Lang.CppId
import Verif.Spec.Escapes
import Verif.Spec.Words

/-!
# Specification of Python highlighting
-/

namespace Ulight.Spec.Python

/-- Whitespace. -/
def Space (c : UInt8) : Prop := c ∈ ([0x20, 0x09, 0x0C, 0x0A, 0x0D] : Bytes)

/-- A character of a string prefix. -/
def PrefixChar (c : UInt8) : Prop := Letter c ∨ DecDigit c ∨ c = c!"_"

/-- A string prefix of Python: any capitalization of `b`, `f`, `r`, `u`, `br`, `rb`, `fr`, `rf`. -/
def AnyPrefix (w : Bytes) : Prop :=
  w.map lower ∈ [b!"b", b!"f", b!"r", b!"u", b!"br", b!"rb", b!"fr", b!"rf"]

/-- A string prefix that is recognized: all but `u` and `Rf`. -/
def Prefix (w : Bytes) : Prop := AnyPrefix w ∧ w ≠ b!"u" ∧ w ≠ b!"Rf"

/-- The keywords and symbols, and how they are highlighted. -/
def words : List (Bytes × HT) := vocabulary [
  (.bool_, b!"False True"),
  (.keyword, b!"and as assert async class def del from global import in is lambda nonlocal not or with"),
  (.keyword_control, b!"await break case continue elif else except finally for if match pass raise return try"),
  (.keyword_control, b!"while yield"),
  (.null, b!"None"),
  (.string_escape, b!"\\"),
  (.symbol_brace, b!"{ }"),
  (.symbol_op, b!"!= % %= & &= * ** **= *= + += - -= / // //= /= := < << <<= <= == > >= >> >>= @ @= ^ ^= | |="),
  (.symbol_op, b!"~"),
  (.symbol_parens, b!"( )"),
  (.symbol_punc, b!", -> . ... : ; = >>>"),
  (.symbol_square, b!"[ ]")]

/-- The symbols: the words of the table that do not begin with a letter. -/
def symbols : List Bytes := (words.map Prod.fst).filter fun w => (w.take 1).all (!isAlpha ·)

/-- Numbers. -/
def numerals : Numerals where
  decor := [b!"0b", b!"0B", b!"0o", b!"0O", b!"0x", b!"0X"]
  exps := [b!"e", b!"e+", b!"e-", b!"E", b!"E+", b!"E-"]
  suffix := fun w => w = b!"j" ∨ w = b!"J"
  base := 16
  sep := c!"_"

/-- An escape sequence in a string that is not raw.  Octal escapes have three digits. -/
inductive Esc : Bytes → Prop where
  | newline {t} (h : IsEscape .lf_cr_crlf t) : Esc (c!"\\" :: t)
  | octal {t} (h : IsEscape .octal_3 t) : Esc (c!"\\" :: t)
  | hex {t} (h : IsEscape .hex_2 t) : Esc (b!"\\x" ++ t)
  | name {ds} (h : c!"}" ∉ ds) : Esc (b!"\\N{" ++ ds ++ b!"}")
  | short {t} (h : IsEscape .hex_4 t) : Esc (b!"\\u" ++ t)
  | long {t} (h : IsEscape .hex_8 t) : Esc (b!"\\U" ++ t)
  | simple {c} (h : c ∈ b!"\\'\"abfnrtv") : Esc [c!"\\", c]

/-- `Tok s n ty`: a token of type `ty` may cover the first `n` bytes of `s`. -/
inductive Tok : Bytes → Nat → HT → Prop where
  | commentDelim {s n} (h : s.take n = b!"#") : Tok s n .comment_delim
  | comment {s n} (h : Longest InLine s n) : Tok s n .comment
  /-- a keyword -/
  | keyword {s n ty} (h : Identifier CppId.Start CppId.Continue s n)
      (t : (s.take n, ty) ∈ words) : Tok s n ty
  /-- any other identifier -/
  | name {s n} (h : Identifier CppId.Start CppId.Continue s n)
      (t : ∀ ty, (s.take n, ty) ∉ words) : Tok s n .name
  | symbol {s n ty} (h : LongestIn symbols s n) (t : (s.take n, ty) ∈ words) : Tok s n ty
  | number {s n ty} (h : NumberTok numerals true s n ty) : Tok s n ty
  /-- a string prefix is followed by a quotation mark -/
  | decor {s n} (h : Prefix (s.take n)) (q : s[n]? = some c!"'" ∨ s[n]? = some c!"\"") :
      Tok s n .string_decor
  | quote {s n} (h : s.take n ∈ [b!"'", b!"\"", b!"'''", b!"\"\"\""]) : Tok s n .string_delim
  | string {s n q} (hq : q ∈ [b!"'", b!"\"", b!"'''", b!"\"\"\""]) (h : Content q s n) : Tok s n .string
  /-- in raw strings, a backslash and the next character -/
  | raw {s n c p rest} (h : s = c!"\\" :: (p ++ rest)) (hc : FirstChar c p rest) (hn : n = 1 + p.length) :
      Tok s n .string
  | rawEnd {s n} (h : s = b!"\\") : Tok s n .string
  | escape {s n} (h : Esc (s.take n)) : Tok s n .string_escape
  /-- not an escape sequence -/
  | badEscape {s n} (h : s[0]? = some c!"\\") (h' : ∀ t u, s = t ++ u → ¬ Esc t) : Tok s n .error
  /-- an escape sequence that is not allowed in byte strings -/
  | notBytes {s n} (h : s.take 2 ∈ [b!"\\N", b!"\\u", b!"\\U"]) : Tok s n .error
  | notBytesRaw {s n c p rest} (h : s = c!"\\" :: (p ++ rest)) (hc : FirstChar c p rest)
      (hn : n = 1 + p.length) (h' : p.length ≠ 1) : Tok s n .error
  | rawBytesEnd {s n} (h : s = b!"\\") : Tok s n .error
  /-- not a string prefix -/
  | badPrefix {s n} (h : Longest PrefixChar s n) (p : ¬ Prefix (s.take n))
      (q : s[n]? = some c!"'" ∨ s[n]? = some c!"\"") : Tok s n .error
  /-- a character that cannot begin anything -/
  | unknown {s n c p rest} (h : s = p ++ rest) (hc : FirstChar c p rest) (hn : n = p.length)
      (id : ¬ CppId.Start c) (sym : ∀ w ∈ symbols, ¬ OccursAt w s 0)
      (other : ∀ b, s[0]? = some b → ¬ DecDigit b ∧ ¬ Space b ∧ b ∉ b!"#'\"") : Tok s n .error

/-- Text without a token is whitespace. -/
def rules : Rules := ⟨Tok, fun s n => ∀ c ∈ s.take n, Space c⟩

end Ulight.Spec.Python
