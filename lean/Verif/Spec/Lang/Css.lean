import Verif.Spec.Lang.Common

/-!
# Specification of CSS highlighting (https://www.w3.org/TR/css-syntax-3/)

Where the code differs from the standard, the specification says so.
-/

namespace Ulight.Spec.Css

/-- Whitespace. -/
def Space (c : UInt8) : Prop := c ∈ ([0x20, 0x09, 0x0C, 0x0A, 0x0D] : Bytes)

/-- A character that ends a line. -/
def Newline (c : UInt8) : Prop := c ∈ ([0x0A, 0x0D, 0x0C] : Bytes)

/-- A character of an identifier.  The standard also has all characters that are not ASCII. -/
def IdChar (c : UInt8) : Prop := Letter c ∨ DecDigit c ∨ c = c!"_" ∨ c = c!"-"

/-- A hexadecimal digit. -/
def HexDigit (c : UInt8) : Prop := ∃ v, digitVal c = some v ∧ v < 16

/-- `Escape s n`: the first `n` bytes of `s` are an escape: a backslash and one to six hexadecimal
digits, as many as possible, and perhaps whitespace; or a backslash and any other character; or a
backslash at the end of the text. -/
inductive Escape : Bytes → Nat → Prop where
  | hex {s k} (h0 : s[0]? = some c!"\\") (pos : 1 ≤ k) (six : k ≤ 6) (le : 1 + k ≤ s.length)
      (digits : ∀ c ∈ (s.drop 1).take k, HexDigit c)
      (max : k = 6 ∨ ∀ c, s[1 + k]? = some c → ¬ HexDigit c)
      (space : ∀ c, s[1 + k]? = some c → ¬ Space c) : Escape s (1 + k)
  | hexSpace {s k c} (h0 : s[0]? = some c!"\\") (pos : 1 ≤ k) (six : k ≤ 6)
      (digits : ∀ c ∈ (s.drop 1).take k, HexDigit c)
      (space : s[1 + k]? = some c) (hc : Space c) : Escape s (1 + k + 1)
  | char {c p rest} (h : FirstChar c p rest) (digit : ∀ b, p[0]? = some b → ¬ HexDigit b) :
      Escape (c!"\\" :: (p ++ rest)) (1 + p.length)
  | end_ : Escape b!"\\" 1

/-- `Ident s n`: the first `n` bytes of `s` are characters of an identifier and escapes. -/
inductive Ident : Bytes → Nat → Prop where
  | nil {s} : Ident s 0
  | char {c t n} (h : IdChar c) (rest : Ident t n) : Ident (c :: t) (1 + n)
  | escape {s k n} (h : Escape s k) (rest : Ident (s.drop k) n) : Ident s (k + n)

/-- A number: a sign, an integer part, a fractional part and an exponent, all optional, but one of
the integer part and the fractional part is there. -/
structure Number (w : Bytes) : Prop where
  parts : ∃ sign int frac exp : Bytes, w = sign ++ int ++ frac ++ exp ∧
    (sign = [] ∨ sign = b!"+" ∨ sign = b!"-") ∧
    (∀ c ∈ int, DecDigit c) ∧
    (frac = [] ∨ ∃ ds, frac = c!"." :: ds ∧ ds ≠ [] ∧ ∀ c ∈ ds, DecDigit c) ∧
    (exp = [] ∨ ∃ e sgn ds, exp = e :: (sgn ++ ds) ∧ (e = c!"e" ∨ e = c!"E") ∧
      (sgn = [] ∨ sgn = b!"+" ∨ sgn = b!"-") ∧ ds ≠ [] ∧ ∀ c ∈ ds, DecDigit c) ∧
    int ++ frac ≠ []

/-- `Piece b q s n`: a part of a string with quotation mark `q`, without escapes: `b` characters that
begin the string, then characters up to the closing quotation mark, or up to a newline, a backslash
or the end of the text. -/
def Piece (b : Nat) (q : UInt8) (s : Bytes) (n : Nat) : Prop :=
  ∃ k, Longest (fun c => c ≠ q ∧ ¬ Newline c ∧ c ≠ c!"\\") (s.drop b) k ∧
    (s[b + k]? = some q ∧ n = b + k + 1 ∨ s[b + k]? ≠ some q ∧ n = b + k)

/-- The types of identifiers: selectors, at-rules, properties, values and units. -/
def identTypes : List HT := [.markup_tag, .name_macro, .markup_attr, .name, .value, .number_decor]

/-- The symbols and their types. -/
def symbols : List (Bytes × HT) := [
  (b!"(", .symbol_parens), (b!")", .symbol_parens), (b!"[", .symbol_square), (b!"]", .symbol_square),
  (b!"{", .symbol_brace), (b!"}", .symbol_brace), (b!",", .symbol_punc), (b!";", .symbol_punc),
  (b!":", .symbol_punc), (b!":", .markup_tag), (b!".", .markup_tag), (b!">", .markup_tag),
  (b!"~", .markup_tag), (b!"*", .markup_tag), (b!">", .symbol_op), (b!"~", .symbol_op), (b!"*", .symbol_op),
  (b!"<", .symbol_op), (b!"+", .symbol_op), (b!"-", .symbol_op), (b!"%", .number_decor),
  (b!"@", .name_macro_delim), (b!"#", .markup_tag), (b!"#", .name_macro), (b!"#", .markup_attr),
  (b!"#", .value), (b!"/*", .comment_delim), (b!"*/", .comment_delim), (b!"<!--", .comment_delim),
  (b!"-->", .comment_delim)]

/-- `Tok s n ty`: a token of type `ty` may cover the first `n` bytes of `s`. -/
inductive Tok : Bytes → Nat → HT → Prop where
  | symbol {s n ty} (h : (s.take n, ty) ∈ symbols) : Tok s n ty
  | comment {s n} (h : UpTo b!"*/" s n) : Tok s n .comment
  /-- a part of an identifier -/
  | ident {s n ty} (h : ∀ c ∈ s.take n, IdChar c) (ne : ∀ c, s[n]? = some c → ¬ IdChar c)
      (t : ty ∈ identTypes) : Tok s n ty
  /-- a part of an identifier before a parenthesis -/
  | function {s n m} (h : ∀ c ∈ s.take n, IdChar c) (ne : ∀ c, s[n]? = some c → ¬ IdChar c)
      (le : n ≤ m) (id : Ident s m) (paren : s[m]? = some c!"(") : Tok s n .name_function
  | number {s n} (h : Number (s.take n)) (max : ∀ c, s[n]? = some c → ¬ DecDigit c) : Tok s n .number
  /-- the beginning of a string, or all of it -/
  | string {s n q} (hq : q ∈ b!"'\"") (h0 : s[0]? = some q) (h : Piece 1 q s n) : Tok s n .string
  /-- the rest of a string after an escape -/
  | more {s n q} (hq : q ∈ b!"'\"") (h : Piece 0 q s n) : Tok s n .string
  | escape {s n} (h : Escape s n) : Tok s n .string_escape
  /-- `!important` -/
  | important {s n ws w} (h : s.take n = b!"!" ++ ws ++ w) (hs : ∀ c ∈ ws, Space c)
      (hw : w.map lower = b!"important") : Tok s n .keyword
  /-- a sign without anything, an at-sign without an identifier, a backslash that is not an escape -/
  | sign {s n} (h : s.take n = b!"+" ∨ s.take n = b!"-") : Tok s n .error
  | at_ {s n} (h : s.take n = b!"@") : Tok s n .error
  | backslash {s n} (h : s.take n = b!"\\") (t : ∀ c, s[1]? = some c → Newline c) : Tok s n .error

/-- Text without a token: whitespace, a character that is not ASCII, or an ASCII character that does
not begin anything. -/
inductive Gap : Bytes → Nat → Prop where
  | space {s n} (h : ∀ c ∈ s.take n, Space c) : Gap s n
  | ascii {s} (c : UInt8) (h : s[0]? = some c) (hc : c.toNat < 0x80)
      (ne : ¬ Letter c ∧ ¬ DecDigit c ∧ c ∉ b!"_\"'()+-,:;<>~*@[]\\{}") : Gap s 1
  | other {c p rest} (h : FirstChar c p rest) (hc : 0x80 ≤ c) : Gap (p ++ rest) p.length

def rules : Rules := ⟨Tok, Gap⟩

end Ulight.Spec.Css
