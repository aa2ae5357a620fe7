import Verif.Spec.Lang.Common

/-!
# Specification of COWEL highlighting

COWEL is a markup language: text with commands such as `\tag(attribute = 1){content}`.
-/

namespace Ulight.Spec.Cowel

/-- Whitespace. -/
def Space (c : UInt8) : Prop := c ∈ ([0x20, 0x09, 0x0A, 0x0C, 0x0D] : Bytes)

/-- Whitespace within a line. -/
def Horizontal (c : UInt8) : Prop := c ∈ ([0x20, 0x09, 0x0C] : Bytes)

/-- The first character of an identifier. -/
def Start (c : UInt8) : Prop := Letter c ∨ c = c!"_"

/-- A character of an identifier. -/
def Continue (c : UInt8) : Prop := Start c ∨ DecDigit c

/-- The first `n` bytes of `s` are an identifier, which could not be longer. -/
def Ident (s : Bytes) (n : Nat) : Prop := (∃ c, s[0]? = some c ∧ Start c) ∧ 0 < n ∧ Longest Continue s n

/-- `Blank s n`: the first `n` bytes of `s` are all of the whitespace and comments at its beginning. -/
inductive Blank : Bytes → Nat → Prop where
  | done {s} (sp : ∀ c, s[0]? = some c → ¬ Space c) (c : s.take 2 ∉ [b!"\\:", b!"\\*"]) : Blank s 0
  | space {s k n} (h : Longest Space s k) (b : Blank (s.drop k) n) : Blank s (k + n)
  | line {s k n} (h : s.take 2 = b!"\\:") (l : Longest InLine (s.drop 2) k) (b : Blank (s.drop (2 + k)) n) :
      Blank s (2 + k + n)
  | block {s k n} (h : s.take 2 = b!"\\*") (l : ∀ j, OccursAt b!"*\\" (s.drop 2) j → k ≤ j)
      (c : OccursAt b!"*\\" (s.drop 2) k) (b : Blank (s.drop (k + 4)) n) : Blank s (k + 4 + n)
  | open_ {s} (h : s.take 2 = b!"\\*") (l : ∀ j, ¬ OccursAt b!"*\\" (s.drop 2) j) : Blank s s.length

/-- The letters in a hexadecimal code are either all upper-case or all lower-case. -/
def Code (w : Bytes) : Prop :=
  (∀ c ∈ w, DecDigit c ∨ c ∈ b!"ABCDEF") ∨ (∀ c ∈ w, DecDigit c ∨ c ∈ b!"abcdef")

/-- The name of a character. -/
structure CharName (w : Bytes) : Prop where
  nonempty : w ≠ []
  head : w.head? ≠ some c!" "
  last : w.getLast? ≠ some c!" "
  chars : ∀ c ∈ w, (0x41 ≤ c.toNat ∧ c.toNat ≤ 0x5A) ∨ DecDigit c ∨ c ∈ b!" -"

/-- Escape sequences. -/
inductive Escape : Bytes → Nat → Prop where
  | plain {s n} (h : s.take n ∈ [b!"\\{", b!"\\}", b!"\\\\", b!"\\\""]) : Escape s n
  /-- before a line terminator, which is not part of the token -/
  | newline {s n c} (h : s.take n = b!"\\") (h' : s[1]? = some c) (hc : c ∈ ([0x0A, 0x0D] : Bytes)) : Escape s n
  | code8 {s n w t} (h : s = b!"\\+" ++ w ++ t) (l : w.length = 8) (hw : Code w) (hn : n = 10) : Escape s n
  | code4 {s n w t} (h : s = b!"\\+" ++ w ++ t) (l : w.length = 4) (hw : Code w) (hn : n = 6)
      (other : ¬ ((s.drop 2).length ≥ 8 ∧ Code ((s.drop 2).take 8))) : Escape s n
  | name {s n w t} (h : s = b!"\\'" ++ w ++ b!"'" ++ t) (hw : CharName w) (hn : n = w.length + 3) : Escape s n

/-- Something after a backslash that is not an escape sequence. -/
inductive BadEscape : Bytes → Nat → Prop where
  | alone {s n} (h : s = b!"\\") (hn : n = 1) : BadEscape s n
  | code {s n} (h : s.take n = b!"\\+") (other : ¬ ((s.drop 2).length ≥ 4 ∧ Code ((s.drop 2).take 4))) :
      BadEscape s n
  | name {s n w t} (h : s = b!"\\'" ++ w ++ b!"'" ++ t) (hw : ∀ c ∈ w, c ≠ c!"'" ∧ InLine c)
      (hn : n = w.length + 3) (other : ¬ CharName w) : BadEscape s n
  | openName {s n k} (h : s.take n = b!"\\'") (l : Longest (fun c => c ≠ c!"'" ∧ InLine c) (s.drop 2) k)
      (e : (s.drop 2)[k]? ≠ some c!"'") : BadEscape s n
  | reserved {s n c} (h : s.take n = [c!"\\", c]) (hc : c.toNat < 0x80) (start : ¬ Start c)
      (other : c ∉ b!"{}\\\"'+:*( \n\r") : BadEscape s n
  | unicode {s n c p rest} (h : s = b!"\\" ++ p ++ rest) (hc : FirstChar c p rest)
      (ascii : ∀ b, p[0]? = some b → 0x80 ≤ b.toNat) (hn : n = 1 + p.length) : BadEscape s n

/-- Symbols in expressions. -/
def symbols : List (Bytes × HT) :=
  [(b!"=", .symbol_punc), (b!"||", .symbol_op), (b!"&&", .symbol_op), (b!"==", .symbol_op), (b!"!=", .symbol_op),
    (b!"<=", .symbol_op), (b!">=", .symbol_op), (b!"+", .symbol_op), (b!"-", .symbol_op), (b!"*", .symbol_op),
    (b!"/", .symbol_op), (b!"%", .symbol_op), (b!"<", .symbol_op), (b!">", .symbol_op), (b!"~", .symbol_op),
    (b!"!", .symbol_op)]

/-- Words with a meaning. -/
def words : List Bytes := [b!"unit", b!"null", b!"let", b!"fun", b!"true", b!"false", b!"infinity"]

/-- Numbers. -/
def numerals : Numerals where
  decor := [b!"-", b!"0b", b!"0o", b!"0x", b!"-0b", b!"-0o", b!"-0x"]
  exps := [b!"e", b!"e+", b!"e-", b!"E", b!"E+", b!"E-"]
  base := 16

/-- A number without a sign. -/
inductive Number : Bytes → Prop where
  | prefixed {p b w} (h : (p, b) ∈ [(b!"0b", 2), (b!"0o", 8), (b!"0x", 16)]) (w0 : w ≠ [])
      (hw : ∀ c ∈ w, ∃ v, digitVal c = some v ∧ v < b) : Number (p ++ w)
  | decimal {i f e} (i0 : i ≠ [] ∨ 2 ≤ f.length) (hi : ∀ c ∈ i, DecDigit c)
      (hf : f = [] ∨ ∃ w, f = b!"." ++ w ∧ ∀ c ∈ w, DecDigit c)
      (he : e = [] ∨ ∃ x w, e = x ++ w ∧ x ∈ numerals.exps ∧ w ≠ [] ∧ ∀ c ∈ w, DecDigit c) :
      Number (i ++ f ++ e)

/-- `Numeric s n`: the first `n` bytes of `s` are all of the letters, digits, points, and signs after the
letter `e` at its beginning. -/
inductive Numeric : Bytes → Nat → Prop where
  | sign {e c t n} (he : e ∈ b!"eE") (hc : c ∈ b!"+-") (h : Numeric t n) : Numeric (e :: c :: t) (n + 2)
  | char {c t n} (hc : Letter c ∨ DecDigit c ∨ c = c!".") (he : c ∈ b!"eE" → ∀ d, t[0]? = some d → d ∉ b!"+-")
      (h : Numeric t n) : Numeric (c :: t) (n + 1)
  | done {s} (h : ∀ c, s[0]? = some c → ¬ (Letter c ∨ DecDigit c ∨ c = c!".")) : Numeric s 0

/-- What each token is. -/
inductive Tok : Bytes → Nat → HT → Prop where
  | escape {s n} (h : Escape s n) : Tok s n .string_escape
  | badEscape {s n} (h : BadEscape s n) : Tok s n .error
  | commentDelim {s n} (h : s.take n ∈ [b!"\\:", b!"\\*", b!"*\\"]) : Tok s n .comment_delim
  | lineComment {s n} (h : Longest InLine s n) : Tok s n .comment
  | blockComment {s n} (h : UpTo b!"*\\" s n) : Tok s n .comment
  /-- a command in text -/
  | tag {s n} (h : s.take 1 = b!"\\") (h' : Ident (s.drop 1) n) : Tok s (1 + n) .markup_tag
  /-- a command in an expression, which has arguments or content -/
  | call {s n m} (h : Ident s n) (b : Blank (s.drop n) m) (e : ∃ c ∈ b!"({", s[n + m]? = some c) :
      Tok s n .markup_tag
  /-- an attribute is followed by `=` -/
  | attr {s n m} (h : Ident s n) (b : Blank (s.drop n) m) (e : s[n + m]? = some c!"=")
      (e' : s[n + m + 1]? ≠ some c!"=") : Tok s n .markup_attr
  | attrDelim {s n} (h : s.take n = b!"\"") : Tok s n .markup_attr_delim
  /-- part of an attribute with quotation marks -/
  | quotedAttr {s n} (h : Longest (fun c => c ≠ c!"\\" ∧ c ≠ c!"\"") s n) : Tok s n .markup_attr
  | keyword {s n} (h : Ident s n) (w : s.take n ∈ [b!"unit", b!"null", b!"let", b!"fun"]) : Tok s n .keyword
  | boolean {s n} (h : Ident s n) (w : s.take n ∈ [b!"true", b!"false"]) : Tok s n .bool_
  | infinity {s n} (h : Ident s n) (w : s.take n = b!"infinity") : Tok s n .value
  | minus {s n} (h : s.take n = b!"-") (i : Ident (s.drop 1) 8) (w : (s.drop 1).take 8 = b!"infinity") :
      Tok s n .value_delim
  /-- the name of a function -/
  | function {s n} (h : Ident s n) : Tok s n .name_function_decl
  /-- any other identifier -/
  | variable_ {s n m} (h : Ident s n) (w : s.take n ∉ words) (b : Blank (s.drop n) m)
      (e : ∀ c ∈ b!"({", s[n + m]? ≠ some c) : Tok s n .name_var
  | quote {s n} (h : s.take n = b!"\"") : Tok s n .string_delim
  | string {s n} (h : Longest (fun c => c ≠ c!"\\" ∧ c ≠ c!"\"") s n) : Tok s n .string
  | parens {s n} (h : s.take n ∈ [b!"(", b!")"]) : Tok s n .symbol_parens
  | brace {s n} (h : s.take n ∈ [b!"{", b!"}"]) : Tok s n .symbol_brace
  | comma {s n} (h : s.take n = b!",") : Tok s n .symbol_punc
  | symbol {s n ty} (h : LongestIn (symbols.map Prod.fst) s n) (t : (s.take n, ty) ∈ symbols) : Tok s n ty
  /-- a byte at which the code expects a symbol -/
  | unknown {s n c} (hn : n = 1) (hc : s[0]? = some c) (sp : ¬ Space c)
      (other : ∀ w ∈ symbols, ¬ OccursAt w.1 s 0) : Tok s n .error
  /-- an expression in text -/
  | splice {s n} (h : s.take n ∈ [b!"\\(", b!")"]) : Tok s n .string_interpolation_delim
  /-- an expression that goes on to the end of the line -/
  | lineSplice {s n c} (h : s.take n = b!"\\ ") (e : c ∈ s.drop 2) (hc : ¬ InLine c) :
      Tok s n .string_interpolation_delim
  | ellipsis {s n} (h : s.take n = b!"...") : Tok s n .name_attr
  | number {s n ty} (h : NumberTok numerals false s n ty) : Tok s n ty
  | badNumber {s n} (h : Numeric s n) (other : ¬ Number (s.take n)) : Tok s n .error

/-- What is between the tokens. -/
inductive Gap : Bytes → Nat → Prop where
  | space {s n} (h : Longest Space s n) : Gap s n
  | horizontal {s n} (h : Longest Horizontal s n) : Gap s n
  | newline {s n} (h : s.take n ∈ ([[0x0A], [0x0D], [0x0D, 0x0A]] : List Bytes)) : Gap s n
  /-- text up to the next backslash, the end of the content of a command, or the end -/
  | text {s n} (h : ∀ c ∈ s.take n, c ≠ c!"\\")
      (e : n = s.length ∨ s[n]? = some c!"\\" ∨ s[n]? = some c!"}") : Gap s n
  /-- something that does not belong between parentheses -/
  | junk {s n} (h : Longest (fun c => c ∉ b!",})") s n) (other : ∀ w ∈ symbols, ¬ OccursAt w.1 s 0)
      (first : ∀ c, s[0]? = some c → ¬ Space c ∧ ¬ Continue c ∧ c ∉ b!"({.\"" ) : Gap s n
  /-- Everything after a backslash and a space is without highlighting if it is in the last line. -/
  | stopped {s n} (h : s.take 2 = b!"\\ ") (l : ∀ c ∈ s.drop 2, InLine c) (hn : n = s.length) : Gap s n

/-- COWEL. -/
def rules : Rules := ⟨Tok, Gap⟩

end Ulight.Spec.Cowel
