import Verif.Spec.Lang.CppId
import Verif.Spec.Lang.Js
import Verif.Spec.Escapes
import Verif.Spec.Words

/-!
# Specification of Java highlighting
-/

namespace Ulight.Spec.Java

/-- Whitespace. -/
def Space (c : UInt8) : Prop := c ∈ ([0x20, 0x09, 0x0C, 0x0A, 0x0D] : Bytes)

/-- The keywords and symbols, and how they are highlighted. -/
def words : List (Bytes × HT) := vocabulary [
  (.bool_, b!"false true"),
  (.keyword, b!"_ abstract assert class const enum exports extends final goto implements import instanceof"),
  (.keyword, b!"interface module native new open opens package permits private protected provides public"),
  (.keyword, b!"record requires sealed static strictfp synchronized throws to transient transitive uses var"),
  (.keyword, b!"volatile when with"),
  (.keyword_control, b!"break case catch continue default do else finally for if return switch throw try"),
  (.keyword_control, b!"while yield"),
  (.keyword_this, b!"super this"),
  (.keyword_type, b!"boolean byte char double float int long short void"),
  (.null, b!"null"),
  (.string_delim, b!"\" \"\"\""),
  (.symbol_brace, b!"{ }"),
  (.symbol_op, b!"! != % %= & && &= * *= + ++ += - -- -= / /= < << <<= <= == > >= >> >>= >>> >>>= ? ^ ^= | |="),
  (.symbol_op, b!"|| ~"),
  (.symbol_parens, b!"( )"),
  (.symbol_punc, b!", -> . ... : :: ; = @"),
  (.symbol_square, b!"[ ]")]

/-- The symbols: the words of the table that do not begin with a letter or `_`. -/
def symbols : List Bytes := (words.map Prod.fst).filter fun w =>
  (w.take 1).all fun c => !isAlpha c && c ≠ c!"_"

/-- Numbers. -/
def numerals : Numerals where
  decor := [b!"0b", b!"0B", b!"0x", b!"0X"]
  exps := [b!"e", b!"e+", b!"e-", b!"E", b!"E+", b!"E-", b!"p", b!"p+", b!"p-", b!"P", b!"P+", b!"P-"]
  suffix := fun w => w ∈ [b!"d", b!"D", b!"f", b!"F", b!"l", b!"L"]
  base := 16
  sep := c!"_"

/-- Escape sequences. -/
def escapes : EscapeForms :=
  [(b!"u", .after .hex_4), (b!"0123", .own .octal_1_to_3), (b!"4567", .own .octal_1_to_2),
    (b!"\r\n", .own .lf_cr_crlf), (b!"bstnfr\"'\\", .simple)]

/-- `Tok s n ty`: a token of type `ty` may cover the first `n` bytes of `s`. -/
inductive Tok : Bytes → Nat → HT → Prop where
  | commentDelim {s n} (h : s.take n ∈ [b!"//", b!"/*", b!"*/"]) : Tok s n .comment_delim
  | lineComment {s n} (h : Js.Line s n) : Tok s n .comment
  | blockComment {s n} (h : UpTo b!"*/" s n) : Tok s n .comment
  /-- a keyword -/
  | keyword {s n ty} (h : Identifier CppId.Start CppId.Continue s n)
      (t : (s.take n, ty) ∈ words) : Tok s n ty
  /-- any other identifier -/
  | name {s n} (h : Identifier CppId.Start CppId.Continue s n)
      (t : ∀ ty, (s.take n, ty) ∉ words) : Tok s n .name
  | symbol {s n ty} (h : LongestIn symbols s n) (t : (s.take n, ty) ∈ words) : Tok s n ty
  | number {s n ty} (h : NumberTok numerals true s n ty) : Tok s n ty
  | quote {s n} (h : s.take n ∈ [b!"'", b!"\"", b!"\"\"\""]) : Tok s n .string_delim
  | string {s n q} (hq : q ∈ [b!"\"", b!"\"\"\""]) (h : Content q s n) : Tok s n .string
  /-- the first byte of a character literal -/
  | character {s n} (hn : n = 1) (h : ∀ c, s[0]? = some c → InLine c ∧ c ≠ c!"'" ∧ c ≠ c!"\\") : Tok s n .string
  | escape {s n} (h : escapes.Good s n) : Tok s n .string_escape
  /-- not an escape sequence -/
  | badEscape {s n} (h : escapes.Bad s) : Tok s n .error
  /-- a character literal without a character -/
  | noCharacter {s n} (h : s.take n ∈ [b!"'", b!"\r", b!"\n"]) : Tok s n .error
  /-- an annotation -/
  | at {s n} (h : s.take n = b!"@") (h' : ∃ m, Identifier CppId.Start CppId.Continue (s.drop 1) m) :
      Tok s n .name_attr_delim
  | annotation {s n} (h : Identifier CppId.Start CppId.Continue s n) : Tok s n .name_attr
  | dot {s n} (h : s.take n = b!".") : Tok s n .name_attr_delim
  /-- a character that cannot begin anything -/
  | unknown {s n c p rest} (h : s = p ++ rest) (hc : FirstChar c p rest) (hn : n = p.length)
      (id : ¬ CppId.Start c) (sym : ∀ w ∈ symbols, ¬ OccursAt w s 0)
      (other : ∀ b, s[0]? = some b → ¬ DecDigit b ∧ ¬ Space b ∧ b ≠ c!"'") : Tok s n .error

/-- Text without a token is whitespace. -/
def rules : Rules := ⟨Tok, fun s n => ∀ c ∈ s.take n, Space c⟩

end Ulight.Spec.Java
