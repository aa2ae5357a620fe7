import Verif.Spec.Lang.CppId
import Verif.Spec.Lang.Js
import Verif.Spec.Escapes
import Verif.Spec.Words

/-!
# Specification of Rust highlighting
-/

namespace Ulight.Spec.Rust

/-- An identifier, which could not be longer. -/
abbrev Id (s : Bytes) (n : Nat) : Prop := Identifier CppId.Start CppId.Continue s n

/-- Whitespace. -/
def Space (c : Nat) : Prop :=
  c ∈ [0x09, 0x0A, 0x0B, 0x0C, 0x0D, 0x20, 0x85, 0x200E, 0x200F, 0x2028, 0x2029]

/-- The keywords and symbols, and how they are highlighted. -/
def words : List (Bytes × HT) := vocabulary [
  (.bool_, b!"false true"),
  (.keyword, b!"abstract as async become box const crate dyn enum extern final fn gen impl in let macro"),
  (.keyword, b!"macro_rules mod move mut override priv pub raw ref safe static struct trait type typeof union"),
  (.keyword, b!"unsafe unsized use virtual where"),
  (.keyword_control, b!"await break continue do else for if loop match return try while yield"),
  (.keyword_this, b!"self super"),
  (.keyword_type, b!"Self"),
  (.name_type, b!"CStr CString OsStr OsString String"),
  (.name_type_builtin, b!"bool char f32 f64 i128 i16 i32 i64 i8 isize str u128 u16 u32 u64 u8 usize"),
  (.string_escape, b!"\\"),
  (.symbol_brace, b!"{ }"),
  (.symbol_op, b!"! != % %= & && &= * *= + += - -= .. ... ..= / /= :: < << <<= <= == > >= >> >>= ? @ ^ ^= |"),
  (.symbol_op, b!"|= ||"),
  (.symbol_parens, b!"( )"),
  (.symbol_punc, b!", -> . : ; <- = =>"),
  (.symbol_square, b!"[ ]")]

/-- The symbols: the words of the table that do not begin with a letter, except for `<-`. -/
def symbols : List Bytes := (words.map Prod.fst).filter fun w =>
  (w.take 1).all (fun c => !isAlpha c) && w ≠ b!"<-"

/-- Numbers.  The suffix is an identifier in the text. -/
def numerals : Numerals where
  decor := [b!"0b", b!"0o", b!"0x"]
  exps := [b!"e", b!"e+", b!"e-", b!"E", b!"E+", b!"E-"]
  suffix := fun w => ∃ t, Id (w ++ t) w.length
  base := 16
  sep := c!"_"

/-- Escape sequences. -/
def escapes : EscapeForms :=
  [(b!"x", .after .hex_2), (b!"u", .after .nonempty_braced), (b!"'\"nrt\\0\n", .simple)]

/-- Escape sequences in byte strings. -/
def byteEscapes : EscapeForms := [(b!"x", .after .hex_2), (b!"'\"nrt\\0\n", .simple)]

/-- Identifiers that cannot be raw. -/
def notRaw : List Bytes := [b!"crate", b!"self", b!"super", b!"Self", b!"_"]

/-- `s` begins with a lifetime that is followed by an apostrophe, for example `'ab'`. -/
def QuotedLifetime (s : Bytes) : Prop :=
  ∃ q ∈ [b!"'", b!"'#r"], OccursAt q s 0 ∧ ∃ m, Id (s.drop q.length) m ∧ s[q.length + m]? = some c!"'"

/-- `Tok s n ty`: a token of type `ty` may cover the first `n` bytes of `s`. -/
inductive Tok : Bytes → Nat → HT → Prop where
  | commentDelim {s n} (h : s.take n ∈ [b!"//", b!"/*", b!"*/"]) : Tok s n .comment_delim
  | lineComment {s n} (h : Js.Line s n) : Tok s n .comment
  | blockComment {s n} (h : UpTo b!"*/" s n) : Tok s n .comment
  /-- a keyword -/
  | keyword {s n ty} (h : Id s n) (t : (s.take n, ty) ∈ words) : Tok s n ty
  /-- a macro, which is another identifier before `!` -/
  | macro {s n} (h : Id s n) (t : ∀ ty, (s.take n, ty) ∉ words) (e : s[n]? = some c!"!") :
      Tok s n .name_macro
  | bang {s n} (h : s.take n = b!"!") : Tok s n .name_macro_delim
  /-- any other identifier -/
  | name {s n} (h : Id s n) (t : ∀ ty, (s.take n, ty) ∉ words) (e : s[n]? ≠ some c!"!") :
      Tok s n .name
  | symbol {s n ty} (h : LongestIn symbols s n) (t : (s.take n, ty) ∈ words) : Tok s n ty
  | number {s n ty} (h : NumberTok numerals true s n ty) : Tok s n ty
  /-- an integer with a suffix that begins with `e` -/
  | badNumber {s n p} (h : s.take n = NumberParts.text p) (hp : numerals.Parts p) (i : p.point = [] ∧ p.expSep = [])
      (e : p.suffix.head? = some c!"e" ∨ p.suffix.head? = some c!"E") : Tok s n .error
  /-- a number that has a prefix but is not an integer -/
  | badFloat {s n p} (h : s.take n = NumberParts.text p) (hp : numerals.Parts p) (i : p.pre ≠ [])
      (e : p.point ++ p.expSep ++ p.expDigits ≠ []) : Tok s n .error
  /-- the prefix of a literal -/
  | prefix {s n} (h : s.take n ∈ [b!"b", b!"br", b!"c", b!"cr", b!"r"]) : Tok s n .string_decor
  /-- an apostrophe of a character literal -/
  | apostrophe {s n} (h : s.take n = b!"'") : Tok s n .string_delim
  /-- the beginning of a string -/
  | opening {s k q} (hq : q ∈ [b!"'", b!"\""]) (h : s.take (1 + k) = List.replicate k c!"#" ++ q) :
      Tok s (1 + k) .string_delim
  /-- the end of a string -/
  | closing {s k} (h : s.take (1 + k) = c!"\"" :: List.replicate k c!"#") (h' : k = 0 ∨ s[1 + k]? ≠ some c!"#") :
      Tok s (1 + k) .string_delim
  /-- the text of a string -/
  | string {s n} (h : TextTo b!"\"" (· = c!"\\") s n) : Tok s n .string
  /-- the text of a raw string whose delimiters have `k` times `#` -/
  | rawString {s n k} (h : UpTo (c!"\"" :: List.replicate k c!"#") s n) : Tok s n .string
  /-- a character literal -/
  | character {s n c p rest} (h : s = p ++ rest) (hc : FirstChar c p rest) (hn : n = p.length)
      (b : s[0]? ≠ some c!"\\" ∧ s[0]? ≠ some c!"'" ∧ s[0]? ≠ some 0x0A ∧ s[0]? ≠ some 0x0D ∧ s[0]? ≠ some 0x09)
      (e : s[n]? = some c!"'") : Tok s n .string
  | escape {s n} (h : escapes.Good s n ∨ byteEscapes.Good s n) : Tok s n .string_escape
  /-- not an escape sequence -/
  | badEscape {s n} (h : escapes.Bad s ∨ byteEscapes.Bad s) : Tok s n .error
  /-- an identifier directly after a literal -/
  | badSuffix {s n} (h : Id s n) : Tok s n .error
  /-- a lifetime or a label, which is before a colon -/
  | lifetimeDelim {s n m} (h : s.take n ∈ [b!"'", b!"'#r"]) (h' : Id (s.drop n) m) (e : s[n + m]? ≠ some c!":") :
      Tok s n .name_lifetime_delim
  | lifetime {s n} (h : Id s n) (e : s[n]? ≠ some c!":") : Tok s n .name_lifetime
  | labelDelim {s n m} (h : s.take n ∈ [b!"'", b!"'#r"]) (h' : Id (s.drop n) m) (e : s[n + m]? = some c!":") :
      Tok s n .name_label_delim
  | label {s n} (h : Id s n) (e : s[n]? = some c!":") : Tok s n .name_label
  /-- a lifetime that cannot be raw -/
  | badLifetime {s n w} (hw : w ∈ notRaw) (h : s.take n = b!"'#r" ++ w) : Tok s n .error
  /-- a character that cannot begin anything -/
  | unknown {s n c p rest} (h : s = p ++ rest) (hc : FirstChar c p rest) (hn : n = p.length)
      (id : ¬ CppId.Start c) (space : ¬ Space c) (sym : ∀ w ∈ symbols, ¬ OccursAt w s 0)
      (other : ∀ b, s[0]? = some b → ¬ DecDigit b ∧ b ≠ c!"\"")
      (quote : s[0]? = some c!"'" → ∀ m, ¬ Id (s.drop 1) m) : Tok s n .error

/-- Text without a token is whitespace. -/
def rules : Rules := ⟨Tok, fun s n => LongestChars Space s n⟩

end Ulight.Spec.Rust
