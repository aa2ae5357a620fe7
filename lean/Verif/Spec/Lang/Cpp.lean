import Verif.Spec.Lang.CppId
import Verif.Spec.Escapes
import Verif.Spec.Words
import Verif.Lang.Cpp

/-!
# Specification of C and C++ highlighting

Only the enumeration `Source`, which says whether a word belongs to C, to C++, to both, or to an
extension, is taken from the model.  `cpp` says whether the language is C++, and `strict` is the option
of that name.
-/

namespace Ulight.Spec.Cpp

open Ulight.Cpp (Source)

/-- Whitespace. -/
def Space (c : UInt8) : Prop := c ∈ ([0x20, 0x09, 0x0A, 0x0B, 0x0C, 0x0D] : Bytes)

/-- An identifier. -/
abbrev Ident (s : Bytes) (n : Nat) : Prop := Identifier CppId.Start CppId.Continue s n

/-- The keywords that are highlighted: compiler extensions only if the option `strict` is off, keywords
of C++ only in C++, and keywords of C that are not in C++ not in strict C++. -/
def Allowed (cpp strict : Bool) : Source → Prop
  | .c_cpp => True
  | .cpp => cpp = true
  | .c => cpp = false ∨ strict = false
  | .ext => strict = false

/-- The keywords and symbols, how they are highlighted, and where they come from. -/
def words : List (Bytes × HT × Source) := vocabulary [
  ((.bool_, .c_cpp), b!"false true"),
  ((.keyword, .c), b!"_Alignas _Alignof _Complex _Generic _Imaginary _Noreturn _Static_assert _Thread_local"),
  ((.keyword, .c), b!"complex imaginary noreturn restrict typeof typeof_unqual"),
  ((.keyword, .c_cpp), b!"_Atomic _Pragma alignas alignof and and_eq auto bitand bitor compl const constexpr"),
  ((.keyword, .c_cpp), b!"default enum extern inline not not_eq or or_eq register sizeof static static_assert"),
  ((.keyword, .c_cpp), b!"struct thread_local typedef union volatile xor xor_eq"),
  ((.keyword, .cpp), b!"class concept const_cast consteval constinit contract_assert decltype delete"),
  ((.keyword, .cpp), b!"dynamic_cast explicit export final friend import module mutable namespace new noexcept"),
  ((.keyword, .cpp), b!"operator override post pre private protected public reinterpret_cast"),
  ((.keyword, .cpp), b!"replaceable_if_eligible requires static_cast template throw"),
  ((.keyword, .cpp), b!"trivially_relocatable_if_eligible try typeid typename using virtual"),
  ((.keyword, .ext), b!"__asm__ __attribute__ __extension__ __imag__ __label__ __real__ __restrict"),
  ((.keyword_control, .c_cpp), b!"asm break case catch continue do else for goto if return switch while"),
  ((.keyword_control, .cpp), b!"co_await co_return co_yield"),
  ((.keyword_this, .cpp), b!"this"),
  ((.keyword_type, .c), b!"_BitInt _Bool _Decimal128 _Decimal32 _Decimal64 _Float128 _Float128x _Float16"),
  ((.keyword_type, .c), b!"_Float32 _Float32x _Float64 _Float64x"),
  ((.keyword_type, .c_cpp), b!"bool char double float int long short signed unsigned void"),
  ((.keyword_type, .cpp), b!"char16_t char32_t char8_t wchar_t"),
  ((.keyword_type, .ext), b!"_ExtInt __float128 __float80 __fp16 __ibm128 __int128 __int16 __int256 __int32"),
  ((.keyword_type, .ext), b!"__int64 __int8 __m128 __m128d __m128i __m256 __m256d __m256i __m512 __m512d"),
  ((.keyword_type, .ext), b!"__m512i __m64 __mmask16 __mmask32 __mmask64 __mmask8 __ptr32 __ptr64"),
  ((.name_macro_delim, .c_cpp), b!"# ## %: %:%:"),
  ((.null, .c_cpp), b!"nullptr"),
  ((.symbol_brace, .c_cpp), b!"%> <% { }"),
  ((.symbol_op, .c_cpp), b!"! != % %= & && &= * *= + ++ += - -- -= -> . ... / /= < << <<= <= = == > >= >> >>= ?"),
  ((.symbol_op, .c_cpp), b!"^ ^= | |= || ~"),
  ((.symbol_op, .cpp), b!"->* .* :: <=> ^^"),
  ((.symbol_parens, .c_cpp), b!"( )"),
  ((.symbol_punc, .c_cpp), b!", : ;"),
  ((.symbol_square, .c_cpp), b!":> <: [ ]")]

/-- A keyword. -/
def Keyword (cpp strict : Bool) (w : Bytes) (ty : HT) : Prop :=
  ∃ src, (w, ty, src) ∈ words ∧ Allowed cpp strict src

/-- The symbols: the words of the table that do not begin with a letter or `_`, without those of C++
in C. -/
def symbols (cpp : Bool) : List Bytes := (words.filter fun e =>
  ((e.1.take 1).all fun c => !isAlpha c && c ≠ c!"_") && (cpp || e.2.2 ≠ .cpp)).map Prod.fst

/-- The first three characters of `s` are `<::`, and the next one is not `:` or `>`.  Then the first one
is a symbol of its own ([lex.pptoken]). -/
def LessColons (s : Bytes) : Prop := s.take 3 = b!"<::" ∧ s[3]? ≠ some c!":" ∧ s[3]? ≠ some c!">"

/-- A backslash, whitespace, and the end of the line. -/
def Splice (s : Bytes) (n : Nat) : Prop :=
  ∃ ws rest, s = c!"\\" :: (ws ++ 0x0A :: rest) ∧ (∀ c ∈ ws, Space c ∧ c ≠ 0x0A) ∧ n = ws.length + 2

/-- `Line s n`: the first `n` bytes of `s` are the rest of a line, which goes on after a splice. -/
inductive Line : Bytes → Nat → Prop where
  | done {s} (h : s = [] ∨ s.take 1 = b!"\n" ∨ s.take 2 = b!"\r\n") : Line s 0
  | splice {s k n} (h : Splice s k) (t : Line (s.drop k) n) : Line s (k + n)
  | char {c s n} (h : c ≠ 0x0A) (h' : (c :: s).take 2 ≠ b!"\r\n") (hs : ∀ k, ¬ Splice (c :: s) k)
      (t : Line s n) : Line (c :: s) (n + 1)

/-! ## Numbers -/

/-- A character after a digit separator. -/
def Nondigit (c : UInt8) : Prop := Letter c ∨ DecDigit c ∨ c = c!"_"

/-- `PpItems s n`: the first `n` bytes of `s` can continue a preprocessing number ([lex.ppnumber]). -/
inductive PpItems : Bytes → Nat → Prop where
  | nil {s} : PpItems s 0
  | separator {d s n} (h : Nondigit d) (t : PpItems s n) : PpItems (c!"'" :: d :: s) (n + 2)
  | sign {c d s n} (h : c ∈ b!"eEpP") (h' : d ∈ b!"+-") (t : PpItems s n) : PpItems (c :: d :: s) (n + 2)
  | point {s n} (t : PpItems s n) : PpItems (c!"." :: s) (n + 1)
  | char {c p rest n} (h : FirstChar c p rest) (h' : CppId.Continue c) (t : PpItems rest n) :
      PpItems (p ++ rest) (n + p.length)

/-- No preprocessing number goes on here. -/
structure PpEnd (s : Bytes) : Prop where
  point : s[0]? ≠ some c!"."
  separator : s[0]? = some c!"'" → ∀ d, s[1]? = some d → ¬ Nondigit d
  char : ∀ c p rest, s = p ++ rest → FirstChar c p rest → ¬ CppId.Continue c

/-- The letter of an exponent. -/
def ExponentLetter (c : UInt8) : Prop := c ∈ b!"eEpP"

/-- Digits, and signs after the letter of an exponent; `prev` is the character before the text. -/
def NumberDigits (prev : Option UInt8) (s : Bytes) (n : Nat) : Prop :=
  (∀ i c, i < n → s[i]? = some c → Hex c ∨
    (c ∈ b!"+-" ∧ ∃ e, (if i = 0 then prev else s[i - 1]?) = some e ∧ ExponentLetter e)) ∧
    ∀ c, s[n]? = some c → ¬ DecDigit c

/-! ## Strings -/

/-- A character of a raw string delimiter. -/
def DChar (c : UInt8) : Prop := c.toNat < 0x80 ∧ ¬ Space c ∧ c ∉ b!"()\\"

/-- The characters of a simple escape sequence. -/
def simple : Bytes := b!"'\"?\\abfnrtv"

/-- An escape sequence ([lex.ccon], [lex.universal.char]). -/
inductive EscapeText (A : EscapeKind → Bytes → Prop) : Bytes → Prop where
  | simple {c} (h : c ∈ simple) : EscapeText A [c!"\\", c]
  | octal {t} (h : A .octal_1_to_3 t) : EscapeText A (c!"\\" :: t)
  | long {c k t} (h : (c, k) ∈ [(c!"u", .hex_4), (c!"u", .hex_braced), (c!"U", .hex_8), (c!"x", .hex_1_to_inf),
      (c!"x", .hex_braced), (c!"o", EscapeKind.octal_braced)]) (h' : A k t) : EscapeText A (c!"\\" :: c :: t)
  | named {d} (h : d ≠ []) (h' : c!"}" ∉ d ∧ 0x0A ∉ d) : EscapeText A (b!"\\N{" ++ d ++ b!"}")
  /-- any other visible ASCII character -/
  | conditional {c : UInt8} (h : 0x21 ≤ c.toNat ∧ c.toNat ≤ 0x7E) (h1 : c ∉ Cpp.simple) (h2 : ¬ Octal c)
      (h3 : c ∉ b!"NouUx") : EscapeText A [c!"\\", c]

/-- A backslash and whitespace that do not splice lines. -/
def Blank (s : Bytes) : Prop :=
  s[0]? = some c!"\\" ∧ (∃ c, s[1]? = some c ∧ Space c) ∧ ∀ k, ¬ Splice s k

/-- `InLiteral q s n`: the first `n` bytes of `s` may be inside of a literal with the quotation mark `q`. -/
inductive InLiteral (q : UInt8) : Bytes → Nat → Prop where
  | nil {s} : InLiteral q s 0
  | char {c s n} (h : c ≠ q ∧ c ≠ c!"\\" ∧ InLine c) (t : InLiteral q s n) : InLiteral q (c :: s) (n + 1)
  | splice {s k n} (h : Splice s k) (t : InLiteral q (s.drop k) n) : InLiteral q s (n + k)
  | blank {s n} (h : Blank s) (t : InLiteral q (s.drop 2) n) : InLiteral q s (n + 2)

/-- The text of a literal ends here: because of the quotation mark, of the end of the line, or of an
escape sequence. -/
def Stops (q : UInt8) (s : Bytes) : Prop :=
  s = [] ∨ s[0]? = some q ∨ s[0]? = some 0x0A ∨ s[0]? = some 0x0D ∨
    (s[0]? = some c!"\\" ∧ ¬ Blank s ∧ ∀ k, ¬ Splice s k)

/-- The prefixes of string literals, before a possible `R`. -/
def encodings : List Bytes := [b!"", b!"u8", b!"u", b!"U", b!"L"]

/-- `Tok cpp strict prev s n ty`: a token of type `ty` may cover the first `n` bytes of `s`;
`prev` is the byte before them. -/
inductive Tok (cpp strict : Bool) (prev : Option UInt8) : Bytes → Nat → HT → Prop where
  | commentDelim {s n} (h : s.take n ∈ [b!"//", b!"/*", b!"*/"]) : Tok cpp strict prev s n .comment_delim
  | lineComment {s n} (h : Line s n) : Tok cpp strict prev s n .comment
  | blockComment {s n} (h : UpTo b!"*/" s n) : Tok cpp strict prev s n .comment
  | keyword {s n ty} (h : Ident s n) (t : Keyword cpp strict (s.take n) ty) : Tok cpp strict prev s n ty
  /-- any other identifier that ends in `_t` -/
  | typeName {s n} (h : Ident s n) (t : ∀ ty, ¬ Keyword cpp strict (s.take n) ty)
      (e : ∃ w, s.take n = w ++ b!"_t") : Tok cpp strict prev s n .name_type
  | name {s n} (h : Ident s n) (t : ∀ ty, ¬ Keyword cpp strict (s.take n) ty)
      (e : ¬ ∃ w, s.take n = w ++ b!"_t") : Tok cpp strict prev s n .name
  | symbol {s n ty src} (h : LongestIn (symbols cpp) s n) (hl : ¬ LessColons s) (hb : s.take n ≠ b!"%>")
      (t : (s.take n, ty, src) ∈ words) : Tok cpp strict prev s n ty
  | less {s n} (hn : n = 1) (h : LessColons s) : Tok cpp strict prev s n .symbol_op
  /-- this should be a brace -/
  | rightBrace {s n} (h : s.take n = b!"%>") : Tok cpp strict prev s n .symbol_square
  /-- the name of a preprocessing directive -/
  | directive {s n} (h : Ident s n) (p : ∃ c, prev = some c ∧ (Space c ∨ c ∈ b!"#:")) :
      Tok cpp strict prev s n .name_macro
  | pound {s n} (h : s.take n ∈ [b!"#", b!"%:"]) : Tok cpp strict prev s n .name_macro_delim
  | header {s n} (p : prev = some c!"<") (h : Longest (fun c => c ≠ c!">" ∧ InLine c) s n) :
      Tok cpp strict prev s n .string
  | quote {s n} (h : s.take n ∈ [b!"\"", b!"'", b!"<", b!">"]) : Tok cpp strict prev s n .string_delim
  /-- the prefix of a literal -/
  | encoding {s n} (h : Ident s n) (e : s.take n ∈ encodings) (q : s[n]? = some c!"\"" ∨ s[n]? = some c!"'") :
      Tok cpp strict prev s n .string_decor
  | rawEncoding {s n e} (h : Ident s n) (he : e ∈ encodings) (e : s.take n = e ++ b!"R")
      (q : s[n]? = some c!"\"") : Tok cpp strict prev s n .string_decor
  | operator {s n} (h : Ident s n) (e : s.take n = b!"operator") (q : s[n]? = some c!"\"") :
      Tok cpp strict prev s n .keyword
  | badStringPrefix {s n} (h : Ident s n) (q : s[n]? = some c!"\"")
      (e : s.take n ∉ encodings ∧ (∀ e ∈ encodings, s.take n ≠ e ++ b!"R") ∧ s.take n ≠ b!"operator") :
      Tok cpp strict prev s n .error
  | badCharacterPrefix {s n} (h : Ident s n) (q : s[n]? = some c!"'") (e : s.take n ∉ encodings) :
      Tok cpp strict prev s n .error
  /-- the suffix of a literal -/
  | suffix {s n} (p : prev = some c!"\"" ∨ prev = some c!"'") (h : Ident s n)
      (t : ∀ ty, ¬ Keyword cpp strict (s.take n) ty) : Tok cpp strict prev s n .string_decor
  | string {s n q} (hq : q = c!"\"" ∨ q = c!"'") (h : InLiteral q s n) (e : Stops q (s.drop n)) :
      Tok cpp strict prev s n .string
  | escape {s n} (h : EscapeText Accepted (s.take n))
      (l : ∀ m, n < m → m ≤ s.length → ¬ EscapeText IsEscape (s.take m)) : Tok cpp strict prev s n .string_escape
  /-- not an escape sequence -/
  | badEscape {s n} (h : s[0]? = some c!"\\") (e : ∀ m, ¬ EscapeText IsEscape (s.take m))
      (b : ¬ Blank s ∧ ∀ k, ¬ Splice s k) : Tok cpp strict prev s n .error
  | rawOpen {s n d} (hd : ∀ c ∈ d, DChar c) (h : s.take n = b!"\"" ++ d ++ b!"(") :
      Tok cpp strict prev s n .string_delim
  | rawText {s n d} (p : prev = some c!"(") (hd : ∀ c ∈ d, DChar c)
      (h : UpTo (b!")" ++ d ++ b!"\"") s n) :
      Tok cpp strict prev s n .string
  | rawClose {s n d} (hd : ∀ c ∈ d, DChar c) (h : s.take n = b!")" ++ d ++ b!"\"") :
      Tok cpp strict prev s n .string_delim
  /-- a raw string delimiter without `(` -/
  | badRaw {s n d} (hd : ∀ c ∈ d, DChar c)
      (h : s = b!"\"" ++ d ∨ ∃ c, s.take n = b!"\"" ++ d ++ [c] ∧ ¬ DChar c ∧ c ≠ c!"(") :
      Tok cpp strict prev s n .error
  | base {s n} (h : s.take n ∈ [b!"0x", b!"0X", b!"0b", b!"0B"]) : Tok cpp strict prev s n .number_decor
  | number {s n} (h : NumberDigits prev s n) : Tok cpp strict prev s n .number
  | numberDelim {s n} (h : s.take n ∈ [b!"'", b!"."]) : Tok cpp strict prev s n .number_delim
  | exponent {s n} (h : s.take n ∈ [b!"e", b!"E", b!"p", b!"P"])
      (e : ∃ c, s[n]? = some c ∧ (DecDigit c ∨ c ∈ b!"+-")) : Tok cpp strict prev s n .number_delim
  /-- all the rest of a number -/
  | numberSuffix {s n} (h : PpItems s n) (e : PpEnd (s.drop n))
      (b : ∀ c, s[0]? = some c → ¬ DecDigit c ∧ c ∉ b!"'.+-") : Tok cpp strict prev s n .number_decor

/-- What is not highlighted. -/
inductive Gap (cpp : Bool) : Bytes → Nat → Prop where
  | space {s n} (h : ∀ c ∈ s.take n, Space c) : Gap cpp s n
  /-- text that begins with something else -/
  | other {s n} (h : Longest (fun c => ¬ Space c) s n) (hs : ∀ w ∈ symbols cpp, s.take w.length ≠ w)
      (hi : ∀ n, ¬ Ident s n) (hc : ∀ c, s[0]? = some c → ¬ DecDigit c ∧ c ∉ b!"\"'") : Gap cpp s n

/-- The byte before `s`, which is the end of `src`. -/
def prevByte (src s : Bytes) : Option UInt8 := (src.take (src.length - s.length)).getLast?

/-- The rules of C and C++. -/
def rules (cpp strict : Bool) (src : Bytes) : Rules :=
  ⟨fun s n ty => Tok cpp strict (prevByte src s) s n ty, Gap cpp⟩

end Ulight.Spec.Cpp
