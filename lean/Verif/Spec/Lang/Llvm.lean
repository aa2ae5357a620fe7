import Verif.Spec.Lang.Common
import Verif.Spec.Words
import Verif.Spec.Escapes

/-!
# Specification of LLVM IR highlighting
-/

namespace Ulight.Spec.Llvm

/-- A character of a word. -/
def WordChar (c : UInt8) : Prop := Letter c ∨ DecDigit c ∨ c = c!"-" ∨ c = c!"_"

/-- A character of a name after `%` or `@`. -/
def NameChar (c : UInt8) : Prop := Letter c ∨ DecDigit c ∨ c = c!"-" ∨ c = c!"$" ∨ c = c!"." ∨ c = c!"_"

/-- An integer type such as `i32`. -/
def IntegerType (w : Bytes) : Prop := ∃ ds, w = c!"i" :: ds ∧ ds ≠ [] ∧ ∀ c ∈ ds, DecDigit c

/-- The words that are not highlighted like all others. -/
def words : List (Bytes × HT) := vocabulary [
  (.bool_, b!"false true"),
  (.null, b!"none null poison undef"),
  (.keyword_type, b!"bfloat double float fp128 label metadata ppc_fp128 ptr target token void vscale x86_amx"),
  (.keyword_type, b!"x86_fp80"),
  (.keyword_control, b!"br call callbr catchpad catchret catchswitch cleanuppad cleanupret indirectbr invoke"),
  (.keyword_control, b!"landingpad resume ret switch unreachable"),
  (.string_decor, b!"c"),
  (.symbol_punc, b!"x")]

/-- The floating-point types of the language. -/
def floatTypes : List Bytes := wordsOf b!"half bfloat float double fp128 x86_fp80 ppc_fp128"

/-- The type of a word: integer types, words of the table, and all others. -/
inductive Word : Bytes → HT → Prop where
  | integer {w} (h : IntegerType w) : Word w .keyword_type
  | special {w ty} (h : (w, ty) ∈ words) : Word w ty
  | other {w} (h : ∀ ty, (w, ty) ∉ words) (h' : ¬ IntegerType w) : Word w .keyword

/-- Numbers. -/
def numerals : Numerals where
  decor := [b!"-", b!"0x", b!"0xK", b!"0xL", b!"0xM", b!"0xR", b!"s0x", b!"u0x", b!"-0x", b!"-0xK", b!"-0xL",
    b!"-0xM", b!"-0xR", b!"-s0x", b!"-u0x"]
  exps := [b!"e", b!"e+", b!"e-", b!"E", b!"E+", b!"E-"]
  base := 16

/-- `Tok s n ty`: a token of type `ty` may cover the first `n` bytes of `s`. -/
inductive Tok : Bytes → Nat → HT → Prop where
  | parens {s n} (h : s.take n ∈ [b!"(", b!")"]) : Tok s n .symbol_parens
  | square {s n} (h : s.take n ∈ [b!"[", b!"]"]) : Tok s n .symbol_square
  | brace {s n} (h : s.take n ∈ [b!"{", b!"}"]) : Tok s n .symbol_brace
  | punc {s n} (h : s.take n ∈ [b!",", b!":", b!"<", b!"=", b!">"]) : Tok s n .symbol_punc
  | commentDelim {s n} (h : s.take n ∈ [b!";", b!"/*", b!"*/"]) : Tok s n .comment_delim
  | lineComment {s n} (h : Longest InLine s n) : Tok s n .comment
  | blockComment {s n} (h : UpTo b!"*/" s n) : Tok s n .comment
  | varDelim {s n} (h : s.take n = b!"%") : Tok s n .name_var_delim
  | var {s n} (h : Longest NameChar s n) : Tok s n .name_var
  | functionDelim {s n} (h : s.take n = b!"@") : Tok s n .name_function_delim
  | function {s n} (h : Longest NameChar s n) : Tok s n .name_function
  /-- a word before a colon is a label -/
  | label {s n} (h : Longest WordChar s n) (colon : s[n]? = some c!":") : Tok s n .name_label_decl
  | labelDelim {s n} (h : s.take n = b!":") : Tok s n .name_label_delim
  /-- other words are classified with the table -/
  | word {s n ty} (h : Longest WordChar s n) (colon : s[n]? ≠ some c!":") (w : Word (s.take n) ty) :
      Tok s n ty
  | quote {s n} (h : s.take n = b!"\"") : Tok s n .string_delim
  | string {s n} (h : ∀ c ∈ s.take n, c ≠ c!"\"" ∧ c ≠ c!"\\") : Tok s n .string
  | backslash {s n} (h : s.take n = b!"\\\\") : Tok s n .string_escape
  | hex {s n t} (h : s.take n = c!"\\" :: t) (ht : IsEscape .hex_2 t) : Tok s n .string_escape
  | number {s n ty} (h : NumberTok numerals false s n ty) : Tok s n ty
  /-- `\` must be followed by two hexadecimal digits or another `\` -/
  | escape {s n} (h : s[0]? = some c!"\\") (h' : ∀ t u, s = c!"\\" :: (t ++ u) → ¬ IsEscape .hex_2 t) :
      Tok s n .error
  /-- a character that cannot begin anything -/
  | error {s n c} (h : s.take n = [c]) (h' : ¬ WordChar c ∧
      c ∉ b!"()[]{},:<=>;%@\" \t\r\n") : Tok s n .error

/-- Text without a token is whitespace. -/
def rules : Rules := ⟨Tok, fun s n => ∀ c ∈ s.take n, c ∈ ([0x20, 0x09, 0x0A, 0x0D] : Bytes)⟩

end Ulight.Spec.Llvm
