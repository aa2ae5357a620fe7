import Verif.Spec.Lang.Common
import Verif.Spec.Lang.Js
import Verif.Spec.Lang.Html
import Verif.Spec.Lang.Cpp
import Verif.Spec.Escapes
import Verif.Spec.Words
import Verif.Lang.Js

/-!
# Specification of JavaScript and TypeScript highlighting

Only the enumeration of the two languages is taken from the model.
-/

namespace Ulight.Spec.JavaScript

open Ulight.Js (Dialect)

/-- Is `c` in one of the ranges? -/
def InRanges (l : List (Nat × Nat)) (c : Nat) : Prop := ∃ r ∈ l, r.1 ≤ c ∧ c ≤ r.2

/-- Whitespace and line terminators.  (The range from U+1680 to U+180E is what the code has; ECMAScript has
only U+1680, and the range contains letters.) -/
def White (c : Nat) : Prop :=
  c ∈ [0x09, 0x0A, 0x0B, 0x0C, 0x0D, 0x20, 0xA0, 0x2028, 0x2029, 0x202F, 0x205F, 0x3000, 0xFEFF] ∨
    InRanges [(0x1680, 0x180E), (0x2000, 0x200A)] c

/-- A character that can begin an identifier. -/
def Start (c : Nat) : Prop :=
  c ∈ [0x24, 0x5F] ∨ InRanges [(0x41, 0x5A), (0x61, 0x7A), (0xC0, 0xD6), (0xD8, 0xF6), (0xF8, 0x2FF),
    (0x370, 0x37D), (0x37F, 0x1FFF), (0x200C, 0x200D), (0x2070, 0x218F), (0x2C00, 0x2FEF), (0x3001, 0xD7FF),
    (0xF900, 0xFDCF), (0xFDF0, 0xFFFD), (0x10000, 0xEFFFF)] c

/-- A character of an identifier. -/
def Part (c : Nat) : Prop :=
  Start c ∨ InRanges [(0x30, 0x39), (0x300, 0x36F), (0x1DC0, 0x1DFF), (0x20D0, 0x20FF), (0xFE20, 0xFE2F)] c

/-- `Ident s n`: the first `n` bytes of `s` are an identifier. -/
def Ident (s : Bytes) (n : Nat) : Prop := Identifier Start Part s n

/-- A character of the name of an attribute in JSX. -/
def AttrPart (c : Nat) : Prop := Part c ∨ c = 0x2D ∨ c = 0x3A

/-- A character of the name of an element in JSX. -/
def ElemPart (c : Nat) : Prop := Part c ∨ c = 0x2D ∨ c = 0x3A ∨ c = 0x2E

/-- The keywords and symbols that JavaScript and TypeScript share, and how they are highlighted. -/
def commonWords : List (HT × Bytes) := [
  (.bool_, b!"false true"),
  (.keyword, b!"as async await class const debugger delete enum export extends from function get"),
  (.keyword, b!"import in instanceof let new of set static typeof var void yield"),
  (.keyword_control, b!"break case catch continue default do else finally for if return switch throw"),
  (.keyword_control, b!"try while with"),
  (.keyword_this, b!"super this"),
  (.name_type_builtin, b!"boolean number string"),
  (.null, b!"null undefined"),
  (.symbol_brace, b!"{ }"),
  (.symbol_op, b!". ... : <"),
  (.symbol_op, b!"! != !== % %= & && &&= &= * ** **= *= + ++ += - -- -= / /= << <<= <= = == === => >"),
  (.symbol_op, b!">= >> >>= >>> >>>= ? ?. ?? ??= ^ ^= | |= || ||= ~"),
  (.symbol_parens, b!"( )"),
  (.symbol_punc, b!", ;"),
  (.symbol_square, b!"[ ]")]

/-- What TypeScript adds. -/
def typescriptWords : List (HT × Bytes) := [
  (.keyword, b!"abstract asserts constructor declare implements interface is private protected public type"),
  (.keyword_type, b!"any"),
  (.symbol_punc, b!"@")]

/-- The keywords and symbols of a language. -/
def words : Dialect → List (Bytes × HT)
  | .javascript => vocabulary commonWords
  | .typescript => vocabulary (commonWords ++ typescriptWords)

/-- A keyword or symbol of the language. -/
def Word (m : Dialect) (w : Bytes) (ty : HT) : Prop := (w, ty) ∈ words m

/-- The symbols of both languages: the words that do not begin with a letter. -/
def symbols : List Bytes := ((words .typescript).map Prod.fst).filter fun w => (w.take 1).all fun c => !isAlpha c

/-- Numbers. -/
def numerals : Numerals where
  decor := [b!"0b", b!"0B", b!"0o", b!"0O", b!"0x", b!"0X"]
  exps := [b!"e", b!"e+", b!"e-", b!"E", b!"E+", b!"E-"]
  suffix := fun w => w = b!"n"
  base := 16
  sep := c!"_"

/-- `w` is an escape sequence. -/
inductive Esc : Bytes → Prop where
  | hex {w} (n : w.length = 2) (h : ∀ c ∈ w, Hex c) : Esc (b!"\\x" ++ w)
  | unicode {w} (n : w.length = 4) (h : ∀ c ∈ w, Hex c) : Esc (b!"\\u" ++ w)
  | codePoint {w} (n : w ≠ []) (h : ∀ c ∈ w, Hex c) : Esc (b!"\\u{" ++ w ++ b!"}")
  /-- at most `\377` -/
  | octal {c w} (h : ∀ d ∈ c :: w, Octal d) (n : w.length ≤ 1 ∨ (w.length = 2 ∧ c.toNat ≤ 0x33)) :
      Esc (c!"\\" :: c :: w)
  | simple {c} (h : c ≠ c!"x" ∧ c ≠ c!"u" ∧ ¬ Octal c) : Esc [c!"\\", c]

/-- The first `n` bytes of `s` are an escape sequence, which could not be longer. -/
def GoodEsc (s : Bytes) (n : Nat) : Prop :=
  n ≤ s.length ∧ (Esc (s.take n) ∨ (n = s.length ∧ Esc (s ++ b!"}"))) ∧
    ∀ m, n < m → m ≤ s.length → ¬ Esc (s.take m)

/-- There is a backslash at the beginning of `s`, but no escape sequence. -/
def BadEsc (s : Bytes) : Prop := s[0]? = some c!"\\" ∧ ∀ m, ¬ Esc (s.take m)

/-- `Extent s n`: the escape sequence at the beginning of `s` extends over `n` bytes, even if it is not
well-formed. -/
inductive Extent : Bytes → Nat → Prop where
  | hex {t n} (hn : n = min 4 (t.length + 2)) : Extent (c!"\\" :: c!"x" :: t) n
  | unicode {t n} (h : t.head? ≠ some c!"{") (hn : n = min 6 (t.length + 2)) : Extent (c!"\\" :: c!"u" :: t) n
  | codePoint {t n} (h : UpTo b!"}" t n) :
      Extent (b!"\\u{" ++ t) (if n < t.length then n + 4 else n + 3)
  | other {c t n} (h : c ≠ c!"x" ∧ c ≠ c!"u") (g : GoodEsc (c!"\\" :: c :: t) n) : Extent (c!"\\" :: c :: t) n

/-- `Body q s`: the text `s` after a quotation mark `q`, up to the next `q` or the end of the line, has no
escape sequence that extends over the end of the string. -/
inductive Body (q : UInt8) : Bytes → Prop where
  | done : Body q []
  | stop {c t} (h : c = q ∨ c = 0x0A) : Body q (c :: t)
  | char {c t} (h : c ≠ q ∧ c ≠ 0x0A ∧ c ≠ c!"\\") (r : Body q t) : Body q (c :: t)
  | backslash : Body q b!"\\"
  | escape {s n} (h : Extent s n) (i : ∀ c ∈ (s.take n).drop 2, c ≠ q ∧ c ≠ 0x0A ∧ c ≠ c!"\\")
      (r : Body q (s.drop n)) : Body q s

/-- No escape sequence extends over the end of its string.  (It is not known here which quotation marks
begin a string, so this is about all of them.) -/
def StringsFit (src : Bytes) : Prop := ∀ k q t, src.drop k = q :: t → q ∈ b!"'\"" → Body q t

/-- `Literal q s n`: a string literal with the text `s` after its quotation mark `q` has `n` bytes before
the end of the string, line, or text. -/
inductive Literal (q : UInt8) : Bytes → Nat → Prop where
  | done : Literal q [] 0
  | stop {c t} (h : c = q ∨ c = 0x0A) : Literal q (c :: t) 0
  | char {c t n} (h : c ≠ q ∧ c ≠ 0x0A ∧ c ≠ c!"\\") (r : Literal q t n) : Literal q (c :: t) (n + 1)
  | backslash : Literal q b!"\\" 1
  | escape {c t n} (r : Literal q t n) : Literal q (c!"\\" :: c :: t) (n + 2)

/-- JavaScript code without comments, regular expressions, template literals and JSX, and with matching
braces. -/
inductive Code : Bytes → Prop where
  | nil : Code []
  | char {c w} (h : c ∉ b!"{}'\"`/<") (r : Code w) : Code (c :: w)
  | braces {v w} (h : Code v) (r : Code w) : Code (b!"{" ++ v ++ b!"}" ++ w)
  | string {q v w} (hq : q ∈ b!"'\"") (h : Literal q (v ++ [q] ++ w) v.length) (r : Code w) : Code ([q] ++ v ++ [q] ++ w)

/-- After the first `<`, every opening brace begins simple code that ends with a closing brace. -/
def BracesFit (src : Bytes) : Prop :=
  ∀ i k, i < k → src[i]? = some c!"<" → src[k]? = some c!"{" →
    ∃ w t, src.drop (k + 1) = w ++ b!"}" ++ t ∧ Code w

/-- The text of a regular expression, before the `/` that ends it. -/
inductive Regex : Bytes → Nat → Prop where
  | done {t} : Regex (c!"/" :: t) 0
  | escape {c t n} (r : Regex t n) : Regex (c!"\\" :: c :: t) (n + 2)
  | char {c t n} (h : c ≠ c!"/" ∧ c ≠ c!"\\") (l : ¬ Js.LineTerminatorAt (c :: t) 0) (r : Regex t n) :
      Regex (c :: t) (n + 1)

/-- Text in a string with the quotation mark `q`. -/
structure Text (q : UInt8) (s : Bytes) (n : Nat) : Prop where
  plain : ∀ c ∈ s.take n, c ≠ q ∧ c ≠ 0x0A
  backslash : ∀ k, k < n → s[k]? = some c!"\\" → k + 1 = s.length
  until_ : n = s.length ∨ ∃ c, s[n]? = some c ∧ (c = q ∨ c = 0x0A ∨ c = c!"\\")

/-- Text in a template literal. -/
structure TemplateText (s : Bytes) (n : Nat) : Prop where
  plain : ∀ c ∈ s.take n, c ≠ c!"`"
  noSubstitution : ∀ k, k < n → ¬ OccursAt b!"${" s k
  backslash : ∀ k, k < n → s[k]? = some c!"\\" → k + 1 = s.length
  until_ : n = s.length ∨ s[n]? = some c!"`" ∨ s[n]? = some c!"\\" ∨ OccursAt b!"${" s n

/-- The first `n` bytes of `s` are text in JSX. -/
def JsxText (s : Bytes) (n : Nat) : Prop := Longest (fun c => c ∉ b!"&{}<>") s n

/-- `Tok m p s n ty`: a token of type `ty` may cover the first `n` bytes of `s`; `p` is the byte before `s`. -/
inductive Tok (m : Dialect) (p : Option UInt8) : Bytes → Nat → HT → Prop where
  | commentDelim {s n} (h : s.take n ∈ [b!"//", b!"/*", b!"*/", b!"#!"]) : Tok m p s n .comment_delim
  | lineComment {s n} (h : Js.Line s n) (hp : p = some c!"/" ∨ p = some c!"!") : Tok m p s n .comment
  | blockComment {s n} (h : UpTo b!"*/" s n) (hp : p = some c!"*") : Tok m p s n .comment
  | keyword {s n ty} (h : Ident s n) (t : Word m (s.take n) ty) : Tok m p s n ty
  | name {s n} (h : Ident s n) (t : ∀ ty, ¬ Word m (s.take n) ty) : Tok m p s n .name
  | privateName {t n} (h : Ident t n) : Tok m p (c!"#" :: t) (n + 1) .name
  | symbol {s n ty} (h : LongestIn symbols s n) (t : Word m (s.take n) ty) : Tok m p s n ty
  | brace {s n} (h : s.take n ∈ [b!"{", b!"}"]) : Tok m p s n .symbol_brace
  | number {s n ty} (h : NumberTok numerals true s n ty) : Tok m p s n ty
  /-- the suffix `n` is for integers -/
  | badSuffix {s n q} (h : s.take n = NumberParts.text q) (hq : numerals.Parts q) (h1 : q.suffix ≠ [])
      (h2 : q.point ≠ [] ∨ q.expSep ≠ []) : Tok m p s n .error
  | quote {s n} (h : s.take n ∈ [b!"'", b!"\"", b!"`", b!"/"]) : Tok m p s n .string_delim
  | string {s n q} (hq : q ∈ b!"'\"") (h : Text q s n) : Tok m p s n .string
  | template {s n} (h : TemplateText s n) : Tok m p s n .string
  | regex {s n} (h : Regex s n) (hp : p = some c!"/") : Tok m p s n .string
  | flags {s n} (h : LongestChars Part s n) (hp : p = some c!"/") : Tok m p s n .string_decor
  | escape {s n} (h : GoodEsc s n) : Tok m p s n .string_escape
  | badEscape {s n} (h : BadEsc s) (hn : Extent s n) : Tok m p s n .error
  /-- a backslash at the end of a line in a template literal -/
  | continuation {s n} (h : s.take n = b!"\\")
      (l : ∃ t ∈ [b!"\n", b!"\r\n", [0xE2, 0x80, 0xA8], [0xE2, 0x80, 0xA9]], OccursAt t s 1) : Tok m p s n .string_escape
  | substitution {s n} (h : s.take n ∈ [b!"${", b!"}"]) : Tok m p s n .string_interpolation_delim
  /-- in a JSX tag -/
  | jsxSymbol {s n} (hm : m = .javascript) (h : s.take n ∈ [b!"<", b!">", b!"/", b!"="]) : Tok m p s n .symbol_punc
  | jsxName {s n} (hm : m = .javascript) (h : Identifier Start AttrPart s n ∨ Identifier Start ElemPart s n) :
      Tok m p s n .markup_tag
  /-- between JSX tags -/
  | reference {s n} (hm : m = .javascript) (h : Html.Ref s n) : Tok m p s n .string_escape
  | stray {s n} (hm : m = .javascript) (h : s.take n ∈ [b!"<", b!">", b!"}"]) : Tok m p s n .error
  /-- a byte that cannot begin anything -/
  | unknown {s n} (hn : n = 1) (id : ∀ k, ¬ Ident s k) (sym : ∀ w ∈ symbols, OccursAt w s 0 → ∀ ty, ¬ Word m w ty)
      (other : ∀ b, s[0]? = some b → ¬ DecDigit b ∧ b ∉ b!" \t\n\r'\"`") : Tok m p s n .error

/-- Text without a token. -/
inductive Gap (m : Dialect) (p : Option UInt8) : Bytes → Nat → Prop where
  | white {s n} (h : LongestChars White s n) : Gap m p s n
  | jsxText {s n} (hm : m = .javascript) (hp : ∃ c, p = some c ∧ c ∈ b!"<>&{};") (h : JsxText s n) : Gap m p s n
  | jsxAmp {s n} (hm : m = .javascript) (h : s.take n = b!"&") (r : Html.NoRef s 0) : Gap m p s n

/-- The rules of JavaScript and TypeScript. -/
def rules (m : Dialect) (src : Bytes) : Rules :=
  ⟨fun s n ty => Tok m (Cpp.prevByte src s) s n ty, fun s n => Gap m (Cpp.prevByte src s) s n⟩

end Ulight.Spec.JavaScript
