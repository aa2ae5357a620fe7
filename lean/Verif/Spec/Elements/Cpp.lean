import Verif.Spec.Program
import Verif.Spec.Lang.Cpp

/-!
# The lexical elements of C and C++

The state says whether only whitespace, comments and the name of a directive have been seen since the beginning of the line.
-/

namespace Ulight.Spec.Cpp

/-! ## Numbers -/

/-- The parts of a number: prefix, groups of digits, radix point, groups of digits, letter of the exponent, digits of the
exponent with their sign, suffix. -/
structure Number where
  pre : Bytes := []
  int : List Bytes := []
  point : Bytes := []
  frac : List Bytes := []
  exp : Bytes := []
  digits : Bytes := []
  suf : Bytes := []

/-- Groups of digits with `'` between them. -/
def groups : List Bytes → List (Bytes × HT)
  | [] => []
  | [g] => [(g, .number)]
  | g :: gs => (g, .number) :: (b!"'", .number_delim) :: groups gs

/-- The parts and their highlight types. -/
def Number.parts (n : Number) : List (Bytes × HT) :=
  [(n.pre, .number_decor)] ++ groups n.int ++ [(n.point, .number_delim)] ++ groups n.frac ++
    [(n.exp, .number_delim), (n.digits, .number), (n.suf, .number_decor)]

/-- The whole number. -/
def Number.text (n : Number) : Bytes := n.parts.flatMap Prod.fst

/-- The number is hexadecimal. -/
def Number.Hex (n : Number) : Prop := n.pre = b!"0x" ∨ n.pre = b!"0X"

/-- The number is binary. -/
def Number.Binary (n : Number) : Prop := n.pre = b!"0b" ∨ n.pre = b!"0B"

instance (n : Number) : Decidable n.Hex := by unfold Number.Hex; infer_instance
instance (n : Number) : Decidable n.Binary := by unfold Number.Binary; infer_instance

/-- The base of the digits. -/
def Number.base (n : Number) : Nat := if n.Hex then 16 else if n.Binary then 2 else 10

/-- A number before the text `b` ([lex.icon], [lex.fcon]).  Without a prefix, it does not begin like one.  A suffix does not begin with a character that could be a digit
or an exponent.  If the last character of the number could begin an exponent, then no sign may follow. -/
structure Number.Valid (n : Number) (b : Bytes) : Prop where
  pre : n.pre = [] ∨ n.Hex ∨ n.Binary
  plain : n.pre = [] → ∀ p ∈ [b!"0x", b!"0X", b!"0b", b!"0B"], ¬ p <+: n.text
  int : ∀ g ∈ n.int, Digits n.base g
  frac : ∀ g ∈ n.frac, Digits n.base g
  nonempty : n.int ≠ [] ∨ n.point = b!"." ∧ n.frac ≠ []
  point : n.point = b!"." ∧ ¬ n.Binary ∨ n.point = [] ∧ n.frac = []
  exp : n.exp = [] ∧ n.digits = [] ∨ ¬ n.Binary ∧ n.exp ∈ (if n.Hex then [b!"p", b!"P"] else [b!"e", b!"E"]) ∧
    ∃ sign ds, n.digits = sign ++ ds ∧ sign ∈ [b!"", b!"+", b!"-"] ∧ Digits 10 ds
  suf : (∀ c ∈ n.suf, Nondigit c) ∧ ∀ c, n.suf.head? = some c →
    if n.Hex then ¬ Spec.Hex c ∧ c ∉ b!"pP" else ¬ DecDigit c ∧ c ∉ b!"eE"
  end_ : PpEnd b
  last : ∀ c, n.text.getLast? = some c → ExponentLetter c → NotFirst b!"+-" b

/-! ## Literals -/

/-- Plain text in a literal with the quotation mark `q`. -/
def Text (q : UInt8) (t : Bytes) : Prop := IsUtf8 t ∧ ∀ c ∈ t, c ≠ q ∧ c ≠ c!"\\" ∧ InLine c

/-- An escape sequence, which would not be longer together with what follows. -/
def Escaped (w b : Bytes) : Prop :=
  EscapeText IsEscape w ∧ ∀ m, w.length < m → m ≤ (w ++ b).length → ¬ EscapeText IsEscape ((w ++ b).take m)

/-- The content of a literal before the text `b`: plain text and escape sequences by turns. -/
def Inside (q : UInt8) (b : Bytes) : List (Bytes × Bytes) → Bytes → Prop
  | [], t => Text q t
  | (u, w) :: es, t => Text q u ∧ Escaped w ((content es t).flatMap Prod.fst ++ b) ∧ Inside q b es t

/-- The suffix of a literal: no identifier, or an identifier that is no keyword. -/
def Suffix (cpp strict : Bool) (w b : Bytes) : Prop :=
  w = [] ∧ (∀ m, ¬ Ident b m) ∨ Ident (w ++ b) w.length ∧ ∀ ty, ¬ Keyword cpp strict w ty

/-- The parts of a literal. -/
def literal (p : Bytes) (ty : HT) (q : UInt8) (es : List (Bytes × Bytes)) (t suf : Bytes) : List (Bytes × HT) :=
  (p, ty) :: quoted [q] es t ++ [(suf, .string_decor)]

/-- The parts of a raw string. -/
def rawParts (p d t suf : Bytes) : List (Bytes × HT) :=
  [(p ++ b!"R", .string_decor), (b!"\"" ++ d ++ b!"(", .string_delim), (t, .string), (b!")" ++ d ++ b!"\"", .string_delim),
    (suf, .string_decor)]

/-! ## Elements -/

/-- Whitespace in a line. -/
def Blanks (w : Bytes) : Prop := ∀ c ∈ w, Space c ∧ InLine c

/-- The number sign, or the other way to write it. -/
def Pound (p b : Bytes) : Prop := (p = b!"#" ∨ p = b!"%:") ∧ ¬ p <+: b

/-- In the state `x`, the text `a` is a lexical element with the tokens `ts` if the text `b` follows, and `y` is the state
after it. -/
inductive Element (cpp strict : Bool) : Bool → Bytes → List Token → Bytes → Bool → Prop where
  | space {x w b} (h : w ≠ []) (h' : Longest Space (w ++ b) w.length) : Element cpp strict x w [] b (x || w.contains 0x0A)
  /-- a comment up to the end of the line -/
  | lineComment {x t b} (h : Line (t ++ b) t.length) :
      Element cpp strict x (b!"//" ++ t) (parts 0 [(b!"//", .comment_delim), (t, .comment)]) b true
  | blockComment {x t b} (h : UpTo b!"*/" (t ++ b!"*/" ++ b) t.length) :
      Element cpp strict x (b!"/*" ++ t ++ b!"*/")
        (parts 0 [(b!"/*", .comment_delim), (t, .comment), (b!"*/", .comment_delim)]) b x
  /-- a directive, at the beginning of a line -/
  | directive {p w n b} (h : Pound p (w ++ n ++ b)) (hw : Blanks w) (h' : Ident (n ++ b) n.length) (hn : n ≠ b!"include") :
      Element cpp strict true (p ++ w ++ n) [⟨0, p.length, .name_macro_delim⟩, ⟨p.length + w.length, n.length, .name_macro⟩] b true
  /-- `#include <header>` -/
  | include {p w v t b} (h : Pound p (w ++ b!"include")) (hw : Blanks w) (hv : Blanks v) (ht : ∀ c ∈ t, c ≠ c!">" ∧ InLine c) :
      Element cpp strict true (p ++ w ++ b!"include" ++ v ++ b!"<" ++ t ++ b!">")
        ([⟨0, p.length, .name_macro_delim⟩, ⟨p.length + w.length, 7, .name_macro⟩] ++
          parts (p.length + w.length + 7 + v.length) [(b!"<", .string_delim), (t, .string), (b!">", .string_delim)]) b true
  /-- `#include` before something else, with the whitespace after it -/
  | includeOther {p w v b} (h : Pound p (w ++ b!"include")) (hw : Blanks w) (hv : v ≠ []) (h' : Longest Space (v ++ b) v.length)
      (hb : b.head? ≠ some c!"<") :
      Element cpp strict true (p ++ w ++ b!"include" ++ v)
        [⟨0, p.length, .name_macro_delim⟩, ⟨p.length + w.length, 7, .name_macro⟩] b true
  /-- a string, possibly with a prefix and a suffix -/
  | string {x p es t suf b} (hp : p ∈ encodings) (h : Inside c!"\"" (b!"\"" ++ suf ++ b) es t) (hs : Suffix cpp strict suf b) :
      Element cpp strict x ((literal p .string_decor c!"\"" es t suf).flatMap Prod.fst)
        (parts 0 (literal p .string_decor c!"\"" es t suf)) b false
  /-- the name of a literal operator, such as `operator""_x` -/
  | operator {x es t suf b} (h : Inside c!"\"" (b!"\"" ++ suf ++ b) es t) (hs : Suffix cpp strict suf b) :
      Element cpp strict x ((literal b!"operator" .keyword c!"\"" es t suf).flatMap Prod.fst)
        (parts 0 (literal b!"operator" .keyword c!"\"" es t suf)) b false
  | character {x p es t suf b} (hp : p ∈ encodings) (h : Inside c!"'" (b!"'" ++ suf ++ b) es t) (hs : Suffix cpp strict suf b) :
      Element cpp strict x ((literal p .string_decor c!"'" es t suf).flatMap Prod.fst)
        (parts 0 (literal p .string_decor c!"'" es t suf)) b false
  | raw {x p d t suf b} (hp : p ∈ encodings) (hd : ∀ c ∈ d, DChar c)
      (h : UpTo (b!")" ++ d ++ b!"\"") (t ++ (b!")" ++ d ++ b!"\"") ++ suf ++ b) t.length) (hs : Suffix cpp strict suf b) :
      Element cpp strict x ((rawParts p d t suf).flatMap Prod.fst) (parts 0 (rawParts p d t suf)) b false
  | number {x n b} (h : Number.Valid n b) : Element cpp strict x n.text (parts 0 n.parts) b false
  /-- a keyword, which no quotation mark may follow -/
  | keyword {x w ty b} (h : Ident (w ++ b) w.length) (h' : Keyword cpp strict w ty) (h'' : NotFirst b!"\"'" b) :
      Element cpp strict x w [⟨0, w.length, ty⟩] b false
  /-- any other identifier; those that end in `_t` are names of types -/
  | name {x w b} (h : Ident (w ++ b) w.length) (h' : ∀ ty, ¬ Keyword cpp strict w ty) (h'' : NotFirst b!"\"'" b) :
      Element cpp strict x w [⟨0, w.length, if b!"_t" <:+ w then .name_type else .name⟩] b false
  /-- a symbol that begins no comment, no number and no directive -/
  | symbol {x w ty src b} (h : LongestIn (symbols cpp) (w ++ b) w.length) (h' : (w, ty, src) ∈ words)
      (less : ¬ LessColons (w ++ b)) (brace : w ≠ b!"%>") (comment : ¬ b!"//" <+: w ++ b ∧ ¬ b!"/*" <+: w ++ b)
      (number : w = b!"." → ∀ c, b.head? = some c → ¬ DecDigit c) (pound : w = b!"#" ∨ w = b!"%:" → x = false) :
      Element cpp strict x w [⟨0, w.length, ty⟩] b false
  /-- `<` before `::` -/
  | less {x b} (h : LessColons (b!"<" ++ b)) : Element cpp strict x b!"<" [⟨0, 1, .symbol_op⟩] b false

end Ulight.Spec.Cpp
