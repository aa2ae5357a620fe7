import Verif.Spec.Program
import Verif.Spec.Lang.JavaScript

/-!
# The lexical elements of JavaScript and TypeScript

Elements of JSX are not described here, so that a `<` in JavaScript must not begin a tag.  Numbers that are not well-formed
are not described here either.

Only the enumerations of the languages and of the states are taken from the model.  The state says what may come next: at the
beginning of the source (`hashbang`) there may be a hashbang comment or a regular expression, after an operator (`regex`) there
may be a regular expression, and after an operand (`div`) a slash is an operator.
-/

namespace Ulight.Spec.JavaScript

open Ulight.Js (Dialect Elem)

/-- Code in one state that leads to another state. -/
abbrev Reading := Elem → Bytes → List Token → Bytes → Elem → Prop

/-- The text `a` before `b` is an escape sequence, with the highlight type.  It need not be well-formed.  At the end of the
source, the brace at the end may be missing. -/
def Escape (a b : Bytes) (ty : HT) : Prop :=
  Extent (a ++ b) a.length ∧
    (GoodEsc (a ++ b) a.length ∧ ty = .string_escape ∨ ¬ GoodEsc (a ++ b) a.length ∧ ty = .error)

/-- The text of a string after its quotation mark `q`, and the quotation mark that ends it, if it is there.  The string ends
with the line at the latest. -/
inductive Quoted (q : UInt8) : Bytes → List Token → Bytes → Prop where
  | source : Quoted q [] [] []
  | line {b} : Quoted q [] [] (0x0A :: b)
  | close {b} : Quoted q [q] [⟨0, 1, .string_delim⟩] b
  | text {t a ts b} (h0 : t ≠ []) (h : Text q (t ++ (a ++ b)) t.length) (h1 : a ++ b ≠ b!"\\") (h' : Quoted q a ts b) :
      Quoted q (t ++ a) (⟨0, t.length, .string⟩ :: shift t.length ts) b
  /-- the escape sequence is in the string -/
  | escape {e ty a ts b} (h : Escape e (a ++ b) ty) (i : ∀ c ∈ e.drop 2, c ≠ q ∧ c ≠ 0x0A ∧ c ≠ c!"\\") (h' : Quoted q a ts b) :
      Quoted q (e ++ a) (⟨0, e.length, ty⟩ :: shift e.length ts) b

/-- The ends of lines after a backslash in a template literal. -/
def terminators : List Bytes := [b!"\n", b!"\r\n", [0xE2, 0x80, 0xA8], [0xE2, 0x80, 0xA9]]

/-- The text of a template literal after the first quotation mark.  `N` is the code in substitutions. -/
inductive Template (N : Bytes → List Token → Bytes → Elem → Prop) : Reading where
  | source {x} : Template N x [] [] [] x
  | close {x b} : Template N x b!"`" [⟨0, 1, .string_delim⟩] b .div
  | text {x t a ts b y} (h0 : t ≠ []) (h : TemplateText (t ++ (a ++ b)) t.length) (h1 : a ++ b ≠ b!"\\")
      (h' : Template N x a ts b y) :
      Template N x (t ++ a) (⟨0, t.length, .string⟩ :: shift t.length ts) b y
  | escape {x e ty a ts b y} (h : Escape e (a ++ b) ty) (c : ∀ t ∈ terminators, ¬ c!"\\" :: t <+: e ++ (a ++ b))
      (h' : Template N x a ts b y) : Template N x (e ++ a) (⟨0, e.length, ty⟩ :: shift e.length ts) b y
  /-- a backslash before the end of a line, which belongs to the text that follows -/
  | continuation {x l a ts b y} (hl : l ∈ terminators) (h : l <+: a) (h' : Template N x a ts b y) :
      Template N x (c!"\\" :: a) (⟨0, 1, .string_escape⟩ :: shift 1 ts) b y
  | substitution {x s ss a ts b y z} (h : N s ss (b!"}" ++ a ++ b) y) (h' : Template N y a ts b z) :
      Template N x (b!"${" ++ s ++ b!"}" ++ a) ([⟨0, 2, .string_interpolation_delim⟩] ++ shift 2 ss ++
        [⟨2 + s.length, 1, .string_interpolation_delim⟩] ++ shift (3 + s.length) ts) b z
  /-- a substitution that is not closed -/
  | openSubstitution {x s ss y} (h : N s ss [] y) :
      Template N x (b!"${" ++ s) ([⟨0, 2, .string_interpolation_delim⟩] ++ shift 2 ss) [] y

/-- Numbers, without those that begin with a zero and have no prefix. -/
def radixes : List Radix := [
  { exps := some b!"eE", point := true, ints := [b!"n"] },
  { pre := b!"0x", base := 16, ints := [b!"n"] }, { pre := b!"0X", base := 16, ints := [b!"n"] },
  { pre := b!"0b", base := 2, ints := [b!"n"] }, { pre := b!"0B", base := 2, ints := [b!"n"] },
  { pre := b!"0o", base := 8, ints := [b!"n"] }, { pre := b!"0O", base := 8, ints := [b!"n"] }]

/-- A number that begins with a zero and has no prefix.  The code takes all its digits for octal ones. -/
structure Legacy (n : Written) : Prop where
  pre : n.pre = []
  int : n.int ≠ [] ∧ ∀ g ∈ n.int, Digits 8 g
  zero : ∃ g, n.int.head? = some g ∧ g.head? = some c!"0"
  frac : n.point = [] ∧ n.frac = [] ∨ n.point = b!"." ∧ n.frac ≠ [] ∧ ∀ g ∈ n.frac, Digits 8 g
  exp : n.exp = [] ∧ n.digits = [] ∨ (∃ c ∈ b!"eE", ∃ sign ∈ [b!"", b!"+", b!"-"], n.exp = c :: sign) ∧ Digits 10 n.digits
  suf : n.suf = [] ∨ n.suf = b!"n" ∧ n.point = [] ∧ n.exp = []

/-- The keywords before operands. -/
def operators : List Bytes := [b!"return", b!"throw", b!"case", b!"delete", b!"void", b!"typeof", b!"yield", b!"await",
  b!"instanceof", b!"in", b!"is", b!"new"]

/-- The symbols after operands. -/
def closing : List Bytes := [b!"++", b!"--", b!")", b!"]", b!"}"]

/-- A comment begins here. -/
def Comment (s : Bytes) : Prop := b!"//" <+: s ∨ b!"/*" <+: s

/-- There is no tag at the beginning of the text.  (There may be other reasons why there is none.) -/
inductive NoTag : Bytes → Prop where
  | other {s} (h : s.head? ≠ some c!"<") : NoTag s
  /-- neither a name, nor the end of the tag, nor an attribute -/
  | noName {w r} (hw : LongestChars White (w ++ r) w.length) (h : ∀ k, ¬ Ident r k) (c : ¬ Comment r)
      (h' : ∀ c, r.head? = some c → c ∉ b!">{") : NoTag (b!"<" ++ (w ++ r))
  /-- after the name, neither the end of the tag nor an attribute -/
  | name {w n v r} (hw : LongestChars White (w ++ (n ++ (v ++ r))) w.length) (hn : Identifier Start ElemPart (n ++ (v ++ r)) n.length)
      (hv : LongestChars White (v ++ r) v.length) (h : ∀ k, ¬ Ident r k) (c : ¬ Comment r)
      (h' : ∀ c, r.head? = some c → c ∉ b!">{") (h'' : ¬ b!"/>" <+: r) : NoTag (b!"<" ++ (w ++ (n ++ (v ++ r))))

/-- The lexical elements.  `N` is the code in substitutions. -/
inductive Element (m : Dialect) (N : Bytes → List Token → Bytes → Elem → Prop) : Reading where
  | space {x w b} (h0 : w ≠ []) (h : LongestChars White (w ++ b) w.length) : Element m N x w [] b x
  | hashbang {t b} (h : Js.Line (t ++ b) t.length) :
      Element m N .hashbang (b!"#!" ++ t) (parts 0 [(b!"#!", .comment_delim), (t, .comment)]) b .hashbang
  | lineComment {x t b} (h : Js.Line (t ++ b) t.length) :
      Element m N x (b!"//" ++ t) (parts 0 [(b!"//", .comment_delim), (t, .comment)]) b .regex
  | blockComment {x t b} (h : UpTo b!"*/" (t ++ b!"*/" ++ b) t.length) : Element m N x (b!"/*" ++ t ++ b!"*/")
      (parts 0 [(b!"/*", .comment_delim), (t, .comment), (b!"*/", .comment_delim)]) b .regex
  | openComment {x t} (h : ∀ k, ¬ OccursAt b!"*/" t k) :
      Element m N x (b!"/*" ++ t) (parts 0 [(b!"/*", .comment_delim), (t, .comment)]) [] .regex
  | string {x q a ts b} (hq : q ∈ b!"'\"") (h : Quoted q a ts b) :
      Element m N x (q :: a) (⟨0, 1, .string_delim⟩ :: shift 1 ts) b .div
  | template {x a ts b y} (h : Template N x a ts b y) :
      Element m N x (c!"`" :: a) (⟨0, 1, .string_delim⟩ :: shift 1 ts) b y
  /-- a regular expression with its flags -/
  | regex {x t f b} (hx : x ≠ .div) (h0 : t ≠ []) (h1 : t.head? ≠ some c!"*") (h : Regex (t ++ (b!"/" ++ f ++ b)) t.length)
      (hf : LongestChars Part (f ++ b) f.length) : Element m N x (b!"/" ++ t ++ b!"/" ++ f)
      (parts 0 [(b!"/", .string_delim), (t, .string), (b!"/", .string_delim), (f, .string_decor)]) b .div
  | number {x n R b} (hR : R ∈ radixes) (h : Written.In n R)
      (h0 : n.pre = [] → ∀ g, n.int.head? = some g → g.head? ≠ some c!"0") (h' : Boundary b) :
      Element m N x n.text (parts 0 n.parts) b .div
  | legacy {x n b} (h : Legacy n) (h' : Boundary b) : Element m N x n.text (parts 0 n.parts) b .div
  | privateName {x w b} (h : Ident (w ++ b) w.length) : Element m N x (c!"#" :: w) [⟨0, w.length + 1, .name⟩] b .div
  | keyword {x w ty b} (h : Ident (w ++ b) w.length) (h' : Word m w ty) :
      Element m N x w [⟨0, w.length, ty⟩] b (if w ∈ operators then .regex else .div)
  /-- a name that does not begin with an underscore (a few characters could be white space as well as the beginning of a
  name) -/
  | name {x w b} (space : LongestChars White (w ++ b) 0) (h : Ident (w ++ b) w.length) (h' : ∀ ty, ¬ Word m w ty)
      (h'' : w.head? ≠ some c!"_") : Element m N x w [⟨0, w.length, .name⟩] b .div
  /-- underscores and digits at the beginning of a name are an error -/
  | underscore {x w b} (h : Longest (fun c => c = c!"_" ∨ DecDigit c) (w ++ b) w.length) (h0 : w.head? = some c!"_")
      (h' : NotFirst b!".eEn" b) : Element m N x w [⟨0, w.length, .error⟩] b .div
  /-- a symbol that begins neither a comment, nor a number, nor a regular expression, nor a tag -/
  | symbol {x w ty b} (h : LongestIn symbols (w ++ b) w.length) (h' : Word m w ty) (comment : ¬ Comment (w ++ b))
      (number : w = b!"." → ∀ c, b.head? = some c → ¬ DecDigit c)
      (regex : x ≠ .div → w.head? = some c!"/" → ∀ n, ¬ Regex ((w ++ b).drop 1) n) (tag : m = .javascript → NoTag (w ++ b)) :
      Element m N x w [⟨0, w.length, ty⟩] b (if w ∈ closing then .div else .regex)
  /-- a byte that cannot begin anything -/
  | unknown {x c b} (space : LongestChars White (c :: b) 0) (hash : x = .hashbang → ¬ b!"#!" <+: c :: b)
      (id : ∀ k, ¬ Ident (c :: b) k) (prv : c = c!"#" → ∀ k, ¬ Ident b k)
      (sym : ∀ w ∈ symbols, w <+: c :: b → ∀ ty, ¬ Word m w ty) (other : ¬ DecDigit c ∧ c ∉ b!"'\"`/<._") :
      Element m N x [c] [⟨0, 1, .error⟩] b .regex

/-- Code in a substitution, up to the brace that ends it, where `l` braces are open. -/
inductive Inside (E : Reading) : Elem → Nat → Bytes → List Token → Bytes → Elem → Prop where
  | source {x l} : Inside E x l [] [] [] x
  | close {x b} : Inside E x 0 [] [] (c!"}" :: b) x
  | openBrace {x l a ts b y} (h : Inside E .regex (l + 1) a ts b y) :
      Inside E x l (c!"{" :: a) (⟨0, 1, .symbol_brace⟩ :: shift 1 ts) b y
  | closeBrace {x l a ts b y} (h : Inside E .div l a ts b y) :
      Inside E x (l + 1) (c!"}" :: a) (⟨0, 1, .symbol_brace⟩ :: shift 1 ts) b y
  | element {x l e es y a ts b z} (h : E x e es (a ++ b) y) (h0 : ∀ c, e.head? = some c → c ∉ b!"{}") (h' : Inside E y l a ts b z) :
      Inside E x l (e ++ a) (es ++ shift e.length ts) b z

/-- Code in substitutions, in which substitutions are nested to the depth `n`. -/
def substitution (m : Dialect) : Nat → Bytes → List Token → Bytes → Elem → Prop
  | 0 => fun _ _ _ _ => False
  | n + 1 => Inside (Element m (substitution m n)) .regex 0

/-- The lexical elements of a program. -/
def Lexical (m : Dialect) : Reading := fun x a ts b y => ∃ n, Element m (substitution m n) x a ts b y

end Ulight.Spec.JavaScript
