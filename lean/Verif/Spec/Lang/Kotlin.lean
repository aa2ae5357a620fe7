import Verif.Spec.Lang.CppId
import Verif.Spec.Lang.Js
import Verif.Spec.Escapes
import Verif.Spec.Words

/-!
# Specification of Kotlin highlighting
-/

namespace Ulight.Spec.Kotlin

/-- Whitespace. -/
def Space (c : UInt8) : Prop := c ∈ ([0x20, 0x09, 0x0C, 0x0A, 0x0D] : Bytes)

/-- The keywords and symbols, and how they are highlighted. -/
def words : List (Bytes × HT) := vocabulary [
  (.bool_, b!"false true"),
  (.keyword, b!"!in !is abstract actual annotation as as? assert async by class companion const constructor"),
  (.keyword, b!"data delegate dynamic enum expect field file final fun get import in init inline interface"),
  (.keyword, b!"internal is lateinit noinline object open operator out package param private protected public"),
  (.keyword, b!"receiver reified sealed set setparam suspend typealias typeof val value var vararg"),
  (.keyword_control, b!"await break break@ catch continue continue@ do else finally for if property return"),
  (.keyword_control, b!"return@ throw try when while"),
  (.keyword_this, b!"super@ super@ this this@"),
  (.null, b!"null"),
  (.string_delim, b!"\" \"\"\""),
  (.symbol_brace, b!"{ }"),
  (.symbol_op, b!"! != # % %= && * *= + ++ += - -- -= / /= < <= == === > >= ? ?. ?: @ ||"),
  (.symbol_parens, b!"( )"),
  (.symbol_punc, b!", -> . .. ... : :: ; ;; = =>"),
  (.symbol_square, b!"[ ]")]

/-- The symbols: the words of the table that are not made of letters only.  `=>` is left out, because it
is not recognised. -/
def symbols : List Bytes := (words.map Prod.fst).filter fun w =>
  !(w.all isAlpha) && w ≠ b!"=>"

/-- Numbers. -/
def numerals : Numerals where
  decor := [b!"0b", b!"0B", b!"0x", b!"0X"]
  exps := [b!"e", b!"e+", b!"e-", b!"E", b!"E+", b!"E-"]
  suffix := fun w => w ∈ [b!"f", b!"F", b!"l", b!"L", b!"u", b!"U", b!"uL", b!"UL"]
  base := 16
  sep := c!"_"

/-- `s` begins with a number that has a point, no digits after the point, but an exponent or a suffix,
and which is followed by another point: for example `1.f.`  -/
def Displaced (s : Bytes) : Prop :=
  ∃ p rest, s = NumberParts.text p ++ b!"." ++ rest ∧ numerals.Parts p ∧ p.point = b!"." ∧ p.fraction = [] ∧
    p.expSep ++ p.suffix ≠ []

/-- Escape sequences. -/
def escapes : EscapeForms := [(b!"u", .after .hex_4), (b!"tbrn'\"\\$", .simple)]

/-- What ends a piece of text in a literal with the quotation marks `q`. -/
def Stop (q : Bytes) (c : UInt8) : Prop :=
  (q.length = 1 ∧ (c = 0x0A ∨ c = 0x0D ∨ c = c!"\\")) ∨ (q ≠ b!"'" ∧ c = c!"$")

/-- `Tok D s n ty`: a token of type `ty` may cover the first `n` bytes of `s`.  `D` says that the source
contains a displaced number. -/
inductive Tok (D : Prop) : Bytes → Nat → HT → Prop where
  | commentDelim {s n} (h : s.take n ∈ [b!"//", b!"/*", b!"*/"]) : Tok D s n .comment_delim
  | lineComment {s n} (h : Js.Line s n) : Tok D s n .comment
  | blockComment {s n} (h : UpTo b!"*/" s n) : Tok D s n .comment
  /-- a keyword -/
  | keyword {s n ty} (h : Identifier CppId.Start CppId.Continue s n)
      (t : (s.take n, ty) ∈ words) : Tok D s n ty
  /-- any other identifier -/
  | name {s n} (h : Identifier CppId.Start CppId.Continue s n)
      (t : ∀ ty, (s.take n, ty) ∉ words) : Tok D s n .name
  | symbol {s n ty} (h : LongestIn symbols s n) (t : (s.take n, ty) ∈ words) : Tok D s n ty
  | brace {s n} (h : s.take n ∈ [b!"{", b!"}"]) : Tok D s n .symbol_brace
  /-- a closing brace without an opening one -/
  | unmatched {s n} (h : s.take n = b!"}") : Tok D s n .error
  | number {s n ty} (h : NumberTok numerals true s n ty) : Tok D s n ty
  /-- the tokens of a displaced number need not be in the right place -/
  | displaced {s n ty} (h : D) (t : ty ∈ [HT.number, .number_delim, .number_decor, .error]) : Tok D s n ty
  | quote {s n} (h : s.take n ∈ [b!"'", b!"\"", b!"\"\"\""]) : Tok D s n .string_delim
  | string {s n q} (hq : q ∈ [b!"'", b!"\"", b!"\"\"\""]) (h : TextTo q (Stop q) s n) : Tok D s n .string
  /-- quotation marks at the end of a multiline string, before the last three -/
  | quotes {s n rest} (h : s = List.replicate n c!"\"" ++ b!"\"\"\"" ++ rest)
      (h' : rest.head? ≠ some c!"\"") : Tok D s n .string
  | escape {s n} (h : escapes.Good s n) : Tok D s n .string_escape
  /-- not an escape sequence -/
  | badEscape {s n} (h : escapes.Bad s) : Tok D s n .error
  /-- the beginning or the end of an expression in a string -/
  | expression {s n} (h : s.take n ∈ [b!"${", b!"}"]) : Tok D s n .string_interpolation_delim
  /-- a name in a string -/
  | reference {s n} (h : startsWith s b!"$" = true)
      (h' : Identifier CppId.Start CppId.Continue (s.drop 1) n) : Tok D s (1 + n) .string_interpolation
  /-- `$` that does not begin an expression or name -/
  | badDollar {s n} (h : s.take n = b!"$") (h' : s[1]? ≠ some c!"{")
      (h'' : ∀ m, ¬ Identifier CppId.Start CppId.Continue (s.drop 1) m) : Tok D s n .error
  | backtick {s n} (h : s.take n = b!"`") : Tok D s n .name_delim
  | quotedName {s n} (h : UpTo b!"`" s n) (h' : ∀ c ∈ s.take n, InLine c) : Tok D s n .name
  /-- quotation marks without a name between them -/
  | noName {s n} (h : s.take n = b!"``") : Tok D s n .error
  /-- a name in quotation marks that is not closed on the same line -/
  | openName {s n} (h : startsWith s b!"`" = true) (h' : 1 ≤ n)
      (h'' : Longest (fun c => c ≠ c!"`" ∧ InLine c) (s.drop 1) (n - 1)) (e : s[n]? ≠ some c!"`") :
      Tok D s n .error
  /-- an annotation -/
  | at {s n} (h : s.take n = b!"@")
      (h' : s[1]? = some c!"[" ∨ ∃ m, Identifier CppId.Start CppId.Continue (s.drop 1) m) :
      Tok D s n .name_attr_delim
  | annotation {s n} (h : Identifier CppId.Start CppId.Continue s n) : Tok D s n .name_attr
  | dot {s n} (h : s.take n ∈ [b!".", b!":"]) : Tok D s n .name_attr_delim
  | square {s n} (h : s.take n ∈ [b!"[", b!"]"]) : Tok D s n .symbol_square
  /-- a byte that cannot begin a name in a list of annotations -/
  | badAnnotation {s n} (hn : n = 1) (h : ∀ c, s[0]? = some c → ¬ Space c ∧ c ≠ c!"]")
      (h' : ∀ m, ¬ Identifier CppId.Start CppId.Continue s m) : Tok D s n .error
  /-- a character that cannot begin anything -/
  | unknown {s n c p rest} (h : s = p ++ rest) (hc : FirstChar c p rest) (hn : n = p.length)
      (id : ¬ CppId.Start c) (sym : ∀ w ∈ symbols, ¬ OccursAt w s 0)
      (other : ∀ b, s[0]? = some b → ¬ DecDigit b ∧ ¬ Space b ∧ b ≠ c!"'" ∧ b ≠ c!"`") : Tok D s n .error

/-- Text without a token is whitespace. -/
def rules (D : Prop) : Rules := ⟨Tok D, fun s n => ∀ c ∈ s.take n, Space c⟩

end Ulight.Spec.Kotlin
