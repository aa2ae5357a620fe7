import Verif.Spec.Program
import Verif.Spec.Lang.Python

/-!
# The lexical elements of Python
-/

namespace Ulight.Spec.Python

/-- The numbers of Python ([Python 2.6]). -/
def radixes : List Radix := [
  { exps := some b!"eE", ints := [b!"j", b!"J"], floats := [b!"j", b!"J"] },
  { pre := b!"0x", base := 16 }, { pre := b!"0X", base := 16 },
  { pre := b!"0o", base := 8 }, { pre := b!"0O", base := 8 },
  { pre := b!"0b", base := 2 }, { pre := b!"0B", base := 2 }]

/-- The escapes in byte strings. -/
def byteEscapes : EscapeForms := [(b!"\r\n", .own .lf_cr_crlf), (b!"01234567", .own .octal_3), (b!"x", .after .hex_2),
  (b!"\\'\"abfnrtv", .simple)]

/-- The escapes in other strings. -/
def textEscapes : EscapeForms :=
  byteEscapes ++ [(b!"N", .after .nonempty_braced), (b!"u", .after .hex_4), (b!"U", .after .hex_8)]

/-- `w` is an escape in a string with the prefix `p` if `b` follows it.  In a raw string, it is a backslash with the next
character. -/
def IsEsc (p w b : Bytes) : Prop :=
  if c!"r" ∈ p.map lower then ∃ c q, w = c!"\\" :: q ∧ FirstChar c q b ∧ (c!"b" ∈ p.map lower → q.length = 1)
  else if c!"b" ∈ p.map lower then byteEscapes.Ends w b
  else textEscapes.Ends w b

/-- The type of the escapes in a string with the prefix `p`. -/
def escType (p : Bytes) : HT := if c!"r" ∈ p.map lower then .string else .string_escape

/-- What a string with the quotation marks `q` may contain apart from escapes. -/
def Text (q s : Bytes) : Prop := ¬ q <+: s ∧ NotFirst (if q.length = 1 then b!"\\\r\n" else b!"\\") s

/-- The parts of a string with the prefix `p` and the quotation marks `q`. -/
def stringParts (p q : Bytes) (es : List (Bytes × Bytes)) (t : Bytes) : List (Bytes × HT) :=
  (p, .string_decor) :: (q, .string_delim) :: content es t (escType p) ++ [(q, .string_delim)]

/-- The text `a` is a lexical element with the tokens `ts` if the text `b` follows. -/
inductive Element : Bytes → List Token → Bytes → Prop where
  | space {w b} (h : w ≠ []) (h' : Longest Space (w ++ b) w.length) : Element w [] b
  | comment {t b} (h : Longest InLine (t ++ b) t.length) :
      Element (b!"#" ++ t) (parts 0 [(b!"#", .comment_delim), (t, .comment)]) b
  /-- a string; an empty string is not followed by another quotation mark -/
  | string {p q es t b} (hp : p = [] ∨ Prefix p) (hq : q ∈ [b!"'", b!"\"", b!"'''", b!"\"\"\""])
      (h : StringContent (Text q) (IsEsc p) (q ++ b) es t)
      (h' : q.length = 1 → (content es t).flatMap Prod.fst = [] → ¬ q <+: b) :
      Element ((stringParts p q es t).flatMap Prod.fst) (parts 0 (stringParts p q es t)) b
  | number {n R b} (hR : R ∈ radixes) (h : Written.In n R) (h' : Boundary b) : Element n.text (parts 0 n.parts) b
  /-- a keyword; a quotation mark would make it the prefix of a string -/
  | keyword {w ty b} (h : Identifier CppId.Start CppId.Continue (w ++ b) w.length) (h' : (w, ty) ∈ words)
      (h'' : NotFirst b!"'\"" b) : Element w [⟨0, w.length, ty⟩] b
  | name {w b} (h : Identifier CppId.Start CppId.Continue (w ++ b) w.length) (h' : ∀ ty, (w, ty) ∉ words)
      (h'' : NotFirst b!"'\"" b) : Element w [⟨0, w.length, .name⟩] b
  /-- a symbol that does not begin a number -/
  | symbol {w ty b} (h : LongestIn symbols (w ++ b) w.length) (h' : (w, ty) ∈ words)
      (number : w = b!"." → ∀ c, b.head? = some c → ¬ DecDigit c) : Element w [⟨0, w.length, ty⟩] b

end Ulight.Spec.Python
