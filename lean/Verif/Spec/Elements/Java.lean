import Verif.Spec.Program
import Verif.Spec.Lang.Java

/-!
# The lexical elements of Java
-/

namespace Ulight.Spec.Java

/-- The numbers of Java ([JLS 3.10.1], [JLS 3.10.2]), without octal numbers. -/
def radixes : List Radix := [
  { exps := some b!"eE", point := true, ints := [b!"l", b!"L", b!"f", b!"F", b!"d", b!"D"],
    floats := [b!"f", b!"F", b!"d", b!"D"] },
  { pre := b!"0x", base := 16, exps := some b!"pP", ints := [b!"l", b!"L"] },
  { pre := b!"0X", base := 16, exps := some b!"pP", ints := [b!"l", b!"L"] },
  { pre := b!"0b", base := 2, ints := [b!"l", b!"L"] },
  { pre := b!"0B", base := 2, ints := [b!"l", b!"L"] }]

/-- The parts of the name of an annotation: words with points between them. -/
def dotted : List Bytes → List (Bytes × HT)
  | [] => []
  | [w] => [(w, .name_attr)]
  | w :: ws => (w, .name_attr) :: (b!".", .name_attr_delim) :: dotted ws

/-- The words are identifiers, and the name ends after them. -/
def Qualified (ws : List Bytes) (b : Bytes) : Prop :=
  match ws with
  | [] => False
  | [w] => Identifier CppId.Start CppId.Continue (w ++ b) w.length ∧ b.head? ≠ some c!"."
  | w :: ws => Identifier CppId.Start CppId.Continue (w ++ (b!"." ++ (dotted ws).flatMap Prod.fst ++ b)) w.length ∧
      Qualified ws b

/-- The text `a` is a lexical element with the tokens `ts` if the text `b` follows. -/
inductive Element : Bytes → List Token → Bytes → Prop where
  | space {w b} (h : w ≠ []) (h' : Longest Space (w ++ b) w.length) : Element w [] b
  | lineComment {t b} (h : Js.Line (t ++ b) t.length) :
      Element (b!"//" ++ t) (parts 0 [(b!"//", .comment_delim), (t, .comment)]) b
  | blockComment {t b} (h : UpTo b!"*/" (t ++ b!"*/" ++ b) t.length) :
      Element (b!"/*" ++ t ++ b!"*/") (parts 0 [(b!"/*", .comment_delim), (t, .comment), (b!"*/", .comment_delim)]) b
  /-- a string; an empty string is not followed by another quotation mark -/
  | string {es t b} (h : StringContent (NotFirst b!"\"\\\r\n") escapes.Ends (b!"\"" ++ b) es t)
      (h' : (content es t).flatMap Prod.fst = [] → ¬ b!"\"" <+: b) :
      Element ((quoted b!"\"" es t).flatMap Prod.fst) (parts 0 (quoted b!"\"" es t)) b
  /-- a text block, which begins with spaces `sp` and a line break `br` after the quotation marks -/
  | textBlock {sp br es t b} (h : StringContent (fun s => NotFirst b!"\\" s ∧ ¬ b!"\"\"\"" <+: s) escapes.Ends (b!"\"\"\"" ++ b) es t)
      (hsp : ∀ c ∈ sp, Space c ∧ c ∉ b!"\r\n") (hbr : br ∈ [b!"\n", b!"\r\n"]) :
      Element (b!"\"\"\"" ++ sp ++ br ++ (content es t).flatMap Prod.fst ++ b!"\"\"\"")
        (⟨0, 3, .string_delim⟩ :: parts (3 + sp.length + br.length) (content es t ++ [(b!"\"\"\"", .string_delim)])) b
  /-- a literal with one character -/
  | character {c b} (h : c ∉ b!"'\\\r\n") : Element [c!"'", c, c!"'"]
      (parts 0 [(b!"'", .string_delim), ([c], .string), (b!"'", .string_delim)]) b
  /-- a literal with one escape -/
  | escape {w b} (h : escapes.Ends w (b!"'" ++ b)) : Element (b!"'" ++ w ++ b!"'")
      (parts 0 [(b!"'", .string_delim), (w, .string_escape), (b!"'", .string_delim)]) b
  | number {n R b} (hR : R ∈ radixes) (h : Written.In n R) (h' : Boundary b) : Element n.text (parts 0 n.parts) b
  | keyword {w ty b} (h : Identifier CppId.Start CppId.Continue (w ++ b) w.length) (h' : (w, ty) ∈ words) (h'' : w ≠ b!"_") :
      Element w [⟨0, w.length, ty⟩] b
  /-- a name that does not begin with an underscore -/
  | name {w b} (h : Identifier CppId.Start CppId.Continue (w ++ b) w.length) (h' : ∀ ty, (w, ty) ∉ words)
      (h'' : w.head? ≠ some c!"_") : Element w [⟨0, w.length, .name⟩] b
  /-- a symbol that does not begin a comment, a string, a number, or an annotation -/
  | symbol {w ty b} (h : LongestIn symbols (w ++ b) w.length) (h' : (w, ty) ∈ words) (comment : ¬ b!"//" <+: w ++ b ∧ ¬ b!"/*" <+: w ++ b)
      (quote : w.head? ≠ some c!"\"") (number : w = b!"." → ∀ c, b.head? = some c → ¬ DecDigit c)
      (annotation : w ≠ b!"@") : Element w [⟨0, w.length, ty⟩] b
  /-- an annotation -/
  | annotation {ws b} (h : Qualified ws b) :
      Element (b!"@" ++ (dotted ws).flatMap Prod.fst) (parts 0 ((b!"@", .name_attr_delim) :: dotted ws)) b

end Ulight.Spec.Java
