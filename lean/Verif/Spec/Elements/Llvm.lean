import Verif.Spec.Program
import Verif.Spec.Lang.Llvm

/-!
# The lexical elements of LLVM IR
-/

namespace Ulight.Spec.Llvm

/-- The numbers of LLVM that begin with a digit, without the hexadecimal ones with a letter after the prefix. -/
def radixes : List Radix := [
  { exps := some b!"eE", separated := false },
  { pre := b!"0x", base := 16, separated := false }]

/-- The hexadecimal integers of LLVM with a sign. -/
def signed : List Radix := [
  { pre := b!"s0x", base := 16, separated := false }, { pre := b!"u0x", base := 16, separated := false }]

/-- The escapes in strings: two backslashes, or a backslash and two hexadecimal digits. -/
def IsEsc (w : Bytes) : Prop := w = b!"\\\\" ∨ ∃ x y, w = [c!"\\", x, y] ∧ Hex x ∧ Hex y

/-- The symbols. -/
def symbols : List (UInt8 × HT) := [
  (c!"(", .symbol_parens), (c!")", .symbol_parens), (c!"[", .symbol_square), (c!"]", .symbol_square),
  (c!"{", .symbol_brace), (c!"}", .symbol_brace), (c!",", .symbol_punc), (c!":", .symbol_punc), (c!"<", .symbol_punc),
  (c!"=", .symbol_punc), (c!">", .symbol_punc)]

/-- A word that is no number. -/
def IsWord (w b : Bytes) : Prop :=
  w ≠ [] ∧ Longest WordChar (w ++ b) w.length ∧ (∀ c, w.head? = some c → ¬ DecDigit c) ∧ ¬ b!"s0x" <+: w ∧ ¬ b!"u0x" <+: w

/-- The text `a` is a lexical element with the tokens `ts` if the text `b` follows. -/
inductive Element : Bytes → List Token → Bytes → Prop where
  | space {c b} (h : c ∈ b!" \t\r\n") : Element [c] [] b
  /-- a comment with the line break after it -/
  | lineComment {t e b} (h : FirstLine (t ++ e ++ b) t e b) :
      Element (b!";" ++ t ++ e) (parts 0 [(b!";", .comment_delim), (t, .comment)]) b
  | blockComment {t b} (h : UpTo b!"*/" (t ++ b!"*/" ++ b) t.length) :
      Element (b!"/*" ++ t ++ b!"*/") (parts 0 [(b!"/*", .comment_delim), (t, .comment), (b!"*/", .comment_delim)]) b
  | string {es t b} (h : StringContent (NotFirst b!"\"\\") (fun w _ => IsEsc w) (b!"\"" ++ b) es t) :
      Element ((quoted b!"\"" es t).flatMap Prod.fst) (parts 0 (quoted b!"\"" es t)) b
  | var {w b} (h : Longest NameChar (w ++ b) w.length) :
      Element (b!"%" ++ w) (parts 0 [(b!"%", .name_var_delim), (w, .name_var)]) b
  | function {w b} (h : Longest NameChar (w ++ b) w.length) :
      Element (b!"@" ++ w) (parts 0 [(b!"@", .name_function_delim), (w, .name_function)]) b
  | word {w ty b} (h : IsWord w b) (h' : Word w ty) (h'' : b.head? ≠ some c!":") : Element w [⟨0, w.length, ty⟩] b
  | label {w b} (h : IsWord w (b!":" ++ b)) :
      Element (w ++ b!":") (parts 0 [(w, .name_label_decl), (b!":", .name_label_delim)]) b
  | number {n R b} (hR : R ∈ radixes ++ signed) (h : Written.In n R) (h' : Boundary b) : Element n.text (parts 0 n.parts) b
  | symbol {c ty b} (h : (c, ty) ∈ symbols) : Element [c] [⟨0, 1, ty⟩] b

end Ulight.Spec.Llvm
