import Verif.Spec.Program
import Verif.Spec.Lang.Rust

/-!
# The lexical elements of Rust
-/

namespace Ulight.Spec.Rust

/-- The suffixes of integers. -/
def integerSuffixes : List Bytes :=
  [b!"u8", b!"i8", b!"u16", b!"i16", b!"u32", b!"i32", b!"u64", b!"i64", b!"u128", b!"i128", b!"usize", b!"isize"]

/-- The numbers of Rust ([Rust 2.6]). -/
def radixes : List Radix := [
  { exps := some b!"eE", ints := integerSuffixes ++ [b!"f32", b!"f64"], floats := [b!"f32", b!"f64"] },
  { pre := b!"0b", base := 2, ints := integerSuffixes },
  { pre := b!"0o", base := 8, ints := integerSuffixes },
  { pre := b!"0x", base := 16, ints := integerSuffixes }]

/-- The escapes in a string with the prefix `p`. -/
def escapesIn (p : Bytes) : EscapeForms := if p = b!"b" then byteEscapes else escapes

/-- `w` is what a character literal may contain before `b`, and `ty` its type. -/
def CharBody (w : Bytes) (ty : HT) (b : Bytes) : Prop :=
  (∃ c, FirstChar c w b ∧ NotFirst b!"'\\\n\r\t" w ∧ ty = .string) ∨ (escapes.Ends w b ∧ w ≠ b!"\\\n" ∧ ty = .string_escape)

/-- The opening and the closing delimiter of a raw string. -/
def rawOpen (k : Nat) : Bytes := List.replicate k c!"#" ++ b!"\""
def rawClose (k : Nat) : Bytes := c!"\"" :: List.replicate k c!"#"

/-- The text `a` is a lexical element with the tokens `ts` if the text `b` follows. -/
inductive Element : Bytes → List Token → Bytes → Prop where
  | space {w b} (h : w ≠ []) (h' : LongestChars Space (w ++ b) w.length) : Element w [] b
  | lineComment {t b} (h : Js.Line (t ++ b) t.length) :
      Element (b!"//" ++ t) (parts 0 [(b!"//", .comment_delim), (t, .comment)]) b
  /-- a block comment, which extends to the first `*/` -/
  | blockComment {t b} (h : UpTo b!"*/" (t ++ b!"*/" ++ b) t.length) :
      Element (b!"/*" ++ t ++ b!"*/") (parts 0 [(b!"/*", .comment_delim), (t, .comment), (b!"*/", .comment_delim)]) b
  /-- a string, a byte string or a C string, which is not followed by a word -/
  | string {p es t b} (hp : p ∈ [b!"", b!"b", b!"c"])
      (h : StringContent (NotFirst b!"\"\\") (escapesIn p).Ends (b!"\"" ++ b) es t) (h' : ∀ m, ¬ Id b m) :
      Element (((p, .string_decor) :: quoted b!"\"" es t).flatMap Prod.fst) (parts 0 ((p, .string_decor) :: quoted b!"\"" es t)) b
  /-- a raw string or raw byte string, which is not followed by a word or a number sign -/
  | raw {p k t b} (hp : p ∈ [b!"r", b!"br"]) (h : UpTo (rawClose k) (t ++ rawClose k ++ b) t.length) (h' : ∀ m, ¬ Id b m)
      (h'' : b.head? ≠ some c!"#") : Element (p ++ rawOpen k ++ t ++ rawClose k)
        (parts 0 [(p, .string_decor), (rawOpen k, .string_delim), (t, .string), (rawClose k, .string_delim)]) b
  /-- a character or a byte, which is not followed by a word -/
  | character {p w ty b} (hp : p ∈ [b!"", b!"b"]) (h : CharBody w ty (b!"'" ++ b)) (h' : ∀ m, ¬ Id b m) :
      Element (p ++ b!"'" ++ w ++ b!"'")
        (parts 0 [(p, .string_decor), (b!"'", .string_delim), (w, ty), (b!"'", .string_delim)]) b
  | number {n R b} (hR : R ∈ radixes) (h : Written.In n R) (h' : Boundary b) : Element n.text (parts 0 n.parts) b
  /-- a keyword; some characters would make it the prefix of a literal -/
  | keyword {w ty b} (h : Id (w ++ b) w.length) (h' : (w, ty) ∈ words) (h'' : NotFirst b!"'\"#" b) :
      Element w [⟨0, w.length, ty⟩] b
  /-- a name that does not begin with an underscore -/
  | name {w b} (h : Id (w ++ b) w.length) (h' : ∀ ty, (w, ty) ∉ words) (h'' : NotFirst b!"!'\"#" b)
      (h''' : w.head? ≠ some c!"_") : Element w [⟨0, w.length, .name⟩] b
  /-- the name of a macro -/
  | macroName {w b} (h : Id (w ++ b!"!" ++ b) w.length) (h' : ∀ ty, (w, ty) ∉ words) (h'' : w.head? ≠ some c!"_") :
      Element (w ++ b!"!") (parts 0 [(w, .name_macro), (b!"!", .name_macro_delim)]) b
  | lifetime {w b} (h : Id (w ++ b) w.length) (h' : NotFirst b!"':" b) :
      Element (b!"'" ++ w) (parts 0 [(b!"'", .name_lifetime_delim), (w, .name_lifetime)]) b
  /-- a label, before a colon -/
  | label {w b} (h : Id (w ++ b) w.length) (h' : b.head? = some c!":") :
      Element (b!"'" ++ w) (parts 0 [(b!"'", .name_label_delim), (w, .name_label)]) b
  /-- a symbol that does not begin a comment or a number -/
  | symbol {w ty b} (h : LongestIn symbols (w ++ b) w.length) (h' : (w, ty) ∈ words)
      (comment : ¬ b!"//" <+: w ++ b ∧ ¬ b!"/*" <+: w ++ b)
      (number : w = b!"." → ∀ c, b.head? = some c → ¬ DecDigit c) : Element w [⟨0, w.length, ty⟩] b

end Ulight.Spec.Rust
