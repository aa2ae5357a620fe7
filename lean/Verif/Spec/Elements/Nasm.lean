import Verif.Spec.Program
import Verif.Spec.Lang.Nasm

/-!
# The lexical elements of NASM
-/

namespace Ulight.Spec.Nasm

/-- What a word would be, if it is in none of the tables. -/
inductive Kind where
  | instruction | var | label
  deriving DecidableEq, Repr

def Kind.type : Kind → HT
  | .instruction => .name_instruction
  | .var => .name_var
  | .label => .name_label

/-- After an instruction, words are variables. -/
def Kind.next : Kind → Kind
  | .instruction => .var
  | k => k

/-- The numbers of NASM that begin with a digit and have no letter for the base after them. -/
def radixes : List Radix :=
  { exps := some b!"eE" } ::
  ([(b!"bByY", 2), (b!"oOqQ", 8), (b!"dDtT", 10), (b!"hHxX", 16)] : List (Bytes × Nat)).flatMap (fun x => x.1.map fun c =>
    { pre := [c!"0", c], base := x.2 })

/-- The symbols with one character. -/
def symbols : List (UInt8 × HT) := [
  (c!"(", .symbol_parens), (c!")", .symbol_parens), (c!"[", .symbol_square), (c!"]", .symbol_square),
  (c!"{", .symbol_brace), (c!"}", .symbol_brace), (c!",", .symbol_punc)]

/-- The digits of `w` and its last character, which is a letter for the base `base`, are a number. -/
def IsSuffixed (w b : Bytes) (base : Nat) : Prop :=
  ∃ ds c, w = ds ++ [c] ∧ Suffixed (w ++ b) ds.length base ∧ ∀ d ∈ ds, DigitIn base d

/-- A word that is not a number: not something like `deadh`, and not a point followed by a digit. -/
def IsWord (w b : Bytes) : Prop :=
  Id (w ++ b) w.length ∧ NotFirst b!"?$" w ∧ (∀ c t, w = c!"." :: c :: t → ¬ DecDigit c) ∧
    ∀ v r base, w ++ b = v ++ r → ¬ IsSuffixed v r base

/-- The words in the tables, what they are, and what a word after them would be. -/
def tables : List (List Bytes × HT × Option Kind) :=
  [([b!"seg", b!"wrt"], .keyword_op, none), (types, .keyword_type, some .var), (registers, .name_var, some .var),
    (jumps, .name_instruction, some .label)]

/-- The text `a` is a lexical element with the tokens `ts` if the text `b` follows.  Words that are in no table are of the
kind `k`, and they would be of the kind `l` after the element. -/
inductive Element : Kind → Bytes → List Token → Bytes → Kind → Prop where
  | space {k c b} (h : c ∈ b!" \t") : Element k [c] [] b k
  | line {k c b} (h : c ∈ b!"\r\n") : Element k [c] [] b .instruction
  | symbol {k c ty b} (h : (c, ty) ∈ symbols) : Element k [c] [⟨0, 1, ty⟩] b k
  | comment {k t e b} (h : FirstLine (t ++ e ++ b) t e b) :
      Element k (b!";" ++ t ++ e) (parts 0 [(b!";", .comment_delim), (t, .comment)]) b .instruction
  | directive {k t e b} (h : FirstLine (t ++ e ++ b) t e b) :
      Element k (b!"%" ++ t ++ e) [⟨0, t.length + 1, .name_macro⟩] b .instruction
  | string {k q t b} (hq : q ∈ b!"'\"") (h : ∀ c ∈ t, c ≠ 0x0A ∧ c ≠ 0x0D ∧ c ≠ q) :
      Element k ([q] ++ t ++ [q]) (parts 0 [([q], .string_delim), (t, .string), ([q], .string_delim)]) b k
  /-- a string without a quotation mark at its end -/
  | openString {k q t b} (hq : q ∈ b!"'\"") (h : Longest (fun c => c ≠ 0x0A ∧ c ≠ 0x0D ∧ c ≠ q) (t ++ b) t.length)
      (h' : b.head? ≠ some q) : Element k ([q] ++ t) (parts 0 [([q], .string_delim), (t, .string)]) b k
  | backquoted {k es t b} (h : StringContent (NotFirst b!"\n\r\x0b`\\") (fun w r => escapes.Ends w r) (b!"`" ++ b) es t) :
      Element k ((quoted b!"`" es t).flatMap Prod.fst) (parts 0 (quoted b!"`" es t)) b k
  | operator {k w b} (h : LongestIn operators (w ++ b) w.length) (h' : NotFirst b!"%" w) :
      Element k w [⟨0, w.length, .symbol_op⟩] b k
  /-- a number with a letter for the base, such as `10h` -/
  | suffixed {k ds c base b} (h : Suffixed (ds ++ [c] ++ b) ds.length base) (h' : ∀ d ∈ ds, DigitIn base d)
      (h'' : base = 16 → ¬ Among registers (ds ++ [c])) :
      Element k (ds ++ [c]) (parts 0 [(ds, .number), ([c], .number_decor)]) b k
  /-- a register that could also be a number, such as `ah` -/
  | register {k ds c b} (h : Suffixed (ds ++ [c] ++ b) ds.length 16) (h' : ∀ d ∈ ds, DigitIn 16 d)
      (h'' : Among registers (ds ++ [c])) : Element k (ds ++ [c]) [⟨0, ds.length + 1, .name_var⟩] b k
  /-- something that begins like a number and ends with a letter for a base, but has other digits -/
  | badNumber {k w b n base} (h : Suffixed (w ++ b) n base) (hn : w.length = n + 1) (d : ∃ c t, w = c :: t ∧ DecDigit c)
      (e : ∃ c ∈ w.take n, ¬ DigitIn base c) : Element k w [⟨0, w.length, .error⟩] b k
  | number {k n R b} (hR : R ∈ radixes) (h : Written.In n R) (h' : Boundary b) (h'' : ∀ k base, ¬ Suffixed (n.text ++ b) k base) :
      Element k n.text (parts 0 n.parts) b k
  | label {k w b} (h : IsWord w (b!":" ++ b)) (h' : ¬ Among [b!"seg", b!"wrt"] w) :
      Element k (w ++ b!":") [⟨0, w.length + 1, .name_label_decl⟩] b .instruction
  | localLabel {k w b} (h : IsWord w b) (h' : w.head? = some c!".") (h'' : b.head? ≠ some c!":") :
      Element k w [⟨0, w.length, .name_label_decl⟩] b .instruction
  | tabled {k w b t ty l} (h : IsWord w b) (h' : (t, ty, l) ∈ tables) (h'' : Among t w)
      (hb : w.map lower ∉ [b!"seg", b!"wrt"] → b.head? ≠ some c!":") : Element k w [⟨0, w.length, ty⟩] b (l.getD k)
  | word {k w b} (h : IsWord w b) (h' : ∀ x ∈ tables, ¬ Among x.1 w) (h'' : w.head? ≠ some c!".") (hb : b.head? ≠ some c!":") :
      Element k w [⟨0, w.length, k.type⟩] b k.next
  /-- a byte that cannot begin anything -/
  | unknown {k c b} (h : ¬ IdStart c) (h' : ¬ DecDigit c) (h'' : c ∉ b!" \t\r\n()[]{},;%'\"`?:+-~!|&^></") :
      Element k [c] [⟨0, 1, .error⟩] b k

end Ulight.Spec.Nasm
