import Verif.Spec.Lang.Common
import Verif.Spec.Escapes
import Verif.Spec.Words

/-!
# Specification of NASM highlighting
-/

namespace Ulight.Spec.Nasm

/-- A character that may begin an identifier. -/
def IdStart (c : UInt8) : Prop := Letter c ∨ c ∈ b!"._?$"

/-- A character of an identifier. -/
def IdChar (c : UInt8) : Prop := Letter c ∨ DecDigit c ∨ c ∈ b!"_$@-.?"

/-- An identifier, which could not be longer. -/
def Id (s : Bytes) (n : Nat) : Prop :=
  0 < n ∧ (∃ c, s[0]? = some c ∧ IdStart c) ∧ Longest IdChar (s.drop 1) (n - 1)

/-- An identifier that is not a label. -/
def Word (s : Bytes) (n : Nat) : Prop := Id s n ∧ s[n]? ≠ some c!":" ∧ s[0]? ≠ some c!"."

/-- A word of a table, ignoring case. -/
def Among (table : List Bytes) (w : Bytes) : Prop := w.map lower ∈ table

/-- The sizes of operands. -/
def types : List Bytes := wordsOf b!"byte word dword qword tword oword yword zword ptr far"

/-- The numbers below 100 in decimal. -/
def decimal (n : Nat) : Bytes :=
  if n < 10 then [UInt8.ofNat (0x30 + n)] else [UInt8.ofNat (0x30 + n / 10), UInt8.ofNat (0x30 + n % 10)]

/-- The registers with the numbers from `first` to `last`. -/
def numbered (stem : Bytes) (first last : Nat) : List Bytes :=
  (List.range' first (last + 1 - first)).map fun i => stem ++ decimal i

/-- The registers of the architecture. -/
def machineRegisters : List Bytes :=
  wordsOf b!"al ah ax eax rax bl bh bx ebx rbx cl ch cx ecx rcx dl dh dx edx rdx" ++
  wordsOf b!"si sil esi rsi di dil edi rdi sp spl esp rsp bp bpl ebp rbp ip eip rip eflags rflags" ++
  wordsOf b!"cs ds es fs gs ss cw sw cr0 cr2 cr3 cr4 cr8 dr0 dr1 dr2 dr3 dr6 dr7" ++
  (numbered b!"r" 8 31).flatMap (fun r => [r, r ++ b!"b", r ++ b!"w", r ++ b!"d"]) ++
  numbered b!"k" 0 7 ++ numbered b!"mm" 0 7 ++ numbered b!"st" 0 7 ++
  numbered b!"xmm" 0 31 ++ numbered b!"ymm" 0 31 ++ numbered b!"zmm" 0 31

/-- The registers that are highlighted: those of the architecture, but 32 instead of 30. -/
def registers : List Bytes :=
  machineRegisters.filter (· ∉ wordsOf b!"xmm30 ymm30 zmm30") ++ wordsOf b!"xmm32 ymm32 zmm32"

/-- The conditions of conditional jumps. -/
def conditions : List Bytes :=
  wordsOf b!"a ae b be c e g ge l le na nae nb nbe nc ne ng nge nl nle no np ns nz o p pe po s z"

/-- The instructions of the architecture that jump to a label. -/
def machineJumps : List Bytes :=
  wordsOf b!"call jmp loop loope loopz loopne loopnz" ++ conditions.map (c!"j" :: ·)

/-- The instructions before labels: all but `jns`. -/
def jumps : List Bytes := machineJumps.filter (· ≠ b!"jns")

/-- The operators. -/
def operators : List Bytes :=
  [b!"!", b!"!=", b!"%", b!"%%", b!"&", b!"&&", b!"+", b!"-", b!"/", b!"//", b!":", b!"<", b!"<<", b!"<<<",
    b!"<=", b!"<=>", b!">", b!">=", b!">>", b!">>>", b!"?", b!"^", b!"^^", b!"|", b!"||", b!"~"]

/-- Numbers with a prefix, or without anything. -/
def numerals : Numerals where
  decor := [b!"0b", b!"0B", b!"0y", b!"0Y", b!"0o", b!"0O", b!"0q", b!"0Q", b!"0d", b!"0D", b!"0t", b!"0T",
    b!"0x", b!"0X", b!"0h", b!"0H", b!"$"]
  exps := [b!"e+", b!"e-", b!"e", b!"E+", b!"E-", b!"E", b!"p+", b!"p-", b!"p", b!"P+", b!"P-", b!"P"]
  base := 16
  sep := c!"_"

/-- The letters for bases after a number. -/
def suffixBases : List (UInt8 × Nat) :=
  [(c!"b", 2), (c!"y", 2), (c!"q", 8), (c!"o", 8), (c!"d", 10), (c!"t", 10), (c!"h", 16), (c!"x", 16)]

/-- A letter, a digit or an underscore. -/
def AlnumChar (c : UInt8) : Prop := Letter c ∨ DecDigit c ∨ c = c!"_"

/-- The first `n` bytes of `s` and a letter `c` for the base `b` are everything up to the next character that is
not a letter, a digit or an underscore. -/
def Suffixed (s : Bytes) (n b : Nat) : Prop :=
  0 < n ∧ Longest AlnumChar s (n + 1) ∧ ∃ c, s[n]? = some c ∧ (lower c, b) ∈ suffixBases

/-- A digit in base `b`. -/
def DigitIn (b : Nat) (c : UInt8) : Prop := ∃ v, digitVal c = some v ∧ v < b

/-- Escape sequences. -/
def escapes : EscapeForms :=
  [(b!"01234567", .after .octal_1_to_2), (b!"x", .after .hex_1_to_2), (b!"u", .after .hex_4),
    (b!"U", .after .hex_8), (b!"'\"`\\?abtnvfre", .simple)]

/-- `Tok s n ty`: a token of type `ty` may cover the first `n` bytes of `s`. -/
inductive Tok : Bytes → Nat → HT → Prop where
  | commentDelim {s n} (h : s.take n = b!";") : Tok s n .comment_delim
  | comment {s n} (h : Longest InLine s n) : Tok s n .comment
  /-- a directive, up to the end of the line -/
  | directive {s n} (h : s[0]? = some c!"%") (l : Longest InLine s n) : Tok s n .name_macro
  | operatorWord {s n} (h : Id s n) (t : Among [b!"seg", b!"wrt"] (s.take n)) : Tok s n .keyword_op
  /-- the declaration of a label -/
  | label {s n} (h : Id s n) (e : s[n]? = some c!":") : Tok s (n + 1) .name_label_decl
  /-- a local label -/
  | localLabel {s n} (h : Id s n) (e : s[0]? = some c!".") : Tok s n .name_label_decl
  | type {s n} (h : Word s n) (t : Among types (s.take n)) : Tok s n .keyword_type
  | register {s n} (h : Word s n) (t : Among registers (s.take n)) : Tok s n .name_var
  /-- a register that looks like a number, such as `ah` -/
  | numericRegister {s n} (h : Suffixed s n 16) (t : Among registers (s.take (n + 1))) :
      Tok s (n + 1) .name_var
  /-- an instruction that is followed by a label -/
  | jump {s n} (h : Word s n) (t : Among jumps (s.take n)) : Tok s n .name_instruction
  /-- any other word is an instruction, a label or a variable -/
  | word {s n ty} (h : Word s n) (t : ∀ t ∈ [types, registers, jumps,
      [b!"seg", b!"wrt"]], ¬ Among t (s.take n)) (ht : ty ∈ [.name_instruction, .name_label, .name_var]) : Tok s n ty
  | operator {s n} (h : LongestIn operators s n) : Tok s n .symbol_op
  | parens {s n} (h : s.take n ∈ [b!"(", b!")"]) : Tok s n .symbol_parens
  | square {s n} (h : s.take n ∈ [b!"[", b!"]"]) : Tok s n .symbol_square
  | brace {s n} (h : s.take n ∈ [b!"{", b!"}"]) : Tok s n .symbol_brace
  | comma {s n} (h : s.take n = b!",") : Tok s n .symbol_punc
  | number {s n ty} (h : NumberTok numerals true s n ty) : Tok s n ty
  /-- the digits of a number with a suffix for the base -/
  | digits {s n b} (h : Suffixed s n b) (d : ∀ c ∈ s.take n, DigitIn b c) : Tok s n .number
  /-- the suffix -/
  | suffix {s n c b} (h : s.take n = [c]) (t : (lower c, b) ∈ suffixBases) (e : ∀ d, s[1]? = some d → ¬ AlnumChar d) :
      Tok s n .number_decor
  /-- something that begins with a decimal digit, but has the wrong digits for its suffix -/
  | badSuffixed {s n b} (h : Suffixed s n b) (d : ∃ c, s[0]? = some c ∧ DecDigit c)
      (e : ∃ c ∈ s.take n, ¬ DigitIn b c) : Tok s (n + 1) .error
  | quote {s n} (h : s.take n ∈ [b!"'", b!"\"", b!"`"]) : Tok s n .string_delim
  /-- the text of a string without escape sequences -/
  | string {s n q} (hq : q = c!"'" ∨ q = c!"\"") (h : Longest (fun c => c ≠ 0x0A ∧ c ≠ 0x0D ∧ c ≠ q) s n) :
      Tok s n .string
  /-- the text of a string with escape sequences -/
  | backquoted {s n} (h : TextTo b!"`" (· ∈ [0x0A, 0x0B, 0x0D, c!"\\"]) s n) : Tok s n .string
  | escape {s n} (h : escapes.Good s n) : Tok s n .string_escape
  /-- not an escape sequence -/
  | badEscape {s n} (h : escapes.Bad s) : Tok s n .error
  /-- a byte that cannot begin anything -/
  | unknown {s n c} (h : s.take n = [c]) (id : ¬ IdStart c) (dig : ¬ DecDigit c)
      (op : ∀ w ∈ operators, ¬ OccursAt w s 0) (other : c ∉ b!" \t\r\n()[]{},;%'\"`") : Tok s n .error

/-- Text without a token is whitespace. -/
def rules : Rules := ⟨Tok, fun s n => ∀ c ∈ s.take n, c ∈ b!" \t\r\n"⟩

end Ulight.Spec.Nasm
