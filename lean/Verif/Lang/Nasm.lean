import Verif.Hl.Base
import Verif.Search

/-!
# NASM assembly (src/main/cpp/lang/nasm.cpp)
-/

namespace Ulight.Nasm

/-- `is_nasm_identifier_start` (include/ulight/impl/lang/nasm.hpp:12). -/
def isIdStart (c : UInt8) : Bool := isAlpha c || c ∈ b!"._?$"

/-- `is_nasm_identifier` (nasm.hpp:15). -/
def isId (c : UInt8) : Bool := isAlnum c || c ∈ b!"_$@-.?"

/-- `match_escape_sequence` (nasm.cpp:16-61). -/
def matchEscape (s : Bytes) : Escape :=
  match s with
  | c0 :: c :: _ =>
    if c0 ≠ c!"\\" then { length := 0 }
    else if c ∈ b!"'\"`\\?abtnvfre" then { length := 2 }
    else if c!"0" ≤ c ∧ c ≤ c!"7" then matchCommonEscapeAt .octal_1_to_2 s 2
    else if c = c!"x" then matchCommonEscapeAt .hex_1_to_2 s 2
    else if c = c!"u" then matchCommonEscapeAt .hex_4 s 2
    else if c = c!"U" then matchCommonEscapeAt .hex_8 s 2
    else { length := 2, erroneous := true }
  | _ => { length := 0 }

/-- `match_operator` (nasm.cpp:63-95). -/
def matchOperator (s : Bytes) : Nat :=
  match s with
  | [] => 0
  | c :: _ =>
    if c ∈ b!"?:+-~" then 1
    else if c = c!"!" then if startsWith s b!"!=" then 2 else 1
    else if c = c!"|" then if startsWith s b!"||" then 2 else 1
    else if c = c!"&" then if startsWith s b!"&&" then 2 else 1
    else if c = c!"^" then if startsWith s b!"^^" then 2 else 1
    else if c = c!">" then
      if startsWith s b!">>>" then 3 else if startsWith s b!">>" then 2
      else if startsWith s b!">=" then 2 else 1
    else if c = c!"<" then
      if startsWith s b!"<<<" then 3 else if startsWith s b!"<=>" then 3
      else if startsWith s b!"<<" then 2 else if startsWith s b!"<=" then 2 else 1
    else if c = c!"/" then if startsWith s b!"//" then 2 else 1
    else if c = c!"%" then if startsWith s b!"%%" then 2 else 1
    else 0

/-- `match_identifier` (nasm.cpp:97-100). -/
def matchIdentifier (s : Bytes) : Nat := Ascii.length_if_head_tail s isIdStart isId

/-- `base_of_suffix_char` (nasm.cpp:102-124). -/
def baseOfSuffix (c : UInt8) : Nat :=
  if c ∈ b!"bByY" then 2
  else if c ∈ b!"qQoO" then 8
  else if c ∈ b!"dDtT" then 10
  else if c ∈ b!"hHxX" then 16
  else 0

/-- `pseudo_instructions` (nasm.cpp:128-136). -/
def pseudoInstructions : List Bytes := [
  b!"db", b!"dd", b!"do", b!"dq", b!"dt", b!"dw", b!"dy", b!"dz", b!"equ", b!"incbin", b!"resb",
  b!"resd", b!"reso", b!"resq", b!"rest", b!"resw", b!"resy", b!"resz", b!"times"]

/-- `types` (nasm.cpp:140-143). -/
def types : List Bytes := [
  b!"byte", b!"dword", b!"far", b!"oword", b!"ptr", b!"qword", b!"tword", b!"word", b!"yword",
  b!"zword"]

/-- `operator_keywords` (nasm.cpp:147-150). -/
def operatorKeywords : List Bytes := [
  b!"seg", b!"wrt"]

/-- `registers` (nasm.cpp:155-260). -/
def registers : List Bytes := [
  b!"ah", b!"al", b!"ax", b!"bh", b!"bl", b!"bp", b!"bpl", b!"bx", b!"ch", b!"cl", b!"cr0",
  b!"cr2", b!"cr3", b!"cr4", b!"cr8", b!"cs", b!"cw", b!"cx", b!"dh", b!"di", b!"dil", b!"dl",
  b!"dr0", b!"dr1", b!"dr2", b!"dr3", b!"dr6", b!"dr7", b!"ds", b!"dx", b!"eax", b!"ebp", b!"ebx",
  b!"ecx", b!"edi", b!"edx", b!"eflags", b!"eip", b!"es", b!"esi", b!"esp", b!"fs", b!"gs", b!"ip",
  b!"k0", b!"k1", b!"k2", b!"k3", b!"k4", b!"k5", b!"k6", b!"k7", b!"mm0", b!"mm1", b!"mm2",
  b!"mm3", b!"mm4", b!"mm5", b!"mm6", b!"mm7", b!"r10", b!"r10b", b!"r10d", b!"r10w", b!"r11",
  b!"r11b", b!"r11d", b!"r11w", b!"r12", b!"r12b", b!"r12d", b!"r12w", b!"r13", b!"r13b", b!"r13d",
  b!"r13w", b!"r14", b!"r14b", b!"r14d", b!"r14w", b!"r15", b!"r15b", b!"r15d", b!"r15w", b!"r16",
  b!"r16b", b!"r16d", b!"r16w", b!"r17", b!"r17b", b!"r17d", b!"r17w", b!"r18", b!"r18b", b!"r18d",
  b!"r18w", b!"r19", b!"r19b", b!"r19d", b!"r19w", b!"r20", b!"r20b", b!"r20d", b!"r20w", b!"r21",
  b!"r21b", b!"r21d", b!"r21w", b!"r22", b!"r22b", b!"r22d", b!"r22w", b!"r23", b!"r23b", b!"r23d",
  b!"r23w", b!"r24", b!"r24b", b!"r24d", b!"r24w", b!"r25", b!"r25b", b!"r25d", b!"r25w", b!"r26",
  b!"r26b", b!"r26d", b!"r26w", b!"r27", b!"r27b", b!"r27d", b!"r27w", b!"r28", b!"r28b", b!"r28d",
  b!"r28w", b!"r29", b!"r29b", b!"r29d", b!"r29w", b!"r30", b!"r30b", b!"r30d", b!"r30w", b!"r31",
  b!"r31b", b!"r31d", b!"r31w", b!"r8", b!"r8b", b!"r8d", b!"r8w", b!"r9", b!"r9b", b!"r9d",
  b!"r9w", b!"rax", b!"rbp", b!"rbx", b!"rcx", b!"rdi", b!"rdx", b!"rflags", b!"rip", b!"rsi",
  b!"rsp", b!"si", b!"sil", b!"sp", b!"spl", b!"ss", b!"st0", b!"st1", b!"st2", b!"st3", b!"st4",
  b!"st5", b!"st6", b!"st7", b!"sw", b!"xmm0", b!"xmm1", b!"xmm10", b!"xmm11", b!"xmm12",
  b!"xmm13", b!"xmm14", b!"xmm15", b!"xmm16", b!"xmm17", b!"xmm18", b!"xmm19", b!"xmm2", b!"xmm20",
  b!"xmm21", b!"xmm22", b!"xmm23", b!"xmm24", b!"xmm25", b!"xmm26", b!"xmm27", b!"xmm28",
  b!"xmm29", b!"xmm3", b!"xmm31", b!"xmm32", b!"xmm4", b!"xmm5", b!"xmm6", b!"xmm7", b!"xmm8",
  b!"xmm9", b!"ymm0", b!"ymm1", b!"ymm10", b!"ymm11", b!"ymm12", b!"ymm13", b!"ymm14", b!"ymm15",
  b!"ymm16", b!"ymm17", b!"ymm18", b!"ymm19", b!"ymm2", b!"ymm20", b!"ymm21", b!"ymm22", b!"ymm23",
  b!"ymm24", b!"ymm25", b!"ymm26", b!"ymm27", b!"ymm28", b!"ymm29", b!"ymm3", b!"ymm31", b!"ymm32",
  b!"ymm4", b!"ymm5", b!"ymm6", b!"ymm7", b!"ymm8", b!"ymm9", b!"zmm0", b!"zmm1", b!"zmm10",
  b!"zmm11", b!"zmm12", b!"zmm13", b!"zmm14", b!"zmm15", b!"zmm16", b!"zmm17", b!"zmm18",
  b!"zmm19", b!"zmm2", b!"zmm20", b!"zmm21", b!"zmm22", b!"zmm23", b!"zmm24", b!"zmm25", b!"zmm26",
  b!"zmm27", b!"zmm28", b!"zmm29", b!"zmm3", b!"zmm31", b!"zmm32", b!"zmm4", b!"zmm5", b!"zmm6",
  b!"zmm7", b!"zmm8", b!"zmm9"]

/-- `label_instructions` (nasm.cpp:265-274). -/
def labelInstructions : List Bytes := [
  b!"call", b!"ja", b!"jae", b!"jb", b!"jbe", b!"jc", b!"je", b!"jg", b!"jge", b!"jl", b!"jle",
  b!"jmp", b!"jna", b!"jna", b!"jnae", b!"jnb", b!"jnbe", b!"jnc", b!"jne", b!"jng", b!"jnge",
  b!"jnl", b!"jnle", b!"jno", b!"jnp", b!"jnz", b!"jo", b!"jp", b!"jpe", b!"jpo", b!"js", b!"jz",
  b!"loop", b!"loope", b!"loopne", b!"loopnz", b!"loopz"]

/-- `binary_search_case_insensitive` (nasm.cpp:278-288): `std::ranges::binary_search` is `lower_bound`,
followed by a comparison. -/
def binarySearch (table : List Bytes) (w : Bytes) : Bool :=
  match table[lowerBound (fun x => Ascii.compareToLower x w == .lt) table]? with
  | some x => !(Ascii.compareToLower w x == .lt)
  | none => false

/-- `determine_suffix` (nasm.cpp:290-301): length and base. -/
def determineSuffix (s : Bytes) : Nat × Nat :=
  match s.getLast? with
  | none => (0, 0)
  | some c => if baseOfSuffix c = 0 then (0, 0) else (1, baseOfSuffix c)

/-- The values of `id_highlight` (nasm.cpp:341-343); no others are ever assigned. -/
inductive IdKind where
  | instruction | var | label
  deriving DecidableEq, Repr

/-- The highlight type. -/
def IdKind.type : IdKind → HT
  | .instruction => .name_instruction
  | .var => .name_var
  | .label => .name_label

/-- `consume_comment` (nasm.cpp:447-458). -/
def consumeComment : HM IdKind Unit := do
  let r ← HM.rem
  HM.hassert (startsWith r b!";")
  HM.emitAdv 1 .comment_delim
  let r ← HM.rem
  let line := matchCrlfLine r
  HM.emitAdvIf line.content .comment
  HM.advance line.terminator
  HM.set .instruction

/-- `consume_macro` (nasm.cpp:460-468). -/
def consumeMacro : HM IdKind Unit := do
  let r ← HM.rem
  HM.hassert (startsWith r b!"%")
  let line := matchCrlfLine (r.drop 1)
  HM.emitAdv (line.content + 1) .name_macro
  HM.advance line.terminator
  HM.set .instruction

/-- `consume_identifier` (nasm.cpp:470-519).  `ULIGHT_ASSUME` counts as an assertion. -/
def consumeIdentifier : HM IdKind Unit := do
  let r ← HM.rem
  let n := matchIdentifier r
  HM.hassert (decide (0 < n))
  let id := r.take n
  if Ascii.equalsIgnoreCase id b!"seg" ∨ Ascii.equalsIgnoreCase id b!"wrt" then HM.emitAdv n .keyword_op
  else if r[n]? = some c!":" then do
    HM.emitAdv (n + 1) .name_label_decl
    HM.set .instruction
  else if startsWith r b!"." then do
    HM.emitAdv n .name_label_decl
    HM.set .instruction
  else if binarySearch types id then do
    HM.emitAdv n .keyword_type
    HM.set .var
  else if binarySearch operatorKeywords id then do
    HM.emitAdv n .keyword_op
    HM.set .var
  else if binarySearch registers id then do
    HM.emitAdv n .name_var
    HM.set .var
  else if binarySearch labelInstructions id then do
    HM.emitAdv n .name_instruction
    HM.set .label
  else if startsWith id b!"$" then do
    HM.emitAdv n .name
    HM.set .var
  else do
    let k ← HM.get
    HM.emitAdv n k.type
    HM.set (if k = .instruction then .var else k)

/-- The options in `expect_common_number` (nasm.cpp:533-552). -/
def numberOptions : NumberOptions where
  prefixes := [⟨b!"0b", 2, false⟩, ⟨b!"0B", 2, false⟩, ⟨b!"0y", 2, false⟩, ⟨b!"0Y", 2, false⟩,
    ⟨b!"0o", 8, false⟩, ⟨b!"0O", 8, false⟩, ⟨b!"0q", 8, false⟩, ⟨b!"0Q", 8, false⟩,
    ⟨b!"0d", 10, false⟩, ⟨b!"0D", 10, false⟩, ⟨b!"0t", 10, false⟩, ⟨b!"0T", 10, false⟩,
    ⟨b!"0x", 16, false⟩, ⟨b!"0X", 16, false⟩, ⟨b!"0h", 16, false⟩, ⟨b!"0H", 16, false⟩, ⟨b!"$", 16, false⟩]
  exponentSeparators := [b!"e+", b!"e-", b!"e", b!"E+", b!"E-", b!"E",
    b!"p+", b!"p-", b!"p", b!"P+", b!"P-", b!"P"]
  digitSeparator := c!"_"

/-- `expect_common_number` (nasm.cpp:530-559). -/
def expectCommonNumber : HM IdKind Bool := do
  let r ← HM.rem
  let n := matchCommonNumber r numberOptions
  if n.length = 0 then pure false
  else do
    HM.highlightNumber n (some c!"_")
    pure true

/-- `expect_suffixed_number` (nasm.cpp:561-592). -/
def expectSuffixedNumber : HM IdKind Bool := do
  let r ← HM.rem
  let n := matchSuffixNumber r determineSuffix c!"_"
  let word := r.take (n.digits + 1)
  if n.digits = 0 then pure false
  else if n.base = 16 ∧ binarySearch pseudoInstructions word then do
    HM.emitAdv word.length .name_instruction_pseudo
    pure true
  else if n.base = 16 ∧ binarySearch registers word then do
    HM.emitAdv word.length .name_var
    pure true
  else if n.erroneous then do
    HM.emitAdv (n.digits + n.suffix) .error
    pure true
  else do
    HM.highlightDigits n.digits c!"_"
    HM.emitAdv n.suffix .number_decor
    pure true

/-- `expect_number` (nasm.cpp:521-528). -/
def expectNumber : HM IdKind Bool := do
  let r ← HM.rem
  if startsWith r b!"_" then pure false
  else HM.or expectSuffixedNumber expectCommonNumber

/-- `consume_verbatim_string_content` (nasm.cpp:608-619). -/
def consumeVerbatim (q : UInt8) : HM IdKind Unit := do
  let r ← HM.rem
  HM.emitAdvIf (Ascii.length_if_not r (fun c => c = 0x0A || c = 0x0D || c = q)) .string
  let r ← HM.rem
  HM.emitAdvIf (if startsWith r [q] then 1 else 0) .string_delim

/-- `expect_escape` (nasm.cpp:661-670), and the fallback in `consume_backquote_string_content`
(nasm.cpp:648-650). -/
def consumeEscape : HM IdKind Unit := do
  let r ← HM.rem
  let e := matchEscape r
  if e.length ≠ 0 then HM.emitAdv e.length (if e.erroneous then .error else .string_escape)
  else HM.emitAdv 1 .error

/-- The body of the loop in `consume_backquote_string_content` (nasm.cpp:634-657); the local variable is
`length`.  At the end of the source, the code returns without calling `flush()`. -/
def backquoteStep (length : Nat) : HM IdKind (Nat ⊕ Unit) := do
  let r ← HM.rem
  match r[length]? with
  | none => pure (.inr ())
  | some c =>
    if c = 0x0A ∨ c = 0x0D ∨ c = 0x0B then do
      HM.emitAdvIf length .string
      pure (.inr ())
    else if c = c!"`" then do
      HM.emitAdvIf length .string
      HM.emitAdv 1 .string_delim
      pure (.inr ())
    else if c = c!"\\" then do
      HM.emitAdvIf length .string
      consumeEscape
      pure (.inl 0)
    else pure (.inl (length + 1))

/-- `consume_string` (nasm.cpp:594-606) and `consume_backquote_string_content` (nasm.cpp:621-659). -/
def consumeString (q : UInt8) : HM IdKind Unit := do
  let r ← HM.rem
  HM.hassert (startsWith r [q])
  HM.emitAdv 1 .string_delim
  if q = c!"'" ∨ q = c!"\"" then consumeVerbatim q
  else HM.loop (r.length + 1) backquoteStep 0

/-- The default case of `consume_anything` (nasm.cpp:429-443). -/
def consumeOther (c : UInt8) : HM IdKind Unit := do
  let r ← HM.rem
  let n := matchOperator r
  if n ≠ 0 then HM.emitAdv n .symbol_op
  else do
    let success ← expectNumber
    if success then pure ()
    else if isIdStart c then consumeIdentifier
    else HM.emitAdv 1 .error .forced

/-- `consume_anything` (nasm.cpp:365-445). -/
def consumeAnything : HM IdKind Unit := do
  let r ← HM.rem
  match r with
  | [] => HM.fault .outOfBounds
  | c :: _ =>
    if c = c!" " ∨ c = 0x09 then HM.advance 1
    else if c = 0x0D ∨ c = 0x0A then do
      HM.set .instruction
      HM.advance 1
    else if isDigit c then do
      let success ← expectNumber
      HM.hassert success
    else if c = c!"\"" ∨ c = c!"'" ∨ c = c!"`" then consumeString c
    else if c = c!"(" ∨ c = c!")" then HM.emitAdv 1 .symbol_parens
    else if c = c!"[" ∨ c = c!"]" then HM.emitAdv 1 .symbol_square
    else if c = c!"{" ∨ c = c!"}" then HM.emitAdv 1 .symbol_brace
    else if c = c!"," then HM.emitAdv 1 .symbol_punc
    else if c = c!";" then consumeComment
    else if c = c!"%" then consumeMacro
    else consumeOther c

/-- `operator()` (nasm.cpp:356-362). -/
def run : HM IdKind Bool := do
  let r ← HM.rem
  HM.whileNotEof (r.length + 1) consumeAnything
  pure true

/-- `highlight_nasm` (nasm.cpp:677-685). -/
def highlight : Highlight := HM.run run .instruction

end Ulight.Nasm
