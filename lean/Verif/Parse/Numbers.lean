import Verif.Text.Ascii

/-!
# Number matching (include/ulight/impl/numbers.hpp, src/main/cpp/parse_utils.cpp)
-/

namespace Ulight

/-- `match_digits` (parse_utils.cpp:136-140). -/
def matchDigits (s : Bytes) (base : Nat := 10) : Nat := Ascii.length_if s (fun c => isDigitBase c base)

/-- `Digits_Result` (numbers.hpp:12-29). -/
structure DigitsResult where
  length : Nat
  erroneous : Bool
  deriving DecidableEq, Repr

/-- The stateful predicate in `match_separated_digits` applied by `length_if`
(parse_utils.cpp:150-159): length, `previous` and `erroneous` at the end. -/
def sepLoop (base : Nat) (sep : UInt8) : UInt8 → Bool → Bytes → Nat × UInt8 × Bool
  | prev, err, [] => (0, prev, err)
  | prev, err, c :: s =>
    if c = sep then
      let (n, p, e) := sepLoop base sep c (err || prev = sep) s
      (n + 1, p, e)
    else if isDigitBase c base then
      let (n, p, e) := sepLoop base sep c err s
      (n + 1, p, e)
    else (0, c, err)

/-- `match_separated_digits` (parse_utils.cpp:142-163). -/
def matchSeparatedDigits (s : Bytes) (base : Nat) (sep : UInt8 := 0) : DigitsResult :=
  if sep = 0 then ⟨matchDigits s base, false⟩
  else
    let (n, p, e) := sepLoop base sep sep false s
    ⟨n, e || p = sep⟩

/-- `Number_Prefix` (numbers.hpp:55-66). -/
structure NumberPrefix where
  str : Bytes
  base : Nat
  floatingPoint : Bool := false

/-- `Common_Number_Options` (numbers.hpp:73-106).  The base of an `Exponent_Separator` is never
read, so a separator is its string.  `match_suffix` is an optional function. -/
structure NumberOptions where
  plus : Bool := false
  minus : Bool := false
  prefixes : List NumberPrefix := []
  exponentSeparators : List Bytes := []
  suffixes : List Bytes := []
  matchSuffix : Option (Bytes → Nat) := none
  defaultBase : Nat := 10
  defaultLeadingZeroBase : Nat := defaultBase
  digitSeparator : UInt8 := 0
  nonemptyInteger : Bool := false
  nonemptyFraction : Bool := false

/-- `Common_Number_Result` (numbers.hpp:108-180). -/
structure NumberResult where
  length : Nat := 0
  sign : Nat := 0
  pre : Nat := 0
  integer : Nat := 0
  radixPoint : Nat := 0
  fractional : Nat := 0
  exponentSep : Nat := 0
  exponentDigits : Nat := 0
  suffix : Nat := 0
  erroneous : Bool := false
  deriving DecidableEq, Repr

/-- `is_non_integer` (numbers.hpp:173-179). -/
def NumberResult.isNonInteger (r : NumberResult) : Bool :=
  r.radixPoint ≠ 0 || r.exponentSep ≠ 0 || r.exponentDigits ≠ 0

/-- Sign (parse_utils.cpp:178-182). -/
def numSign (o : NumberOptions) (s : Bytes) : Nat :=
  if (o.plus && startsWith s b!"+") || (o.minus && startsWith s b!"-") then 1 else 0

/-- The prefix loop (parse_utils.cpp:183-195): prefix length, base and `allow_float`. -/
def numPrefix (o : NumberOptions) (s : Bytes) : Nat × Nat × Bool :=
  match o.prefixes.find? (fun p => startsWith s p.str) with
  | some p => (p.str.length, p.base, p.floatingPoint)
  | none => (0, if startsWith s b!"0" then o.defaultLeadingZeroBase else o.defaultBase, true)

/-- The exponent loop (parse_utils.cpp:232-245): separator length, digits and whether the digits are
missing.  `s` is `str.substr(length)`. -/
def numExponent (o : NumberOptions) (s : Bytes) : Nat × Nat × Bool :=
  match o.exponentSeparators.find? (fun p => startsWith s p) with
  | some p =>
    let n := matchDigits (s.drop p.length)
    (p.length, n, n == 0)
  | none => (0, 0, false)

/-- The suffix (parse_utils.cpp:247-262).  `s` is `str.substr(length)`. -/
def numSuffix (o : NumberOptions) (s : Bytes) : Nat :=
  if !o.suffixes.isEmpty then
    match o.suffixes.find? (fun p => startsWith s p) with
    | some p => p.length
    | none => 0
  else
    match o.matchSuffix with
    | some f => f s
    | none => 0

/-- The fraction (parse_utils.cpp:206-227): radix point, fractional digits, erroneous; `none` for
the early `return {}` on a lone dot.  `s` is `str.substr(length)`. -/
def numFraction (o : NumberOptions) (base pre integer : Nat) (allowFloat : Bool) (s : Bytes) :
    Option (Nat × Nat × Bool) :=
  if allowFloat && startsWith s b!"." then
    let f := matchSeparatedDigits (s.drop 1) base o.digitSeparator
    if pre = 0 ∧ integer = 0 ∧ ((s.drop 1).head?.any isDigit) = false then none
    else some (1, f.length, (o.nonemptyFraction && f.length == 0) || f.erroneous)
  else some (0, 0, false)

/-- `match_common_number` (parse_utils.cpp:165-270).  The assertion on the options
(`suffixes` and `match_suffix` exclude each other) and the debug assertion that prefixes are not
empty are not modelled: they concern constants. -/
def matchCommonNumber (s : Bytes) (o : NumberOptions) : NumberResult :=
  if s = [] then {}
  else
    let sign := numSign o s
    let p := numPrefix o (s.drop sign)
    let i := matchSeparatedDigits (s.drop (sign + p.1)) p.2.1 o.digitSeparator
    let l1 := sign + p.1 + i.length
    match numFraction o p.2.1 p.1 i.length p.2.2 (s.drop l1) with
    | none => {}
    | some f =>
      let l2 := l1 + f.1 + f.2.1
      if l2 = 0 then {}
      else
        let e := if p.2.2 && l2 < s.length then numExponent o (s.drop l2) else (0, 0, false)
        let l3 := l2 + e.1 + e.2.1
        let suffix := if l3 < s.length then numSuffix o (s.drop l3) else 0
        let length := l3 + suffix
        { length := length, sign := sign, pre := p.1, integer := i.length, radixPoint := f.1,
          fractional := f.2.1, exponentSep := e.1, exponentDigits := e.2.1, suffix := suffix,
          erroneous := (o.nonemptyInteger && i.length == 0) || i.erroneous || f.2.2 || e.2.2 ||
            p.1 == length }

/-- `Suffix_Number_Result` (numbers.hpp:186-202). -/
structure SuffixNumber where
  digits : Nat := 0
  suffix : Nat := 0
  base : Nat := 0
  erroneous : Bool := false
  deriving DecidableEq, Repr

/-- `digit_value` (parse_utils.cpp:298-301); `c - u8'0'` may be negative. -/
def suffixDigitValue (c : UInt8) : Int :=
  if isUpper c then c.toNat - 0x41 + 10 else if isLower c then c.toNat - 0x61 + 10 else (c.toNat : Int) - 0x30

/-- The loop computing `erroneous` (parse_utils.cpp:294-313) over the digits; `prev` is
`number[i - 1]`, `none` for `i = 0`. -/
def suffixErroneous (base : Nat) (sep : UInt8) : Option UInt8 → Bytes → Bool
  | _, [] => false
  | prev, c :: s =>
    if suffixDigitValue c ≥ base then true
    else if sep ≠ 0 ∧ c = sep ∧ prev = some sep then true
    else suffixErroneous base sep (some c) s

/-- `match_suffix_number` (parse_utils.cpp:272-329). -/
def matchSuffixNumber (s : Bytes) (determine : Bytes → Nat × Nat) (sep : UInt8 := 0) : SuffixNumber :=
  let length := Ascii.length_if s (fun c => sep = 0 || c = sep || isAlnum c)
  if length ≤ 1 then {}
  else
    let number := s.take length
    let suf := determine number
    if suf.1 = 0 ∨ length = suf.1 then {}
    else
      let err := suffixErroneous suf.2 sep none (number.take (length - suf.1))
      if err && !(number.head?.any isDigit) then {}
      else ⟨length - suf.1, suf.1, suf.2, err⟩

end Ulight
