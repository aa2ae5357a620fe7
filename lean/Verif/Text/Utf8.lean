import Verif.Buffer

/-!
# UTF-8 (include/ulight/impl/unicode.hpp, unicode_algorithm.hpp)

`char32_t` is modelled by `Nat`; every value that occurs is below 2^21.  The `pext` variants of
`decode_unchecked` (BMI2, SVE2) are not modelled; they compute the same function.
`static_cast<int>(str.size())` in `decode_and_length_or_replacement` is modelled without
truncation, i.e. strings are assumed to be shorter than 2^31 bytes.
-/

namespace Ulight.Utf8

/-- `std::countl_one` on a byte. -/
def countlOne (c : UInt8) : Nat :=
  if c &&& 0x80 = 0 then 0 else if c &&& 0x40 = 0 then 1 else if c &&& 0x20 = 0 then 2
  else if c &&& 0x10 = 0 then 3 else if c &&& 0x08 = 0 then 4 else if c &&& 0x04 = 0 then 5
  else if c &&& 0x02 = 0 then 6 else if c &&& 0x01 = 0 then 7 else 8

/-- `unchecked_sequence_length` (unicode.hpp:90-96). -/
def uncheckedSequenceLength (c : UInt8) : Nat := (0b100011010000001 >>> (countlOne c * 3)) &&& 0b111

/-- `detail::sequence_length_impl`, and `sequence_length`, which looks it up in a table
(unicode.hpp:109-142). -/
def sequenceLength (c : UInt8) : Nat :=
  let len := uncheckedSequenceLength c
  if len = 2 ∧ c < 0xC2 then 0
  else if len = 4 ∧ c > 0xF4 then 0
  else len

/-- `first_n_padded<4>` (unicode.hpp:380-389): byte `i` of the array. -/
def padded (s : Bytes) (i : Nat) : UInt8 := s.getD i 0

/-- `decode_unchecked(array, length)` (unicode.hpp:195-236). -/
def decodeUnchecked (s : Nat → UInt8) (length : Nat) : Nat :=
  match length with
  | 1 => (s 0).toNat
  | 2 => ((s 0 &&& 0x1f).toNat <<< 6) ||| (s 1 &&& 0x3f).toNat
  | 3 => ((s 0 &&& 0x0f).toNat <<< 12) ||| ((s 1 &&& 0x3f).toNat <<< 6) ||| (s 2 &&& 0x3f).toNat
  | 4 => ((s 0 &&& 0x07).toNat <<< 18) ||| ((s 1 &&& 0x3f).toNat <<< 12) |||
      ((s 2 &&& 0x3f).toNat <<< 6) ||| (s 3 &&& 0x3f).toNat
  | _ => 0

/-- `detail::expectation_masks` (unicode.hpp:247-252). -/
def expectationMasks : List (List UInt8) :=
  [[0x80, 0x00, 0x00, 0x00], [0xE0, 0xC0, 0x00, 0x00], [0xF0, 0xC0, 0xC0, 0x00],
   [0xF8, 0xC0, 0xC0, 0xC0]]

/-- `detail::expectation_values` (unicode.hpp:256-261). -/
def expectationValues : List (List UInt8) :=
  [[0x00, 0x00, 0x00, 0x00], [0xC0, 0x80, 0x00, 0x00], [0xE0, 0x80, 0x80, 0x00],
   [0xF0, 0x80, 0x80, 0x80]]

/-- `detail::is_valid_second_utf8_byte` (unicode.hpp:270-292). -/
def isValidSecond (b0 b1 : UInt8) : Bool :=
  if b1 &&& 0xC0 ≠ 0x80 then false
  else if b0 = 0xE0 ∧ b1 < 0xA0 then false
  else if b0 = 0xED ∧ b1 ≥ 0xA0 then false
  else if b0 = 0xF0 ∧ b1 < 0x90 then false
  else if b0 = 0xF4 ∧ b1 > 0x8F then false
  else true

/-- `is_valid(array, length)` (unicode.hpp:307-356).  The comparison of the two 32-bit words is
done byte by byte. -/
def isValidArray (s : Nat → UInt8) (length : Nat) : Bool :=
  let mask := expectationMasks.getD (length - 1) []
  let expected := expectationValues.getD (length - 1) []
  if ¬ (s 0 &&& mask.getD 0 0 = expected.getD 0 0 ∧ s 1 &&& mask.getD 1 0 = expected.getD 1 0 ∧
      s 2 &&& mask.getD 2 0 = expected.getD 2 0 ∧ s 3 &&& mask.getD 3 0 = expected.getD 3 0) then false
  else
    match length with
    | 2 => !(s 0 < 0xC2)
    | 3 => !(s 0 = 0xE0 ∧ s 1 < 0xA0) && !(s 0 = 0xED ∧ s 1 ≥ 0xA0)
    | 4 => !(s 0 = 0xF0 ∧ s 1 < 0x90) && !(s 0 > 0xF4) && !(s 0 = 0xF4 ∧ s 1 > 0x8F)
    | _ => true

/-- `Error_Code` (unicode.hpp:30-40). -/
inductive ErrorCode where
  | noData | missingUnits | illegalBits
  deriving DecidableEq, Repr

/-- `decode_and_length(view)` (unicode.hpp:437-457), with `decode(array, length)` (418-425)
inlined. -/
def decodeAndLength (s : Bytes) : Except ErrorCode (Nat × Nat) :=
  match s with
  | [] => .error .noData
  | b0 :: _ =>
    let length := sequenceLength b0
    if length = 0 then .error .illegalBits
    else if s.length < length then .error .missingUnits
    else if !isValidArray (padded s) length then .error .illegalBits
    else .ok (decodeUnchecked (padded s) length, length)

/-- U+FFFD REPLACEMENT CHARACTER -/
def replacement : Nat := 0xFFFD

/-- The loop over the continuation bytes in `decode_and_length_or_replacement`
(unicode.hpp:505-519): `rest` is the string from position `i` on and `n` bytes are still expected.
Returns the position of the first missing or invalid byte. -/
def validPrefix (b0 : UInt8) (i : Nat) : Nat → Bytes → Nat
  | 0, _ => i
  | _ + 1, [] => i
  | n + 1, b :: rest =>
    let valid := if i = 1 then isValidSecond b0 b else b &&& 0xC0 == 0x80
    if valid then validPrefix b0 (i + 1) n rest else i

/-- `decode_and_length_or_replacement(view)` (unicode.hpp:490-523): code point and length. -/
def decodeOrReplacement (s : Bytes) : Nat × Nat :=
  match s with
  | [] => (replacement, 0)
  | b0 :: rest =>
    let expected := sequenceLength b0
    if expected = 0 then (replacement, 1)
    else
      let i := validPrefix b0 1 (expected - 1) rest
      if i = expected then (decodeUnchecked (padded s) expected, expected) else (replacement, i)

/-- `decode_and_length_or_replacement(array)` (unicode.hpp:537-555).  The array is given by its
four bytes. -/
def decodeOrReplacement4 (b0 b1 b2 b3 : UInt8) : Nat × Nat :=
  let expected := sequenceLength b0
  if expected = 0 then (replacement, 1)
  else
    let i := validPrefix b0 1 (expected - 1) [b1, b2, b3]
    if i = expected then (decodeUnchecked (padded [b0, b1, b2, b3]) expected, expected)
    else (replacement, i)

/-- `is_valid(view)` (unicode.hpp:572-582); `none` is success. -/
def isValidLoop : Nat → Bytes → Except Fault (Option ErrorCode)
  | _, [] => .ok none
  | 0, _ :: _ => .error .outOfFuel
  | fuel + 1, s@(_ :: _) =>
    match decodeAndLength s with
    | .error e => .ok (some e)
    | .ok (_, length) => isValidLoop fuel (s.drop length)

/-- `is_valid(view)`. -/
def isValid (s : Bytes) : Except Fault (Option ErrorCode) := isValidLoop s.length s

/-- `code_points_unchecked` (unicode.hpp:587-596).  `remove_prefix` beyond the end is undefined. -/
def codePointsLoop : Nat → Nat → Bytes → Except Fault Nat
  | _, result, [] => .ok result
  | 0, _, _ :: _ => .error .outOfFuel
  | fuel + 1, result, s@(c :: _) =>
    let n := uncheckedSequenceLength c
    if n ≤ s.length then codePointsLoop fuel (result + 1) (s.drop n) else .error .outOfBounds

/-- `code_points_unchecked`. -/
def codePointsUnchecked (s : Bytes) : Except Fault Nat := codePointsLoop s.length 0 s

/-- `Code_Point_Iterator::operator++` (unicode.hpp:630-642): the rest of the string after the
current code point.  An exception is modelled as `Fault.assert`. -/
def iterNext (s : Bytes) : Except Fault Bytes :=
  match s with
  | [] => .error .outOfBounds
  | c :: _ =>
    let length := sequenceLength c
    if length = 0 ∨ length > s.length then .error .assert else .ok (s.drop length)

/-- Iterating over a `Code_Point_View` (unicode.hpp:600-700): the code points in order. -/
def codePointView : Nat → Bytes → Except Fault (List Nat)
  | _, [] => .ok []
  | 0, _ :: _ => .error .outOfFuel
  | fuel + 1, s@(_ :: _) =>
    match decodeAndLength s with
    | .error _ => .error .assert
    | .ok (cp, _) =>
      match iterNext s with
      | .error f => .error f
      | .ok s' =>
        match codePointView fuel s' with
        | .error f => .error f
        | .ok cps => .ok (cp :: cps)

/-- `encode8_unchecked` (unicode.hpp:739-767): the first `length` code units. -/
def encode8 (c : Nat) : Bytes :=
  if c < 0x80 then [UInt8.ofNat c]
  else if c < 0x800 then [UInt8.ofNat ((c >>> 6) ||| 0xc0), UInt8.ofNat ((c &&& 0x3f) ||| 0x80)]
  else if c < 0x10000 then
    [UInt8.ofNat ((c >>> 12) ||| 0xe0), UInt8.ofNat (((c >>> 6) &&& 0x3f) ||| 0x80),
     UInt8.ofNat ((c &&& 0x3f) ||| 0x80)]
  else
    [UInt8.ofNat ((c >>> 18) ||| 0xf0), UInt8.ofNat (((c >>> 12) &&& 0x3f) ||| 0x80),
     UInt8.ofNat (((c >>> 6) &&& 0x3f) ||| 0x80), UInt8.ofNat ((c &&& 0x3f) ||| 0x80)]

/-! ## Searching (unicode_algorithm.hpp) -/

/-- The second loop of `detail::find_if` (unicode_algorithm.hpp:43-51). -/
def findIfTail (pred : Nat → Bool) (expected : Bool) (npos : Nat) :
    Nat → Nat → Bytes → Except Fault Nat
  | _, _, [] => .ok npos
  | 0, _, _ :: _ => .error .outOfFuel
  | fuel + 1, units, s@(_ :: _) =>
    let (cp, length) := decodeOrReplacement s
    if pred cp = expected then .ok units
    else if length ≤ s.length then findIfTail pred expected npos fuel (units + length) (s.drop length)
    else .error .outOfBounds

/-- `detail::find_if` (unicode_algorithm.hpp:23-53): the first loop handles strings of at least four
bytes, then the second one takes over. -/
def findIf (pred : Nat → Bool) (expected : Bool) (npos : Nat) :
    Nat → Nat → Bytes → Except Fault Nat
  | fuel, units, s@(b0 :: b1 :: b2 :: b3 :: _) =>
    match fuel with
    | 0 => .error .outOfFuel
    | fuel + 1 =>
      let (cp, length) := decodeOrReplacement4 b0 b1 b2 b3
      if pred cp = expected then .ok units
      else if length ≤ s.length then findIf pred expected npos fuel (units + length) (s.drop length)
      else .error .outOfBounds
  | fuel, units, s => findIfTail pred expected npos fuel units s

/-- `utf8::find_if` (unicode_algorithm.hpp:84-92); `none` is `npos`. -/
def find_if (s : Bytes) (pred : Nat → Bool) : Except Fault (Option Nat) :=
  (findIf pred true (s.length + 1) s.length 0 s).map fun r => if r = s.length + 1 then none else some r

/-- `utf8::find_if_not` (unicode_algorithm.hpp:97-105); `none` is `npos`. -/
def find_if_not (s : Bytes) (pred : Nat → Bool) : Except Fault (Option Nat) :=
  (findIf pred false (s.length + 1) s.length 0 s).map fun r => if r = s.length + 1 then none else some r

/-- `utf8::length_if` (unicode_algorithm.hpp:108-115). -/
def length_if (s : Bytes) (pred : Nat → Bool) : Except Fault Nat :=
  findIf pred false s.length s.length 0 s

/-- `utf8::length_if_not` (unicode_algorithm.hpp:118-125). -/
def length_if_not (s : Bytes) (pred : Nat → Bool) : Except Fault Nat :=
  findIf pred true s.length s.length 0 s

/-- The second loop of `detail::check_if_any` (unicode_algorithm.hpp:69-76). -/
def checkIfAnyTail (pred : Nat → Bool) (expected : Bool) : Nat → Bytes → Except Fault Bool
  | _, [] => .ok false
  | 0, _ :: _ => .error .outOfFuel
  | fuel + 1, s@(_ :: _) =>
    let (cp, length) := decodeOrReplacement s
    if pred cp = expected then .ok true
    else if length ≤ s.length then checkIfAnyTail pred expected fuel (s.drop length)
    else .error .outOfBounds

/-- `detail::check_if_any` (unicode_algorithm.hpp:55-79). -/
def checkIfAny (pred : Nat → Bool) (expected : Bool) : Nat → Bytes → Except Fault Bool
  | fuel, s@(b0 :: b1 :: b2 :: b3 :: _) =>
    match fuel with
    | 0 => .error .outOfFuel
    | fuel + 1 =>
      let (cp, length) := decodeOrReplacement4 b0 b1 b2 b3
      if pred cp = expected then .ok true
      else if length ≤ s.length then checkIfAny pred expected fuel (s.drop length)
      else .error .outOfBounds
  | fuel, s => checkIfAnyTail pred expected fuel s

/-- `utf8::all_of` (unicode_algorithm.hpp:129-136). -/
def all_of (s : Bytes) (pred : Nat → Bool) : Except Fault Bool :=
  (checkIfAny pred false s.length s).map (!·)

/-- `utf8::any_of` (unicode_algorithm.hpp:139-146). -/
def any_of (s : Bytes) (pred : Nat → Bool) : Except Fault Bool := checkIfAny pred true s.length s

/-- `utf8::none_of` (unicode_algorithm.hpp:150-157). -/
def none_of (s : Bytes) (pred : Nat → Bool) : Except Fault Bool :=
  (checkIfAny pred true s.length s).map (!·)

/-- `utf8::any_not_of` (unicode_algorithm.hpp:160-167). -/
def any_not_of (s : Bytes) (pred : Nat → Bool) : Except Fault Bool :=
  checkIfAny pred false s.length s

end Ulight.Utf8
