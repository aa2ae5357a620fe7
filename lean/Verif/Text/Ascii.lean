import Verif.Buffer
import Verif.Text.XidTables
import Verif.Search

/-!
# ASCII characters, character predicates and ASCII algorithms

`Charset256` constants that are built from predicates, characters, strings and set operations are
modelled by the corresponding predicate; C18 shows that the bit-set implementation behaves that
way.
-/

namespace Ulight

/-! ## ascii_chars.hpp -/

/-- `Is_ASCII` (ascii_chars.hpp:10-21). -/
def isAscii (c : UInt8) : Bool := c ≤ 0x7f

/-- `Is_ASCII_Digit` (ascii_chars.hpp:25-36). -/
def isDigit (c : UInt8) : Bool := c ≥ c!"0" && c ≤ c!"9"

/-- `Is_ASCII_Digit_Base` (ascii_chars.hpp:45-67); `base` in [1, 62]. -/
def isDigitBase (c : UInt8) (base : Nat) : Bool :=
  if base < 10 then c ≥ c!"0" && c.toNat < 0x30 + base
  else isDigit c || (c ≥ c!"a" && c.toNat < 0x61 + base - 10) ||
    (c ≥ c!"A" && c.toNat < 0x41 + base - 10)

/-- `Is_ASCII_Binary_Digit` (ascii_chars.hpp:70-81). -/
def isBinaryDigit (c : UInt8) : Bool := c = c!"0" || c = c!"1"

/-- `Is_ASCII_Octal_Digit` (ascii_chars.hpp:86-97). -/
def isOctalDigit (c : UInt8) : Bool := c ≥ c!"0" && c ≤ c!"7"

/-- `is_ascii_hex_digit` (ascii_chars.hpp:101-103). -/
def isHexDigit (c : UInt8) : Bool :=
  isDigit c || (c ≥ c!"a" && c ≤ c!"f") || (c ≥ c!"A" && c ≤ c!"F")

/-- `Is_ASCII_Upper_Alpha` (ascii_chars.hpp:105-118). -/
def isUpper (c : UInt8) : Bool := c ≥ c!"A" && c ≤ c!"Z"

/-- `Is_ASCII_Lower_Alpha` (ascii_chars.hpp:122-136). -/
def isLower (c : UInt8) : Bool := c ≥ c!"a" && c ≤ c!"z"

/-- `To_ASCII_Upper` (ascii_chars.hpp:142-157). -/
def toUpper (c : UInt8) : UInt8 := if isLower c then c &&& 0xdf else c

/-- `To_ASCII_Lower` (ascii_chars.hpp:161-176). -/
def toLower (c : UInt8) : UInt8 := if isUpper c then c ||| 0x20 else c

/-- `is_ascii_alpha` (ascii_chars.hpp:180). -/
def isAlpha (c : UInt8) : Bool := isLower c || isUpper c

/-- `is_ascii_alphanumeric` (ascii_chars.hpp:183). -/
def isAlnum (c : UInt8) : Bool := isAlpha c || isDigit c

/-- `is_ascii_punctuation` (ascii_chars.hpp:185). -/
def isPunct (c : UInt8) : Bool := (b!"!\"#$%&'()*+,-./:;<=>?@[\\]^_`{|}~").contains c

/-- `is_ascii_printing` (ascii_chars.hpp:187-188). -/
def isPrinting (c : UInt8) : Bool := isAlnum c || isPunct c || c = c!" "

/-! ## unicode_chars.hpp -/

/-- `is_ascii_xid_start` (unicode_chars.hpp:117). -/
def isAsciiXidStart (c : UInt8) : Bool := isAlpha c

/-- `is_ascii_xid_continue` (unicode_chars.hpp:129). -/
def isAsciiXidContinue (c : UInt8) : Bool := isAlnum c || c = c!"_"

/-- `is_character_name` (unicode_chars.hpp:133-134). -/
def isCharacterName (c : UInt8) : Bool := isUpper c || isDigit c || c = c!" " || c = c!"-"

/-- `std::ranges::binary_search(table, c, std::less<void>{})` with the two `operator<` of
`Code_Point_Range` (chars.cpp:10-30): `lower_bound`, then `!(c < *it)`. -/
def inRanges (table : List (Nat × Nat)) (c : Nat) : Bool :=
  match table[lowerBound (fun r => decide (r.2 < c)) table]? with
  | some r => !decide (c < r.1)
  | none => false

/-- `Is_XID_Start` (chars.cpp:315-318). -/
def isXidStart (c : Nat) : Bool := inRanges xidStartRanges c

/-- `Is_XID_Continue` (chars.cpp:320-324). -/
def isXidContinue (c : Nat) : Bool := isXidStart c || inRanges xidContinueMinusStart c

/-! ## ascii_algorithm.hpp -/

namespace Ascii

/-- The loop of `detail::find_if` (ascii_algorithm.hpp:18-27); `rest` is the string from position
`i` on; `none` is the `npos` argument. -/
def findLoop (pred : UInt8 → Bool) (expected : Bool) (i : Nat) : Bytes → Option Nat
  | [] => none
  | c :: rest => if pred c = expected then some i else findLoop pred expected (i + 1) rest

/-- `find_if` (ascii_algorithm.hpp:35-41).  The assertion `start <= str.length()` is a debug
assertion; in release builds a larger `start` finds nothing. -/
def find_if (s : Bytes) (pred : UInt8 → Bool) (start : Nat := 0) : Option Nat :=
  findLoop pred true start (s.drop start)

/-- `find_if_not` (ascii_algorithm.hpp:47-53). -/
def find_if_not (s : Bytes) (pred : UInt8 → Bool) (start : Nat := 0) : Option Nat :=
  findLoop pred false start (s.drop start)

/-- `length_if` (ascii_algorithm.hpp:56-62). -/
def length_if (s : Bytes) (pred : UInt8 → Bool) (start : Nat := 0) : Nat :=
  (findLoop pred false start (s.drop start)).getD s.length

/-- `length_if_head_tail` (ascii_algorithm.hpp:66-77). -/
def length_if_head_tail (s : Bytes) (head tail : UInt8 → Bool) : Nat :=
  match s with
  | [] => 0
  | c :: rest => if !head c then 0 else (findLoop tail false 1 rest).getD s.length

/-- `length_if_not` (ascii_algorithm.hpp:80-86). -/
def length_if_not (s : Bytes) (pred : UInt8 → Bool) (start : Nat := 0) : Nat :=
  (findLoop pred true start (s.drop start)).getD s.length

/-- `length_if_not_head_tail` (ascii_algorithm.hpp:90-101). -/
def length_if_not_head_tail (s : Bytes) (head tail : UInt8 → Bool) : Nat :=
  match s with
  | [] => 0
  | c :: rest => if !head c then 0 else (findLoop tail true 1 rest).getD s.length

/-- `length_before` (ascii_algorithm.hpp:105-111). -/
def length_before (s : Bytes) (d : UInt8) (start : Nat := 0) : Nat :=
  (findLoop (· == d) true start (s.drop start)).getD s.length

/-- `length_before_not` (ascii_algorithm.hpp:115-121). -/
def length_before_not (s : Bytes) (d : UInt8) (start : Nat := 0) : Nat :=
  (findLoop (· == d) false start (s.drop start)).getD s.length

/-- `length_until` (ascii_algorithm.hpp:125-131). -/
def length_until (s : Bytes) (d : UInt8) (start : Nat := 0) : Nat :=
  match findLoop (· == d) true start (s.drop start) with
  | none => s.length
  | some r => r + 1

/-- `length_until_not` (ascii_algorithm.hpp:135-141). -/
def length_until_not (s : Bytes) (d : UInt8) (start : Nat := 0) : Nat :=
  match findLoop (· == d) false start (s.drop start) with
  | none => s.length
  | some r => r + 1

/-- `compare_to_lower` (ascii_algorithm.hpp:146-156). -/
def compareToLower : Bytes → Bytes → Ordering
  | x :: xs, y :: ys =>
    if toLower x ≠ toLower y then compare (toLower x).toNat (toLower y).toNat
    else compareToLower xs ys
  | xs, ys => compare xs.length ys.length

/-- The loop of `equals_ignore_case` and `starts_with_ignore_case`: compares the elements of the
first string with those of the second. -/
def sameIgnoringCase : Bytes → Bytes → Bool
  | x :: xs, y :: ys => if toUpper x ≠ toUpper y then false else sameIgnoringCase xs ys
  | _, _ => true

/-- `equals_ignore_case` (ascii_algorithm.hpp:161-172). -/
def equalsIgnoreCase (x y : Bytes) : Bool :=
  if x.length ≠ y.length then false else sameIgnoringCase x y

/-- `starts_with_ignore_case` (ascii_algorithm.hpp:177-188). -/
def startsWithIgnoreCase (str pre : Bytes) : Bool :=
  if pre.length > str.length then false else sameIgnoringCase pre str

/-- The loop of `contains_ignore_case` (ascii_algorithm.hpp:198-202); the haystack is given from
position `i` on. -/
def containsLoop (needle : Bytes) : Bytes → Bool
  | [] => needle.length ≤ 0 && equalsIgnoreCase [] needle
  | s@(_ :: t) =>
    if needle.length ≤ s.length then
      if equalsIgnoreCase (s.take needle.length) needle then true else containsLoop needle t
    else false

/-- `contains_ignore_case` (ascii_algorithm.hpp:193-204). -/
def containsIgnoreCase (haystack needle : Bytes) : Bool :=
  if needle = [] then true else containsLoop needle haystack

end Ascii

end Ulight
