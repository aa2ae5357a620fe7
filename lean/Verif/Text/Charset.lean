import Verif.Buffer

/-!
# Charset (include/ulight/impl/charset.hpp)

`N` is the template argument.  The array of limbs is a list of 64-bit words.
-/

namespace Ulight

/-- `Charset::limb_count` (charset.hpp:14). -/
def limbCount (N : Nat) : Nat := N / 64 + (if N % 64 ≠ 0 then 1 else 0)

/-- `Charset<N>` (charset.hpp:11-59). -/
structure Charset (N : Nat) where
  limbs : List UInt64
  size : limbs.length = limbCount N

namespace Charset
variable {N : Nat}

/-- Value initialization `limbs {}` (charset.hpp:60). -/
def empty : Charset N := ⟨List.replicate (limbCount N) 0, by simp⟩

/-- Index a limb.  Callers are in range because of `i < width`. -/
def limb (s : Charset N) (i : Nat) : UInt64 := s.limbs.getD i 0

/-- `get` (charset.hpp:204-209), without the debug assertion. -/
def get (s : Charset N) (i : Nat) : Bool := (s.limb (i / 64) >>> UInt64.ofNat (i % 64)) &&& 1 ≠ 0

/-- Replacing a limb. -/
def setLimb (s : Charset N) (i : Nat) (v : UInt64) : Charset N :=
  ⟨s.limbs.set i v, by simp [s.size]⟩

/-- `clear(size_t)` (charset.hpp:211-215). -/
def clear (s : Charset N) (i : Nat) : Charset N :=
  s.setLimb (i / 64) (s.limb (i / 64) &&& ~~~((1 : UInt64) <<< UInt64.ofNat (i % 64)))

/-- `set(size_t)` (charset.hpp:217-221). -/
def set (s : Charset N) (i : Nat) : Charset N :=
  s.setLimb (i / 64) (s.limb (i / 64) ||| ((1 : UInt64) <<< UInt64.ofNat (i % 64)))

/-- `set(size_t, bool)` (charset.hpp:223-228). -/
def setBool (s : Charset N) (i : Nat) (v : Bool) : Charset N :=
  let s := s.clear i
  s.setLimb (i / 64) (s.limb (i / 64) ||| ((if v then 1 else 0 : UInt64) <<< UInt64.ofNat (i % 64)))

/-- `from_predicate` (charset.hpp:47-58). -/
def fromPredicate (p : UInt8 → Bool) : Charset N :=
  (List.range 256).foldl (fun r i => if p (UInt8.ofNat i) then r.set i else r) empty

/-- `Charset(char8_t)` (charset.hpp:66-70). -/
def ofChar (c : UInt8) : Charset N := empty.set c.toNat

/-- `Charset(u8string_view)` (charset.hpp:71-77). -/
def ofString (s : Bytes) : Charset N := s.foldl (fun r c => r.set c.toNat) empty

/-- `operator()(char8_t)` (charset.hpp:79-83). -/
def contains (s : Charset N) (c : UInt8) : Bool := s.get c.toNat

/-- `operator()(char32_t)` (charset.hpp:84-88). -/
def contains32 (s : Charset N) (c : Nat) : Bool := if c ≤ 0xff then s.get c else false

/-- The limb-wise loops of the operators. -/
def zip (f : UInt64 → UInt64 → UInt64) (s t : Charset N) : Charset N :=
  ⟨List.zipWith f s.limbs t.limbs, by simp [s.size, t.size]⟩

/-- `operator~` (charset.hpp:108-116). -/
def compl (s : Charset N) : Charset N := ⟨s.limbs.map (~~~ ·), by simp [s.size]⟩

/-- `operator|` (charset.hpp:118-140). -/
def union (s t : Charset N) : Charset N := zip (· ||| ·) s t

/-- `operator&` (charset.hpp:150-164). -/
def inter (s t : Charset N) : Charset N := zip (· &&& ·) s t

/-- `operator-` (charset.hpp:166-187). -/
def diff (s t : Charset N) : Charset N := zip (fun x y => x &&& ~~~y) s t

/-- One iteration of the loop in `range_before` (charset.hpp:28-35): the value of limb `limb`.
Subtraction is modulo 2^64, and a shift by 64 or more is undefined. -/
def rangeLimb (i j limb : Nat) : Except Fault UInt64 :=
  let begin := limb * 64
  let lo := if i > begin then i - begin else 0
  let hi := if j < begin + 64 then (j + 2 ^ 64 - begin) % 2 ^ 64 else 64
  if lo < hi then
    let allBits : UInt64 := ~~~0
    if lo ≥ 64 then .error .outOfBounds
    else if hi = 64 then .ok ((allBits <<< UInt64.ofNat lo) &&& allBits)
    else if hi > 64 then .error .outOfBounds
    else .ok ((allBits <<< UInt64.ofNat lo) &&& (((1 : UInt64) <<< UInt64.ofNat hi) - 1))
  else .ok 0

/-- The limbs `limb, limb + 1, …` of `range_before`. -/
def rangeLimbs (i j : Nat) : Nat → Nat → Except Fault (List UInt64)
  | 0, _ => .ok []
  | n + 1, limb =>
    match rangeLimb i j limb with
    | .error f => .error f
    | .ok x =>
      match rangeLimbs i j n (limb + 1) with
      | .error f => .error f
      | .ok xs => .ok (x :: xs)

/-- `range_before` (charset.hpp:19-38): the limbs of the result. -/
def rangeBefore (N i j : Nat) : Except Fault (List UInt64) :=
  if ¬ (i < 256 ∧ j ≤ 256 ∧ i ≤ j) then .error .assert else rangeLimbs i j (limbCount N) 0

/-- `range_until` (charset.hpp:42-45). -/
def rangeUntil (N i j : Nat) : Except Fault (List UInt64) := rangeBefore N i (j + 1)

end Charset
end Ulight
