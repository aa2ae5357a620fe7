/-!
# Bytes and byte strings

`char8_t` is modelled by `UInt8` and `std::u8string_view` by `List UInt8`.
This file has the literal syntax used by every model file, and the `std::string_view`
operations that the modelled code uses (`substr`, `starts_with`, `find`).
-/

namespace Ulight

/-- A byte string (`std::u8string_view`, `std::string_view`). -/
abbrev Bytes := List UInt8

/-- `b!"abc"` is the list of the UTF-8 bytes of the string literal (C++ `u8"abc"`). -/
macro:max "b!" s:str : term => do
  let bytes := s.getString.toUTF8.toList
  let elems ← bytes.toArray.mapM fun b => `(($(Lean.quote b.toNat) : UInt8))
  `(([$elems,*] : List UInt8))

/-- `c!"x"` is the single byte of a one-byte string literal (C++ `u8'x'`). -/
macro:max "c!" s:str : term => do
  let bytes := s.getString.toUTF8.toList
  match bytes with
  | [b] => `(($(Lean.quote b.toNat) : UInt8))
  | _ => Lean.Macro.throwError "c! needs a single byte"

example : b!"a\n" = [97, 10] := rfl
example : c!"/" = 0x2f := rfl

/-- `std::basic_string_view::starts_with(view)`. -/
def startsWith (s p : Bytes) : Bool := p.isPrefixOf s

/-- `std::basic_string_view::find(view, pos)`: offset of the first occurrence of `p`
at or after the front of `s`; `none` is `npos`.  (Callers pass `s.drop pos` and add `pos`.) -/
def findSub (p : Bytes) : Bytes → Option Nat
  | [] => if p = [] then some 0 else none
  | s@(_ :: t) => if startsWith s p then some 0 else (findSub p t).map (· + 1)

end Ulight
