import Verif.Api
import Verif.Parse.Utils
import Verif.Parse.Numbers
import Verif.Parse.Escapes
import Verif.Text.Utf8

/-!
# `Highlighter_Base` (include/ulight/impl/highlighter.hpp)

A highlighter is modelled as a program in the state monad `HM`, whose state has the data members
that change (`remainder`, `index`, the emissions so far, and language-specific members `ext`), and
which can stop with a `Fault`.
-/

namespace Ulight

/-- The options other than `coalescing`. -/
def Opts.seen (o : Opts) : Opts := { o with coalescing := false }

/-- The constant data members (highlighter.hpp:31-33): options and source.  `debug` says whether
`ULIGHT_DEBUG_ASSERT` is active. -/
structure HEnv where
  debug : Bool
  opts : Opts
  src : Bytes

/-- The data members that change (highlighter.hpp:30-35).  `out` has the emissions so far, in order;
`ext` has the members of the derived class. -/
structure HS (σ : Type) where
  rem : Bytes
  idx : Nat
  out : List Emit
  ext : σ

/-- A member function of a highlighter. -/
def HM (σ α : Type) := HEnv → HS σ → Except Fault (α × HS σ)

namespace HM

variable {σ α β : Type}

protected def pure (a : α) : HM σ α := fun _ s => .ok (a, s)

protected def bind (m : HM σ α) (f : α → HM σ β) : HM σ β := fun env s =>
  match m env s with
  | .ok (a, s') => f a env s'
  | .error e => .error e

instance : Monad (HM σ) where
  pure := HM.pure
  bind := HM.bind

/-- `remainder` -/
def rem : HM σ Bytes := fun _ s => .ok (s.rem, s)

/-- `index` -/
def index : HM σ Nat := fun _ s => .ok (s.idx, s)

/-- `eof()` (highlighter.hpp:62-67). -/
def eof : HM σ Bool := fun _ s => .ok (s.rem.isEmpty, s)

/-- `options` -/
def opts : HM σ Opts := fun env s => .ok (env.opts, s)

/-- The members of the derived class. -/
def get : HM σ σ := fun _ s => .ok (s.ext, s)

/-- Assignment to members of the derived class. -/
def set (x : σ) : HM σ Unit := fun _ s => .ok ((), { s with ext := x })

/-- Assignment to members of the derived class. -/
def modify (f : σ → σ) : HM σ Unit := fun _ s => .ok ((), { s with ext := f s.ext })

/-- An error in the execution. -/
def fault (f : Fault) : HM σ α := fun _ _ => .error f

/-- `ULIGHT_ASSERT` -/
def hassert (c : Bool) : HM σ Unit := fun _ s => if c then .ok ((), s) else .error .assert

/-- `ULIGHT_DEBUG_ASSERT` -/
def dassert (c : Bool) : HM σ Unit := fun env s =>
  if c || !env.debug then .ok ((), s) else .error .assert

/-- A computation outside of the highlighter that may fail. -/
def lift (x : Except Fault α) : HM σ α := fun _ s =>
  match x with
  | .ok a => .ok (a, s)
  | .error f => .error f

/-- `emit` (highlighter.hpp:75-96): the assertions; the buffer is modelled in `Verif/Emit.lean`. -/
def emit (beg len : Nat) (ty : HT) (mode : Mode := .normal) : HM σ Unit := fun env s =>
  if env.debug && !(len != 0 && beg < env.src.length && beg + len ≤ env.src.length) then
    .error .assert
  else .ok ((), { s with out := s.out ++ [⟨beg, len, ty, mode⟩] })

/-- `advance` (highlighter.hpp:102-108).  Advancing past the end is undefined in release builds
(`remove_prefix`), and fails an assertion in debug builds. -/
def advance (n : Nat) : HM σ Unit := fun _ s =>
  if n ≤ s.rem.length then .ok ((), { s with rem := s.rem.drop n, idx := s.idx + n })
  else .error .outOfBounds

/-- `emit_and_advance` (highlighter.hpp:112-120). -/
def emitAdv (n : Nat) (ty : HT) (mode : Mode := .normal) : HM σ Unit := do
  let i ← index
  emit i n ty mode
  advance n

/-- A loop: `body b` either continues with a new value of the local variables or ends.  The fuel
bounds the number of iterations; running out of it is a fault, which the proofs exclude. -/
def loop (fuel : Nat) (body : β → HM σ (β ⊕ α)) (b : β) : HM σ α :=
  match fuel with
  | 0 => fault .outOfFuel
  | fuel + 1 => do
    match ← body b with
    | .inl b' => loop fuel body b'
    | .inr a => pure a

/-- `while (!eof()) body` for a body without local variables. -/
def whileNotEof (fuel : Nat) (body : HM σ Unit) : HM σ Unit :=
  loop fuel (fun _ => do
    if ← eof then pure (.inr ())
    else do
      body
      pure (.inl ())) ()

/-- `a || b` -/
def or (a b : HM σ Bool) : HM σ Bool := do
  if ← a then pure true else b

/-- `highlight_digits_ignore_separator` (highlighter.hpp:198-203): `n` is the number of digits. -/
def digitsIgnoreSeparator (n : Nat) : HM σ Unit :=
  if n ≠ 0 then emitAdv n .number else pure ()

/-- The `while` loop and the last `flush()` in `highlight_digits` (highlighter.hpp:221-240):
`digits` are the digits from position `length` on. -/
def digitsLoop (sep : UInt8) : Nat → Bytes → HM σ Unit
  | length, [] => digitsIgnoreSeparator length
  | length, c :: digits =>
    if c = sep then do
      digitsIgnoreSeparator length
      emitAdv 1 .number_delim
      digitsLoop sep 0 digits
    else digitsLoop sep (length + 1) digits

/-- `highlight_digits` (highlighter.hpp:216-241): `n` is `digits.length()`, the digits are always
the first ones of `remainder`. -/
def highlightDigits (n : Nat) (sep : UInt8) : HM σ Unit := do
  hassert (sep != 0)
  let r ← rem
  hassert (n ≤ r.length)
  digitsLoop sep 0 (r.take n)

/-- `emit_and_advance` if the length is not zero. -/
def emitAdvIf (n : Nat) (ty : HT) (mode : Mode := .normal) : HM σ Unit :=
  if n ≠ 0 then emitAdv n ty mode else pure ()

/-- One of the two functions that highlight digits, if there are any. -/
def numberDigits (n : Nat) (sep : Option UInt8) : HM σ Unit :=
  match sep with
  | some c => if n ≠ 0 then highlightDigits n c else pure ()
  | none => digitsIgnoreSeparator n

/-- `highlight_number` (highlighter.hpp:165-214); `sep` is `none` for the overload without a digit
separator. -/
def highlightNumber (r : NumberResult) (sep : Option UInt8) : HM σ Unit :=
  if r.erroneous then emitAdv r.length .error
  else do
    emitAdvIf (r.sign + r.pre) .number_decor
    numberDigits r.integer sep
    emitAdvIf r.radixPoint .number_delim
    numberDigits r.fractional sep
    emitAdvIf r.exponentSep .number_delim
    numberDigits r.exponentDigits sep
    emitAdvIf r.suffix .number_decor

/-- `emit` if the length is not zero. -/
def emitIf (beg n : Nat) (ty : HT) : HM σ Unit := if n ≠ 0 then emit beg n ty else pure ()

/-- `highlight_enclosed` (highlighter.hpp:243-272). -/
def highlightEnclosed (e : Enclosed) (prefixLen suffixLen : Nat) (content delim : HT) :
    HM σ Unit := do
  dassert (e.length != 0)
  dassert (prefixLen ≤ e.length)
  dassert (!e.terminated || prefixLen + suffixLen ≤ e.length)
  let i ← index
  emit i prefixLen delim
  if e.terminated then do
    let contentLen := e.length - prefixLen - suffixLen
    emitIf (i + prefixLen) contentLen content
    emit (i + prefixLen + contentLen) suffixLen delim
    advance e.length
  else do
    let contentLen := e.length - prefixLen
    emitIf (i + prefixLen) contentLen content
    advance e.length

/-- `highlight_enclosed_comment` (highlighter.hpp:274-284). -/
def highlightEnclosedComment (e : Enclosed) (prefixLen suffixLen : Nat) : HM σ Unit :=
  highlightEnclosed e prefixLen suffixLen .comment .comment_delim

/-- Constructing a highlighter and calling it: the initial members (highlighter.hpp:38-59). -/
def runAll (m : HM σ Bool) (ext : σ) : Highlight := fun debug opts src =>
  match m ⟨debug, opts, src⟩ ⟨src, 0, [], ext⟩ with
  | .ok (good, s) => .ok (good, s.out)
  | .error f => .error f

/-- The same without `options.coalescing`, which is read only by `emit` (highlighter.hpp:86) and its copy in
cpp.cpp:621, and not by the highlighters themselves.  The model leaves it to `deliver`. -/
def run (m : HM σ Bool) (ext : σ) : Highlight := fun debug opts src => runAll m ext debug opts.seen src

end HM

end Ulight
