import Verif.Types
import Verif.Buffer

/-!
# Emitting tokens into the token buffer

A highlighter writes to the token buffer in exactly two ways: through `Highlighter_Base::emit`
(which may extend the last buffered token) and, for nested languages, through
`out.append_range` on the flushed tokens of a sub-buffer.  It never reads anything from the buffer
except `out.empty()` and `out.back()` inside `emit`.  The model of a highlighter therefore produces
the *sequence of emissions*, and this file replays such a sequence through a buffer of a given
capacity.
-/

namespace Ulight

/-- `ulight_token` (include/ulight/ulight.h:733-740).  `ty` is the enumerator whose value is stored
in the `type` byte (`HT.val`). -/
structure Token where
  beg : Nat
  len : Nat
  ty : HT
  deriving DecidableEq, Repr

/-- `Coalescing::normal`, `Coalescing::forced` (include/ulight/impl/highlighter.hpp:15-24), or
`raw` for a token that is appended without looking at the previous one
(`sub_buffer`, highlighter.hpp:152-162). -/
inductive Mode where
  | normal
  | forced
  | raw
  deriving DecidableEq, Repr

/-- One call of `emit(begin, length, type, coalescing)`. -/
structure Emit where
  beg : Nat
  len : Nat
  ty : HT
  mode : Mode := .normal
  deriving DecidableEq, Repr

/-- The token that an emission stands for when nothing is coalesced. -/
def Emit.token (e : Emit) : Token := ⟨e.beg, e.len, e.ty⟩

/-- `coalescing == Coalescing::forced || options.coalescing` (highlighter.hpp:86). -/
def Emit.mayMerge (coal : Bool) (e : Emit) : Bool :=
  match e.mode with
  | .normal => coal
  | .forced => true
  | .raw => false

/-- `Highlight_Type(out.back().type) == type && out.back().begin + out.back().length == begin`
(highlighter.hpp:88-89). -/
def touches (t : Token) (e : Emit) : Bool := t.ty == e.ty && t.beg + t.len == e.beg

/-- `out.back().length += length` (highlighter.hpp:91). -/
def Token.extend (t : Token) (e : Emit) : Token := { t with len := t.len + e.len }

/-- The buffer part of `Highlighter_Base::emit` (highlighter.hpp:86-95). -/
def Buf.emit (coal : Bool) (b : Buf Token) (e : Emit) : Except Fault (Buf Token) :=
  match b.data.getLast? with
  | some t =>
    if e.mayMerge coal && touches t e then
      .ok { b with data := b.data.dropLast ++ [t.extend e] }
    else b.push e.token
  | none => b.push e.token

/-- All emissions of a highlighter, in order. -/
def replay (coal : Bool) : List Emit → Buf Token → Except Fault (Buf Token)
  | [], b => .ok b
  | e :: es, b =>
    match b.emit coal e with
    | .ok b' => replay coal es b'
    | .error f => .error f

/-- Construct the buffer, run the highlighter, flush (ulight.cpp:421-440): the batches that
`flush_tokens` receives. -/
def deliver (coal : Bool) (cap : Nat) (es : List Emit) : Except Fault (List (List Token)) :=
  match Buf.new cap with
  | .error f => .error f
  | .ok b =>
    match replay coal es b with
    | .ok b' => .ok b'.flush.flushed
    | .error f => .error f

end Ulight
