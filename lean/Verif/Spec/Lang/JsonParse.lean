import Verif.Spec.Lang.Json
import Verif.Lang.JsonParse

/-!
# Specification of `parse_json`

Only the types of options and events are those of the model; they are the public interface.
-/

namespace Ulight.Spec.JsonParse

open Ulight.Json (Pos Payload Event JOptions EscapeParsing)
open Spec.Json (Number EscapeSeq Plain Digit)

/-! ## Positions -/

/-- The position at the byte with the given index: lines are ended by line feeds. -/
def posAt (src : Bytes) (k : Nat) : Pos :=
  let before := src.take k
  ⟨k, before.count 0x0A, (before.reverse.takeWhile (· ≠ 0x0A)).length⟩

/-- Payloads with the number of bytes from the beginning of some text to them. -/
abbrev Marks := List (Nat × Payload)

/-- The events for marks in a text that begins at the index `p`. -/
def events (src : Bytes) (p : Nat) (ms : Marks) : List Event :=
  ms.map fun m => ⟨posAt src (p + m.1), m.2⟩

/-- Marks of a text that begins `p` bytes later. -/
def later (p : Nat) (ms : Marks) : Marks := ms.map fun m => (p + m.1, m.2)

/-! ## Nesting -/

/-- What can be pushed and popped. -/
inductive Opener where
  | object | array | string | property
  deriving DecidableEq, Repr

/-- A state of the reader of events: what is open, innermost first, and whether an error was
reported. -/
structure Nesting where
  stack : List Opener := []
  failed : Bool := false
  deriving DecidableEq, Repr

/-- How an event changes what is open; `none` if it must not happen: a pop must match the innermost
push, literals and escapes are inside strings or properties, properties inside objects, nothing else
is inside strings or properties, and nothing follows an error. -/
def Nesting.next (n : Nesting) (p : Payload) : Option Nesting :=
  if n.failed then none
  else match p, n.stack with
  | .error _, st => some ⟨st, true⟩
  | .pushString, .string :: _ => none
  | .pushString, .property :: _ => none
  | .pushString, st => some ⟨.string :: st, false⟩
  | .popString, .string :: st => some ⟨st, false⟩
  | .popString, _ => none
  | .pushProperty, .object :: st => some ⟨.property :: .object :: st, false⟩
  | .pushProperty, _ => none
  | .popProperty, .property :: st => some ⟨st, false⟩
  | .popProperty, _ => none
  | .literal _, .string :: st => some ⟨.string :: st, false⟩
  | .literal _, .property :: st => some ⟨.property :: st, false⟩
  | .literal _, _ => none
  | .escape _, .string :: st => some ⟨.string :: st, false⟩
  | .escape _, .property :: st => some ⟨.property :: st, false⟩
  | .escape _, _ => none
  | .escapeValue _ _, .string :: st => some ⟨.string :: st, false⟩
  | .escapeValue _ _, .property :: st => some ⟨.property :: st, false⟩
  | .escapeValue _ _, _ => none
  | .escapeUnits _ _ _, .string :: st => some ⟨.string :: st, false⟩
  | .escapeUnits _ _ _, .property :: st => some ⟨.property :: st, false⟩
  | .escapeUnits _ _ _, _ => none
  | .popObject, .object :: st => some ⟨st, false⟩
  | .popObject, _ => none
  | .popArray, .array :: st => some ⟨st, false⟩
  | .popArray, _ => none
  | _, .string :: _ => none
  | _, .property :: _ => none
  | .pushObject, st => some ⟨.object :: st, false⟩
  | .pushArray, st => some ⟨.array :: st, false⟩
  | _, st => some ⟨st, false⟩

/-- Reading a list of events. -/
def Nesting.read (n : Nesting) : List Payload → Option Nesting
  | [] => some n
  | p :: ps => match n.next p with
    | some n' => n'.read ps
    | none => none

/-! ## The grammar and the events of each part -/

/-- Whitespace and comments.  `ff` says whether form feeds are whitespace, `cm` whether comments are
allowed, and `last` whether this is at the end of the text, where a line comment need not be followed
by the end of a line. -/
inductive Ws (ff cm last : Bool) : Bytes → Marks → Prop where
  | nil : Ws ff cm last [] []
  | char {c s ms} (h : c ∈ ([0x20, 0x09, 0x0A, 0x0D] : Bytes) ∨ (ff = true ∧ c = 0x0C))
      (rest : Ws ff cm last s ms) : Ws ff cm last (c :: s) (later 1 ms)
  | line {body c s ms} (hcm : cm = true) (hc : c ∈ ([0x0A, 0x0D] : Bytes))
      (hb : ∀ k, ¬ Js.LineTerminatorAt body k) (rest : Ws ff cm last s ms) :
      Ws ff cm last (b!"//" ++ body ++ c :: s)
        ((0, .lineComment (b!"//" ++ body)) :: later (body.length + 3) ms)
  | lastLine {body} (hcm : cm = true) (hl : last = true) (hb : ∀ k, ¬ Js.LineTerminatorAt body k) :
      Ws ff cm last (b!"//" ++ body) [(0, .lineComment (b!"//" ++ body))]
  | block {body s ms} (hcm : cm = true)
      (hb : ∀ k, OccursAt b!"*/" (body ++ b!"*/") k → body.length ≤ k) (rest : Ws ff cm last s ms) :
      Ws ff cm last (b!"/*" ++ body ++ b!"*/" ++ s)
        ((0, .blockComment (b!"/*" ++ body ++ b!"*/")) :: later (body.length + 4) ms)

/-- The value of a hexadecimal digit. -/
def hexDigit (c : UInt8) : Nat :=
  if c.toNat ≤ 0x39 then c.toNat - 0x30 else if c.toNat ≤ 0x46 then c.toNat - 0x37 else c.toNat - 0x57

/-- The value of an escape sequence. -/
inductive EscapeValue : Bytes → Nat → Prop where
  | quote : EscapeValue b!"\\\"" 0x22
  | backslash : EscapeValue b!"\\\\" 0x5C
  | slash : EscapeValue b!"\\/" 0x2F
  | backspace : EscapeValue b!"\\b" 0x08
  | formFeed : EscapeValue b!"\\f" 0x0C
  | lineFeed : EscapeValue b!"\\n" 0x0A
  | carriageReturn : EscapeValue b!"\\r" 0x0D
  | tab : EscapeValue b!"\\t" 0x09
  | unicode {a b c d : UInt8} (h : ∀ x ∈ [a, b, c, d], Json.HexDigit x) :
      EscapeValue (b!"\\u" ++ [a, b, c, d])
        (hexDigit a * 4096 + hexDigit b * 256 + hexDigit c * 16 + hexDigit d)

/-- The three forms in which an escape sequence is reported. -/
inductive EscapeReport : EscapeParsing → Bytes → Payload → Prop where
  | none {u} (h : EscapeSeq u) : EscapeReport .none u (.escape u)
  | parse {u v} (h : EscapeValue u v) : EscapeReport .parse u (.escapeValue u v)
  | encode {u v} (h : EscapeValue u v) :
      EscapeReport .parseEncode u (.escapeUnits u v (Utf8.encode8 v))

/-- The content of a string: runs of plain characters and escape sequences. -/
inductive Content (e : EscapeParsing) : Bytes → Marks → Prop where
  | nil : Content e [] []
  | plain {u} (h0 : u ≠ []) (h : ∀ c ∈ u, Plain c) : Content e u [(0, .literal u)]
  | escape {u p s ms} (h : EscapeReport e u p) (rest : Content e s ms) :
      Content e (u ++ s) ((0, p) :: later u.length ms)
  | plainEscape {u v p s ms} (h0 : u ≠ []) (h : ∀ c ∈ u, Plain c) (he : EscapeReport e v p)
      (rest : Content e s ms) :
      Content e (u ++ v ++ s)
        ((0, .literal u) :: (u.length, p) :: later (u ++ v).length ms)

/-- How a number is reported. -/
def IsNumber (parse : Bool) (u : Bytes) (p : Payload) : Prop :=
  if parse then ∃ t, p = .numberValue u t else p = .number u

/-- The syntactic categories with nesting. -/
inductive Kind where
  | value | elements | members
  deriving DecidableEq

/-- `Text ff o k s ms`: the text `s` is a `k` and is reported as `ms`. -/
inductive Text (ff : Bool) (o : JOptions) : Kind → Bytes → Marks → Prop where
  | string {s ms} (h : Content o.escapes s ms) :
      Text ff o .value (b!"\"" ++ s ++ b!"\"")
        ((0, .pushString) :: later 1 ms ++ [(s.length + 1, .popString)])
  | number {s p} (h : Number s) (hp : IsNumber o.parseNumbers s p) : Text ff o .value s [(0, p)]
  | true_ : Text ff o .value b!"true" [(0, .boolean true)]
  | false_ : Text ff o .value b!"false" [(0, .boolean false)]
  | null : Text ff o .value b!"null" [(0, .null)]
  | emptyObject {w ms} (h : Ws ff o.allowComments false w ms) :
      Text ff o .value (b!"{" ++ w ++ b!"}")
        ((0, .pushObject) :: later 1 ms ++ [(w.length + 1, .popObject)])
  | object {m ms} (h : Text ff o .members m ms) :
      Text ff o .value (b!"{" ++ m ++ b!"}")
        ((0, .pushObject) :: later 1 ms ++ [(m.length + 1, .popObject)])
  | emptyArray {w ms} (h : Ws ff o.allowComments false w ms) :
      Text ff o .value (b!"[" ++ w ++ b!"]")
        ((0, .pushArray) :: later 1 ms ++ [(w.length + 1, .popArray)])
  | array {m ms} (h : Text ff o .elements m ms) :
      Text ff o .value (b!"[" ++ m ++ b!"]")
        ((0, .pushArray) :: later 1 ms ++ [(m.length + 1, .popArray)])
  | element {w1 m1 v mv w2 m2} (h1 : Ws ff o.allowComments false w1 m1) (hv : Text ff o .value v mv)
      (h2 : Ws ff o.allowComments false w2 m2) :
      Text ff o .elements (w1 ++ v ++ w2)
        (m1 ++ later w1.length mv ++ later (w1 ++ v).length m2)
  | moreElements {a ma b mb} (h1 : Text ff o .elements a ma) (h2 : Text ff o .elements b mb) :
      Text ff o .elements (a ++ b!"," ++ b) (ma ++ later (a.length + 1) mb)
  | member {w1 m1 n mn w2 m2 w3 m3 v mv w4 m4} (h1 : Ws ff o.allowComments false w1 m1)
      (hn : Content o.escapes n mn) (h2 : Ws ff o.allowComments false w2 m2)
      (h3 : Ws ff o.allowComments false w3 m3) (hv : Text ff o .value v mv)
      (h4 : Ws ff o.allowComments false w4 m4) :
      Text ff o .members (w1 ++ (b!"\"" ++ n ++ b!"\"") ++ w2 ++ b!":" ++ w3 ++ v ++ w4)
        (m1 ++ later w1.length ((0, .pushProperty) :: later 1 mn ++ [(n.length + 1, .popProperty)]) ++
          later (w1 ++ (b!"\"" ++ n ++ b!"\"")).length m2 ++
          later (w1 ++ (b!"\"" ++ n ++ b!"\"") ++ w2 ++ b!":").length m3 ++
          later (w1 ++ (b!"\"" ++ n ++ b!"\"") ++ w2 ++ b!":" ++ w3).length mv ++
          later (w1 ++ (b!"\"" ++ n ++ b!"\"") ++ w2 ++ b!":" ++ w3 ++ v).length m4)
  | moreMembers {a ma b mb} (h1 : Text ff o .members a ma) (h2 : Text ff o .members b mb) :
      Text ff o .members (a ++ b!"," ++ b) (ma ++ later (a.length + 1) mb)

/-- `Document ff o s ms`: `s` is a JSON document that is reported as `ms`. -/
inductive Document (ff : Bool) (o : JOptions) : Bytes → Marks → Prop where
  | mk {w1 m1 v mv w2 m2} (h1 : Ws ff o.allowComments false w1 m1) (hv : Text ff o .value v mv)
      (h2 : Ws ff o.allowComments true w2 m2) :
      Document ff o (w1 ++ v ++ w2) (m1 ++ later w1.length mv ++ later (w1 ++ v).length m2)

/-- The text that an event hands to the visitor. -/
def textOf : Payload → Option Bytes
  | .lineComment t => some t
  | .blockComment t => some t
  | .literal t => some t
  | .escape t => some t
  | .escapeValue t _ => some t
  | .escapeUnits t _ _ => some t
  | .number t => some t
  | .numberValue t _ => some t
  | _ => none

def isBlockComment : Payload → Bool
  | .blockComment _ => true
  | _ => false

/-- Events other than those for block comments. -/
def noBlocks (es : List Event) : List Event := es.filter fun e => !isBlockComment e.payload

/-- Without the text that `std::strtod` is called with. -/
def withoutArgument : Event → Event
  | ⟨pos, .numberValue t _⟩ => ⟨pos, .numberValue t []⟩
  | e => e

/-- The events other than those for block comments, without the text that `std::strtod` is called
with. -/
def bare (es : List Event) : List Event := (noBlocks es).map withoutArgument

/-! ## Where parsing fails without calling the visitor -/

/-- After the first `i` bytes, a value is expected: they end with one of the given characters and
whitespace, or are only whitespace (if `start` is set). -/
def ExpectedAt (o : JOptions) (src : Bytes) (start : Bool) (after : Bytes) (i : Nat) : Prop :=
  i ≤ src.length ∧ ∃ p w ms, src.take i = p ++ w ∧ Ws true o.allowComments true w ms ∧
    ((start = true ∧ p = []) ∨ ∃ c ∈ after, p.getLast? = some c)

/-- Where a value is expected, there is nothing, or a word that begins like a literal but is none. -/
def Unreported (o : JOptions) (src : Bytes) : Prop :=
  ∃ i, ExpectedAt o src true b!"[,:" i ∧
    (src.drop i = [] ∨ ((∃ c ∈ b!"tfn", (src.drop i).head? = some c) ∧
      ∀ l ∈ [b!"true", b!"false", b!"null"], ¬ l <+: src.drop i))

/-- Where a member is expected, there is no string. -/
def MemberWithoutName (o : JOptions) (src : Bytes) : Prop :=
  ∃ i, ExpectedAt o src false b!"{," i ∧ (src.drop i).head? ≠ some c!"\""

end Ulight.Spec.JsonParse
