import Verif.Spec.Lang.Js
import Verif.Spec.Stream

/-!
# Specification of the highlighting of JSON
-/

namespace Ulight.Spec.Json

def Digit (c : UInt8) : Prop := 0x30 ≤ c.toNat ∧ c.toNat ≤ 0x39

instance (c : UInt8) : Decidable (Digit c) := by unfold Digit; infer_instance

def HexDigit (c : UInt8) : Prop := Digit c ∨ (0x61 ≤ c.toNat ∧ c.toNat ≤ 0x66) ∨
  (0x41 ≤ c.toNat ∧ c.toNat ≤ 0x46)

/-- A nonempty string of digits. -/
def Digits (s : Bytes) : Prop := s ≠ [] ∧ ∀ c ∈ s, Digit c

/-- `int` of RFC 8259: no leading zeros. -/
def Int (s : Bytes) : Prop := Digits s ∧ (s.head? = some c!"0" → s = b!"0")

/-- `[ frac ]` -/
def Frac (s : Bytes) : Prop := s = [] ∨ ∃ ds, s = c!"." :: ds ∧ Digits ds

/-- `[ exp ]` -/
def Exp (s : Bytes) : Prop := s = [] ∨ ∃ e sign ds, s = e :: (sign ++ ds) ∧ e ∈ b!"eE" ∧
  sign ∈ [[], b!"+", b!"-"] ∧ Digits ds

/-- A number of RFC 8259. -/
def Number (s : Bytes) : Prop := ∃ minus int frac exp, s = minus ++ int ++ frac ++ exp ∧
  minus ∈ [[], b!"-"] ∧ Int int ∧ Frac frac ∧ Exp exp

/-- An escape sequence. -/
inductive EscapeSeq : Bytes → Prop where
  | simple {c} (h : c ∈ b!"\"\\/bfnrt") : EscapeSeq [c!"\\", c]
  | unicode {ds} (h : ds.length = 4) (hex : ∀ c ∈ ds, HexDigit c) : EscapeSeq (b!"\\u" ++ ds)

/-- A byte that stands for itself in a string. -/
def Plain (c : UInt8) : Prop := 0x20 ≤ c.toNat ∧ c ≠ c!"\"" ∧ c ≠ c!"\\"

/-! ## What every token says about its text -/

/-- `Tok u ty`: a token of type `ty` may cover the text `u`. -/
inductive Tok : Bytes → HT → Prop where
  | brace {u} (h : u ∈ [b!"{", b!"}"]) : Tok u .symbol_brace
  | square {u} (h : u ∈ [b!"[", b!"]"]) : Tok u .symbol_square
  | punc {u} (h : u ∈ [b!",", b!":"]) : Tok u .symbol_punc
  | commentDelim {u} (h : u ∈ [b!"//", b!"/*", b!"*/"]) : Tok u .comment_delim
  | comment {u} : Tok u .comment
  | quote : Tok b!"\"" .string_delim
  | string {u} (h : ∀ c ∈ u, Plain c) : Tok u .string
  /-- names of members, with their quotation marks -/
  | attr {u} (h : ∀ c ∈ u, Plain c ∨ c = c!"\"") : Tok u .markup_attr
  | escape {u} (h : EscapeSeq u) : Tok u .string_escape
  | number {u} (h : Number u) : Tok u .number
  | bool {u} (h : u ∈ [b!"true", b!"false"]) : Tok u .bool_
  | null : Tok b!"null" .null
  | error {u} : Tok u .error

/-- Text between tokens is whitespace. -/
def rules : Rules :=
  Rules.text Tok (fun u => ∀ c ∈ u, c ∈ ([0x20, 0x09, 0x0A, 0x0C, 0x0D] : Bytes))

/-! ## Valid documents and their tokens

Tokens are relative to the beginning of the text. -/

/-- Whitespace and comments (`cm` says whether comments are allowed). -/
inductive Ws (cm : Bool) : Bytes → List Token → Prop where
  | nil : Ws cm [] []
  | char {c s ts} (h : c ∈ ([0x20, 0x09, 0x0A, 0x0D] : Bytes)) (rest : Ws cm s ts) :
      Ws cm (c :: s) (shift 1 ts)
  /-- a line comment and the line feed or carriage return after it -/
  | line {body c s ts} (hcm : cm = true) (hc : c ∈ ([0x0A, 0x0D] : Bytes))
      (hb : ∀ k, ¬ Js.LineTerminatorAt body k) (rest : Ws cm s ts) :
      Ws cm (b!"//" ++ body ++ c :: s)
        (⟨0, 2, .comment_delim⟩ :: opt 2 body .comment ++ shift (body.length + 3) ts)
  | block {body s ts} (hcm : cm = true)
      (hb : ∀ k, OccursAt b!"*/" (body ++ b!"*/") k → body.length ≤ k) (rest : Ws cm s ts) :
      Ws cm (b!"/*" ++ body ++ b!"*/" ++ s)
        (⟨0, 2, .comment_delim⟩ :: opt 2 body .comment ++
          ⟨body.length + 2, 2, .comment_delim⟩ :: shift (body.length + 4) ts)

/-- The content of a string. -/
inductive Item where
  | char (c : UInt8)
  | esc (e : Bytes)

def Item.Valid : Item → Prop
  | .char c => Plain c
  | .esc e => EscapeSeq e

def Item.text : Item → Bytes
  | .char c => [c]
  | .esc e => e

def content (items : List Item) : Bytes := items.flatMap Item.text

/-- The tokens from a run of plain text of type `ty` on: the run begins at `b`, `u` is its text so
far; after the items, `close` gives the tokens for the last run and the closing quotation mark. -/
def contentTokens (ty : HT) (close : Nat → Bytes → List Token) : Nat → Bytes → List Item → List Token
  | b, u, [] => close b u
  | b, u, .char c :: items => contentTokens ty close b (u ++ [c]) items
  | b, u, .esc e :: items => opt b u ty ++ ⟨b + u.length, e.length, .string_escape⟩ ::
      contentTokens ty close (b + u.length + e.length) [] items

/-- The tokens of a string value: delimiters, runs of plain text, and escape sequences. -/
def stringTokens (items : List Item) : List Token :=
  ⟨0, 1, .string_delim⟩ ::
    contentTokens .string (fun b u => opt b u .string ++ [⟨b + u.length, 1, .string_delim⟩]) 1 [] items

/-- The tokens of the name of a member; runs of plain text include the quotation marks. -/
def nameTokens (items : List Item) : List Token :=
  contentTokens .markup_attr (fun b u => [⟨b, u.length + 1, .markup_attr⟩]) 0 b!"\"" items

/-- `"` content `"` -/
def quoted (items : List Item) : Bytes := b!"\"" ++ content items ++ b!"\""

/-- The syntactic categories with nesting. -/
inductive Kind where
  /-- values; `true`, `false` and `null` only if the argument is true -/
  | value (literals : Bool)
  /-- elements of an array: whitespace around each value, commas between -/
  | elements
  /-- members of an object: whitespace around each part, commas between -/
  | members

/-- `Text cm lits k s ts`: the text `s` is a `k` and has the tokens `ts`.  `lits` says whether
`true`, `false` and `null` may be elements of arrays. -/
inductive Text (cm lits : Bool) : Kind → Bytes → List Token → Prop where
  | string {l items} (h : ∀ i ∈ items, i.Valid) :
      Text cm lits (.value l) (quoted items) (stringTokens items)
  | number {l s} (h : Number s) : Text cm lits (.value l) s [⟨0, s.length, .number⟩]
  | bool {s} (h : s ∈ [b!"true", b!"false"]) :
      Text cm lits (.value true) s [⟨0, s.length, .bool_⟩]
  | null : Text cm lits (.value true) b!"null" [⟨0, 4, .null⟩]
  | emptyObject {l w wt} (h : Ws cm w wt) :
      Text cm lits (.value l) (b!"{" ++ w ++ b!"}")
        (⟨0, 1, .symbol_brace⟩ :: shift 1 wt ++ [⟨w.length + 1, 1, .symbol_brace⟩])
  | object {l m mt} (h : Text cm lits .members m mt) :
      Text cm lits (.value l) (b!"{" ++ m ++ b!"}")
        (⟨0, 1, .symbol_brace⟩ :: shift 1 mt ++ [⟨m.length + 1, 1, .symbol_brace⟩])
  | emptyArray {l w wt} (h : Ws cm w wt) :
      Text cm lits (.value l) (b!"[" ++ w ++ b!"]")
        (⟨0, 1, .symbol_square⟩ :: shift 1 wt ++ [⟨w.length + 1, 1, .symbol_square⟩])
  | array {l m mt} (h : Text cm lits .elements m mt) :
      Text cm lits (.value l) (b!"[" ++ m ++ b!"]")
        (⟨0, 1, .symbol_square⟩ :: shift 1 mt ++ [⟨m.length + 1, 1, .symbol_square⟩])
  /-- one element, and possibly a comma and more elements -/
  | element {w1 t1 v vt w2 t2} (h1 : Ws cm w1 t1) (hv : Text cm lits (.value lits) v vt)
      (h2 : Ws cm w2 t2) :
      Text cm lits .elements (w1 ++ v ++ w2)
        (t1 ++ shift w1.length vt ++ shift (w1 ++ v).length t2)
  | moreElements {e et m mt} (he : Text cm lits .elements e et) (hm : Text cm lits .elements m mt) :
      Text cm lits .elements (e ++ b!"," ++ m)
        (et ++ ⟨e.length, 1, .symbol_punc⟩ :: shift (e.length + 1) mt)
  /-- `ws name ws : ws value ws` -/
  | member {w1 t1 items w2 t2 w3 t3 v vt w4 t4} (h1 : Ws cm w1 t1) (hn : ∀ i ∈ items, i.Valid)
      (h2 : Ws cm w2 t2) (h3 : Ws cm w3 t3) (hv : Text cm lits (.value true) v vt) (h4 : Ws cm w4 t4) :
      Text cm lits .members (w1 ++ quoted items ++ w2 ++ b!":" ++ w3 ++ v ++ w4)
        (t1 ++ shift w1.length (nameTokens items) ++ shift (w1 ++ quoted items).length t2 ++
          ⟨(w1 ++ quoted items ++ w2).length, 1, .symbol_punc⟩ ::
          shift (w1 ++ quoted items ++ w2 ++ b!":").length t3 ++
          shift (w1 ++ quoted items ++ w2 ++ b!":" ++ w3).length vt ++
          shift (w1 ++ quoted items ++ w2 ++ b!":" ++ w3 ++ v).length t4)
  | moreMembers {e et m mt} (he : Text cm lits .members e et) (hm : Text cm lits .members m mt) :
      Text cm lits .members (e ++ b!"," ++ m)
        (et ++ ⟨e.length, 1, .symbol_punc⟩ :: shift (e.length + 1) mt)

/-- `Document cm lits s ts`: `s` is a JSON document with the tokens `ts`. -/
inductive Document (cm lits : Bool) : Bytes → List Token → Prop where
  | mk {w1 t1 v vt w2 t2} (h1 : Ws cm w1 t1) (hv : Text cm lits (.value true) v vt)
      (h2 : Ws cm w2 t2) :
      Document cm lits (w1 ++ v ++ w2) (t1 ++ shift w1.length vt ++ shift (w1 ++ v).length t2)

end Ulight.Spec.Json
