import Verif.Spec.Parse
import Verif.Spec.Stream

/-!
# Specification of the highlighting of EBNF

A grammar is a sequence of rules `name = definition ;`.  Names are on the left-hand side of a rule
until a symbol, a string or a special sequence appears, and on the right-hand side until the rule
ends with `;` or `.`.
-/

namespace Ulight.Spec.Ebnf

/-- Where we are in a rule. -/
structure Place where
  /-- on the left-hand side -/
  left : Bool
  /-- a name has begun since the last symbol -/
  inName : Bool

/-- The beginning of a rule. -/
def start : Place := ⟨true, false⟩

/-- After a symbol on the right-hand side. -/
def right : Place := ⟨false, false⟩

/-- The type of names. -/
def Place.nameType (q : Place) : HT := if q.left then .name_nonterminal_decl else .name_nonterminal

def Letter (c : UInt8) : Prop :=
  (0x41 ≤ c.toNat ∧ c.toNat ≤ 0x5A) ∨ (0x61 ≤ c.toNat ∧ c.toNat ≤ 0x7A)

def Digit (c : UInt8) : Prop := 0x30 ≤ c.toNat ∧ c.toNat ≤ 0x39

/-- Whitespace. -/
def Space (c : UInt8) : Prop := c ∈ ([0x20, 0x09, 0x0D, 0x0A, 0x0B] : Bytes)

/-- Symbols, followed by the text `r`, and their types. -/
inductive Symbol : Bytes → Bytes → HT → Prop where
  | op {c r} (h : c ∈ b!",!|") : Symbol [c] r .symbol_op
  | square {c r} (h : c ∈ b!"[]") : Symbol [c] r .symbol_square
  | brace {c r} (h : c ∈ b!"{}") : Symbol [c] r .symbol_brace
  | braceOpen {r} : Symbol b!"(:" r .symbol_brace
  | braceClose {r} : Symbol b!":)" r .symbol_brace
  | parensOpen {r} : Symbol b!"(/" r .symbol_parens
  | parensClose {r} : Symbol b!"/)" r .symbol_parens
  | starSlashColon {c r} (h : c ∈ b!"*/:") (h' : r.head? ≠ some c!")") : Symbol [c] r .symbol_op
  | open {r} (h' : ∀ c, r.head? = some c → c ∉ b!"*:/") : Symbol b!"(" r .symbol_parens
  | close {r} : Symbol b!")" r .symbol_parens
  | equals {r} : Symbol b!"=" r .symbol_punc

/-- `Step q prev s u ts q'`: at place `q`, after the byte `prev`, the text `u` at the beginning of
`s` receives the tokens `ts` (relative to the beginning of `u`), and the place changes to `q'`. -/
inductive Step : Place → UInt8 → Bytes → Bytes → List Token → Place → Prop where
  | space {q prev c r} (h : Space c) : Step q prev (c :: r) [c] [] q
  | symbol {q prev u r ty} (h : Symbol u r ty) : Step q prev (u ++ r) u [⟨0, u.length, ty⟩] right
  /-- end of a rule -/
  | ruleEnd {q prev c r} (h : c ∈ b!";.") : Step q prev (c :: r) [c] [⟨0, 1, .symbol_punc⟩] start
  /-- a comment extends to the first `*)` -/
  | comment {q prev body r} (first : ∀ k, OccursAt b!"*)" (body ++ b!"*)" ++ r) k → body.length ≤ k) :
      Step q prev (b!"(*" ++ body ++ b!"*)" ++ r) (b!"(*" ++ body ++ b!"*)")
        ([⟨0, 2, .comment_delim⟩] ++ opt 2 body .comment ++ [⟨2 + body.length, 2, .comment_delim⟩]) q
  | openComment {q prev body} (none : ∀ k, ¬ OccursAt b!"*)" body k) :
      Step q prev (b!"(*" ++ body) (b!"(*" ++ body)
        ([⟨0, 2, .comment_delim⟩] ++ opt 2 body .comment) q
  | strayClose {q prev r} : Step q prev (b!"*)" ++ r) b!"*)" [⟨0, 2, .comment_delim⟩] q
  /-- a string extends to the next quotation mark of the same kind -/
  | string {q prev quote body r} (hq : quote ∈ b!"'\"`") (first : quote ∉ body) :
      Step q prev (quote :: (body ++ quote :: r)) (quote :: (body ++ [quote]))
        ([⟨0, 1, .string_delim⟩] ++ opt 1 body .string ++ [⟨1 + body.length, 1, .string_delim⟩]) right
  | openString {q prev quote body} (hq : quote ∈ b!"'\"`") (none : quote ∉ body) :
      Step q prev (quote :: body) (quote :: body)
        ([⟨0, 1, .string_delim⟩] ++ opt 1 body .string) right
  | special {q prev body r} (first : c!"?" ∉ body) :
      Step q prev (c!"?" :: (body ++ c!"?" :: r)) (c!"?" :: (body ++ [c!"?"]))
        [⟨0, body.length + 2, .name_macro⟩] right
  | openSpecial {q prev body} (none : c!"?" ∉ body) :
      Step q prev (c!"?" :: body) (c!"?" :: body) [⟨0, body.length + 1, .name_macro⟩] right
  /-- names -/
  | letter {q prev c r} (h : Letter c ∨ c = c!"_") :
      Step q prev (c :: r) [c] [⟨0, 1, q.nameType⟩] { q with inName := true }
  /-- a digit is part of a name or of a number -/
  | digit {q prev c r} (h : Digit c) :
      Step q prev (c :: r) [c] [⟨0, 1, if q.inName then q.nameType else .number⟩] q
  /-- a hyphen directly after a name is part of it -/
  | hyphen {q prev r} (hq : q.inName = true)
      (h : Letter prev ∨ Digit prev ∨ prev = c!"_" ∨ prev = c!"-") :
      Step q prev (c!"-" :: r) b!"-" [⟨0, 1, q.nameType⟩] q
  | minus {q prev r}
      (h : q.inName = false ∨ ¬ (Letter prev ∨ Digit prev ∨ prev = c!"_" ∨ prev = c!"-")) :
      Step q prev (c!"-" :: r) b!"-" [⟨0, 1, .symbol_op⟩] right
  | other {q prev c r} (h1 : ¬ Space c) (h2 : ¬ Letter c) (h3 : ¬ Digit c)
      (h4 : c ∉ b!",!|*/:[]{}'\"`;.=()?_-") :
      Step q prev (c :: r) [c] [⟨0, 1, .error⟩] q

/-- `Tokens q prev p s ts`: the tokens of `s`, which begins at offset `p`; `prev` is the first byte
of the preceding step. -/
inductive Tokens : Place → UInt8 → Nat → Bytes → List Token → Prop where
  | nil {q prev p} : Tokens q prev p [] []
  | step {q prev p s u c u' us r q' ts} (e : s = u ++ r) (hu : u = c :: u')
      (h : Step q prev s u us q') (rest : Tokens q' c (p + u.length) r ts) :
      Tokens q prev p s (shift p us ++ ts)

end Ulight.Spec.Ebnf
