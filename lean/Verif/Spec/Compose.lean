import Verif.Spec.Stream
import Verif.Spec.Lang.Common
import Verif.Spec.Parse
import Verif.Api

/-!
# Highlighting a text piece by piece
-/

namespace Ulight.Spec

/-- The text `a` at the beginning of a text gets the tokens `ts`, and the rest of the text, `b`, is highlighted as if
it stood alone. -/
def Piece (hl : Highlight) (a : Bytes) (ts : List Token) (b : Bytes) : Prop :=
  ∀ debug opts es, hl debug opts b = .ok (true, es) →
    ∃ es', hl debug opts (a ++ b) = .ok (true, es') ∧
      es'.map Emit.token = ts ++ shift a.length (es.map Emit.token)

/-- Comments that begin with `mark` and extend to the end of the line.  `line s n` says that the first line of `s` has
the length `n`. -/
def LineComments (hl : Highlight) (mark : Bytes) (line : Bytes → Nat → Prop) : Prop :=
  ∀ t b, line (t ++ b) t.length →
    Piece hl (mark ++ t) (⟨0, mark.length, .comment_delim⟩ :: opt mark.length t .comment) b

/-- The same for languages in which the end of the line, `e`, belongs to the comment. -/
def CommentLines (hl : Highlight) (mark : Bytes) : Prop :=
  ∀ t e b, FirstLine (t ++ e ++ b) t e b →
    Piece hl (mark ++ t ++ e) (⟨0, mark.length, .comment_delim⟩ :: opt mark.length t .comment) b

/-- Texts between `o` and the next `c`.  The delimiters have the type `delim`, and the text between them has the type
`content`.  `P t b` says which texts `t` are meant, where `b` is what follows the closing delimiter. -/
def Enclosures (hl : Highlight) (o c : Bytes) (P : Bytes → Bytes → Prop) (delim content : HT) : Prop :=
  ∀ t b, P t b → UpTo c (t ++ c ++ b) t.length →
    Piece hl (o ++ t ++ c)
      ([⟨0, o.length, delim⟩] ++ opt o.length t content ++ [⟨o.length + t.length, c.length, delim⟩]) b

/-- The text contains none of the given bytes. -/
def Without (xs t : Bytes) : Prop := ∀ x ∈ t, x ∉ xs

/-- Words: what satisfies `word s n` (the first `n` bytes of `s` are a word) is highlighted as the list says, and as
`other` if it is not in the list. -/
def Identifiers (hl : Highlight) (word : Bytes → Nat → Prop) (words : List (Bytes × HT)) (other : HT) : Prop :=
  ∀ w b, word (w ++ b) w.length →
    (∀ ty, (w, ty) ∈ words → Piece hl w [⟨0, w.length, ty⟩] b) ∧
    ((∀ ty, (w, ty) ∉ words) → Piece hl w [⟨0, w.length, other⟩] b)

end Ulight.Spec
