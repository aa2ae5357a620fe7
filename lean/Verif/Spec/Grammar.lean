import Verif.Spec.Program

/-!
# Phrases and how they are put together
-/

namespace Ulight.Spec

/-- A kind of phrase: `P a ts b` says that the text `a` is such a phrase with the tokens `ts` if the text `b` follows it. -/
abbrev Phrase := Bytes → List Token → Bytes → Prop

namespace Phrase

/-- No text and no tokens. -/
def empty : Phrase := fun a ts _ => a = [] ∧ ts = []

/-- No text, where `C` holds for what follows. -/
def before (C : Bytes → Prop) : Phrase := fun a ts b => a = [] ∧ ts = [] ∧ C b

/-- The text `w` as one token. -/
def word (w : Bytes) (ty : HT) : Phrase := fun a ts _ => a = w ∧ ts = [⟨0, w.length, ty⟩]

/-- One phrase after another. -/
def seq (P Q : Phrase) : Phrase := fun a ts b =>
  ∃ u us v vs, a = u ++ v ∧ ts = us ++ shift u.length vs ∧ P u us (v ++ b) ∧ Q v vs b

@[inherit_doc] infixr:65 " ⬝ " => seq

/-- One phrase or the other. -/
def or (P Q : Phrase) : Phrase := fun a ts b => P a ts b ∨ Q a ts b

/-- The text `w` as one token, if it is there. -/
def maybe (w : Bytes) (ty : HT) : Phrase := or (word w ty) (before fun b => ¬ w <+: b)

/-- Text without tokens, as long as these bytes follow each other. -/
def all (P : UInt8 → Prop) : Phrase := fun a ts b => Longest P (a ++ b) a.length ∧ ts = []

/-- Text as one token, as long as these bytes follow each other, if it is not empty. -/
def run (P : UInt8 → Prop) (ty : HT) : Phrase := fun a ts b => Longest P (a ++ b) a.length ∧ ts = opt 0 a ty

/-- One phrase, where `C` holds for the text and what follows. -/
def when (C : Bytes → Prop) (P : Phrase) : Phrase := fun a ts b => C (a ++ b) ∧ P a ts b

/-- Everything up to `p` or the end of the source, as one token of the type `ty`, if it is not empty. -/
def upTo (p : Bytes) (ty : HT) : Phrase := fun a ts b =>
  (∀ k, k < a.length → ¬ OccursAt p (a ++ b) k) ∧ (b = [] ∨ p <+: b) ∧ ts = opt 0 a ty

/-- Everything up to `p` or the end of the source, without tokens. -/
def skipTo (p : Bytes) : Phrase := fun a ts b =>
  (∀ k, k < a.length → ¬ OccursAt p (a ++ b) k) ∧ (b = [] ∨ p <+: b) ∧ ts = []

/-- Phrases of the kind `P`, which are not empty, one after another, and then a phrase of the kind `Q`. -/
inductive star (P Q : Phrase) : Phrase where
  | last {a ts b} (h : Q a ts b) : star P Q a ts b
  | more {a ts a' us b} (h : P a ts (a' ++ b)) (h0 : a ≠ []) (h' : star P Q a' us b) :
      star P Q (a ++ a') (ts ++ shift a.length us) b

end Phrase

end Ulight.Spec
