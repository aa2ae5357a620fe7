import Verif.Emit

/-!
# Specification vocabulary for token streams

Nothing here refers to buffers or to how tokens are produced.
-/

namespace Ulight.Spec

/-- Token `t` covers source position `p`. -/
def Covers (t : Token) (p : Nat) : Prop := t.beg ≤ p ∧ p < t.beg + t.len

instance (t : Token) (p : Nat) : Decidable (Covers t p) := by unfold Covers; infer_instance

/-- The highlight type of source position `p` in a token stream: that of the first token that
covers it, or `none`.  (In a well-formed stream there is at most one such token.) -/
def typeAt : List Token → Nat → Option HT
  | [], _ => none
  | t :: ts, p => if Covers t p then some t.ty else typeAt ts p

/-- Well-formed token streams for a source of length `n`: tokens are non-empty, inside the source,
have a type other than `NONE`, and each one ends before the next one begins.  `lo` is the first
position a token may use. -/
def WellFormedFrom (n : Nat) : Nat → List Token → Prop
  | _, [] => True
  | lo, t :: ts => lo ≤ t.beg ∧ 0 < t.len ∧ t.beg + t.len ≤ n ∧ t.ty ≠ .none ∧
      WellFormedFrom n (t.beg + t.len) ts

/-- Well-formed token streams for a source of length `n`. -/
def WellFormed (n : Nat) (ts : List Token) : Prop := WellFormedFrom n 0 ts

/-- `ts` arises from `es` by repeatedly gluing a token to a directly following one of the same
type; `may e` says whether `e` is allowed to be glued to its predecessor. -/
inductive Glued (may : Emit → Bool) : List Emit → List Token → Prop
  | nil : Glued may [] []
  /-- a new token -/
  | snoc {es ts} (e : Emit) : Glued may es ts → Glued may (es ++ [e]) (ts ++ [⟨e.beg, e.len, e.ty⟩])
  /-- the last token grows -/
  | glue {es ts} {b l : Nat} (e : Emit) : Glued may es (ts ++ [⟨b, l, e.ty⟩]) → b + l = e.beg →
      may e = true → Glued may (es ++ [e]) (ts ++ [⟨b, l + e.len, e.ty⟩])

/-- No two neighbouring tokens of the same type touch each other. -/
def NoTouching : List Token → Prop
  | a :: b :: ts => ¬ (a.ty = b.ty ∧ a.beg + a.len = b.beg) ∧ NoTouching (b :: ts)
  | _ => True

/-- Batches of a stream `xs` through a buffer of capacity `cap`: nothing lost or reordered, no
empty batch, none above the capacity, and all but the last one exactly full. -/
def Batches (cap : Nat) (xs : List α) (bs : List (List α)) : Prop :=
  bs.flatten = xs ∧ (∀ b ∈ bs, 0 < b.length ∧ b.length ≤ cap) ∧ ∀ b ∈ bs.dropLast, b.length = cap

end Ulight.Spec
