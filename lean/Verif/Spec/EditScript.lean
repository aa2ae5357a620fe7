import Verif.EditScript

/-!
# Specification of edit scripts

Only the type `Edit` is taken from the model.
-/

namespace Ulight.Spec

/-- `Edits es xs ys`: the script `es` turns the sequence `xs` into `ys`. -/
inductive Edits {α : Type} : List Edit → List α → List α → Prop where
  | nil : Edits [] [] []
  | common {es xs ys} (a : α) (h : Edits es xs ys) : Edits (.common :: es) (a :: xs) (a :: ys)
  | del {es xs ys} (a : α) (h : Edits es xs ys) : Edits (.del :: es) (a :: xs) ys
  | ins {es xs ys} (a : α) (h : Edits es xs ys) : Edits (.ins :: es) xs (a :: ys)

/-- The number of insertions and deletions. -/
def cost (es : List Edit) : Nat := es.countP (· ≠ .common)

/-- Inside every run of changes the deletions come first. -/
def DeletionsFirst (es : List Edit) : Prop := ∀ a b, es ≠ a ++ [.ins, .del] ++ b

end Ulight.Spec
