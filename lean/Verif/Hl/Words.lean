import Verif.Spec.Lang.Common
import Verif.Spec.Words

/-!
# Tables with the same words
-/

namespace Ulight

open Spec

/-- The tables have the same entries. -/
def sameWords {α : Type} [BEq α] (a b : List α) : Bool := a.all (b.contains ·) && b.all (a.contains ·)

theorem sameWords_iff {α : Type} [BEq α] [LawfulBEq α] {a b : List α} (h : sameWords a b = true) (x : α) :
    x ∈ a ↔ x ∈ b := by
  simp only [sameWords, Bool.and_eq_true, List.all_eq_true, List.contains_iff_mem] at h
  exact ⟨h.1 x, h.2 x⟩

theorem longestIn_congr {a b : List Bytes} (h : ∀ w, w ∈ a ↔ w ∈ b) {s : Bytes} {n : Nat} (hl : LongestIn a s n) :
    LongestIn b s n :=
  ⟨(h _).1 hl.1, fun m h1 h2 h3 => hl.2 m h1 h2 ((h _).2 h3)⟩

end Ulight
