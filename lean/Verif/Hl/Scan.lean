import Verif.Props.Text
import Verif.Props.Parse

/-!
# Facts about the searching functions, as highlighters use them
-/

namespace Ulight

@[simp] theorem startsWith_nil_right (s : Bytes) : startsWith s [] = true := by
  simp [startsWith]

@[simp] theorem startsWith_nil_cons (b : UInt8) (p : Bytes) : startsWith [] (b :: p) = false := by
  simp [startsWith]

@[simp] theorem startsWith_cons_cons (a b : UInt8) (s p : Bytes) :
    startsWith (a :: s) (b :: p) = (b == a && startsWith s p) := rfl

end Ulight

namespace Ulight.Ascii

theorem findLoop_cases (pred : UInt8 → Bool) (neg : Bool) (k : Nat) (s : Bytes) :
    (findLoop pred neg k s).getD (k + s.length) =
      k + (s.takeWhile (fun c => pred c != neg)).length := by
  have := findLoop_eq pred neg k (k + s.length) s rfl
  simpa using this

theorem length_if_start (s : Bytes) (pred : UInt8 → Bool) (k : Nat) (hk : k ≤ s.length) :
    length_if s pred k = k + ((s.drop k).takeWhile pred).length := by
  have h := findLoop_cases pred false k (s.drop k)
  have e : (fun c => pred c != false) = pred := by funext c; cases pred c <;> rfl
  rw [e, List.length_drop, Nat.add_sub_cancel' hk] at h
  exact h

theorem length_if_not_start (s : Bytes) (pred : UInt8 → Bool) (k : Nat) (hk : k ≤ s.length) :
    length_if_not s pred k = k + ((s.drop k).takeWhile (fun c => !pred c)).length := by
  have h := findLoop_cases pred true k (s.drop k)
  have e : (fun c => pred c != true) = (fun c => !pred c) := by funext c; cases pred c <;> rfl
  rw [e, List.length_drop, Nat.add_sub_cancel' hk] at h
  exact h

end Ulight.Ascii
