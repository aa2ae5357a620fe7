import Verif.Lang.JsCommon
import Verif.Spec.Lang.Js
import Verif.Props.Parse

/-!
# JavaScript comments
-/

namespace Ulight.Js

open Spec Spec.Js

theorem occursAt_zero {p s : Bytes} : OccursAt p s 0 ↔ startsWith s p = true := by
  rw [startsWith_iff]
  constructor
  · rintro ⟨a, b, h, ha⟩
    have : a = [] := by simpa using ha
    subst this
    exact ⟨b, by simpa using h⟩
  · rintro ⟨t, h⟩
    exact ⟨[], t, by simpa using h, rfl⟩

theorem occursAt_succ {p t : Bytes} {c : UInt8} {k : Nat} :
    OccursAt p (c :: t) (k + 1) ↔ OccursAt p t k := by
  constructor
  · rintro ⟨a, b, h, ha⟩
    match a, ha with
    | a0 :: a, ha => exact ⟨a, b, by simp at h; simp [h.2], by simpa using ha⟩
  · rintro ⟨a, b, h, ha⟩
    exact ⟨c :: a, b, by simp [h], by simp [ha]⟩

theorem lineTerminator_zero {s : Bytes} :
    LineTerminatorAt s 0 ↔ startsWithLineTerminator s = true := by
  simp [LineTerminatorAt, lineTerminators, occursAt_zero, startsWithLineTerminator, or_assoc]

theorem lineTerminator_succ {t : Bytes} {c : UInt8} {k : Nat} :
    LineTerminatorAt (c :: t) (k + 1) ↔ LineTerminatorAt t k := by
  simp [LineTerminatorAt, occursAt_succ]

theorem lineCommentLoop_spec (s : Bytes) (n : Nat) :
    ∃ body rest, s = body ++ rest ∧ lineCommentLoop s n = n + body.length ∧
      (∀ k, LineTerminatorAt (body ++ rest) k → body.length ≤ k) ∧
      (rest ≠ [] → LineTerminatorAt (body ++ rest) body.length) := by
  induction s generalizing n with
  | nil => exact ⟨[], [], rfl, rfl, by simp, by simp⟩
  | cons c t ih =>
    unfold lineCommentLoop
    split
    · rename_i h
      exact ⟨[], c :: t, rfl, rfl, by simp, fun _ => lineTerminator_zero.2 h⟩
    · rename_i h
      obtain ⟨body, rest, h1, h2, h3, h4⟩ := ih (n + 1)
      refine ⟨c :: body, rest, by simp [h1], by rw [h2]; simp; omega, ?_, ?_⟩
      · intro k hk
        cases k with
        | zero =>
          rw [lineTerminator_zero] at hk
          rw [h1] at h
          exact absurd hk h
        | succ k =>
          have := h3 k (lineTerminator_succ.1 hk)
          simpa using this
      · intro hr
        exact lineTerminator_succ.2 (h4 hr)

/-- A line comment ends before the first line terminator. -/
theorem matchLineComment_spec (s : Bytes) :
    (startsWith s b!"//" = false ∧ matchLineComment s = 0) ∨
    ∃ body rest, LineComment s body rest ∧ matchLineComment s = body.length + 2 := by
  unfold matchLineComment
  cases h : startsWith s b!"//" with
  | false => simp
  | true =>
    obtain ⟨t, rfl⟩ := startsWith_iff.1 h
    right
    obtain ⟨body, rest, h1, h2, h3, h4⟩ := lineCommentLoop_spec t 2
    refine ⟨body, rest, ⟨by simp [h1], h3, h4⟩, ?_⟩
    simp only [Bool.not_true, Bool.false_eq_true, if_false]
    rw [show (b!"//" ++ t).drop 2 = t from rfl, h2]
    omega

theorem blockCommentLoop_spec (N : Nat) (s : Bytes) (n : Nat) :
    (∃ body rest, s = body ++ b!"*/" ++ rest ∧ blockCommentLoop N s n = ⟨n + body.length + 2, true⟩ ∧
      ∀ k, OccursAt b!"*/" s k → body.length ≤ k) ∨
    (blockCommentLoop N s n = ⟨N, false⟩ ∧ ∀ k, ¬ OccursAt b!"*/" s k) := by
  induction s generalizing n with
  | nil =>
    right
    refine ⟨rfl, ?_⟩
    rintro k ⟨a, b, h, _⟩
    simp at h
  | cons c t ih =>
    cases t with
    | nil =>
      right
      refine ⟨rfl, ?_⟩
      rintro k ⟨a, b, h, _⟩
      have := congrArg List.length h
      simp at this
      omega
    | cons d t =>
      unfold blockCommentLoop
      split
      · rename_i h
        left
        exact ⟨[], t, by simp [h.1, h.2], rfl, by simp⟩
      · rename_i h
        have h0 : ¬ OccursAt b!"*/" (c :: d :: t) 0 := by
          rw [occursAt_zero, startsWith_iff]
          rintro ⟨u, hu⟩
          simp at hu
          exact h ⟨hu.1, hu.2.1⟩
        rcases ih (n + 1) with ⟨body, rest, h1, h2, h3⟩ | ⟨h1, h2⟩
        · left
          refine ⟨c :: body, rest, by rw [h1]; simp, by rw [h2]; simp; omega, ?_⟩
          intro k hk
          cases k with
          | zero => exact absurd hk h0
          | succ k =>
            have := h3 k (occursAt_succ.1 hk)
            simpa using this
        · right
          refine ⟨h1, ?_⟩
          intro k hk
          cases k with
          | zero => exact h0 hk
          | succ k => exact h2 k (occursAt_succ.1 hk)

/-- A block comment ends with the first `*/`. -/
theorem matchBlockComment_spec (s : Bytes) :
    (startsWith s b!"/*" = false ∧ matchBlockComment s = ⟨0, false⟩) ∨
    (∃ body rest, BlockComment s body rest ∧ matchBlockComment s = ⟨body.length + 4, true⟩) ∨
    (∃ body, OpenComment s body ∧ matchBlockComment s = ⟨body.length + 2, false⟩) := by
  unfold matchBlockComment
  cases h : startsWith s b!"/*" with
  | false => simp
  | true =>
    obtain ⟨t, rfl⟩ := startsWith_iff.1 h
    right
    simp only [Bool.not_true, Bool.false_eq_true, if_false]
    rw [show (b!"/*" ++ t).drop 2 = t from rfl]
    rcases blockCommentLoop_spec (b!"/*" ++ t).length t 2 with ⟨body, rest, h1, h2, h3⟩ | ⟨h1, h2⟩
    · left
      refine ⟨body, rest, ⟨by simp [h1], by rw [← h1]; exact h3⟩, ?_⟩
      rw [h2]
      simp
      omega
    · right
      refine ⟨t, ⟨rfl, h2⟩, ?_⟩
      rw [h1]
      simp

end Ulight.Js
