import Verif.Hl.ProgramIn

/-!
# Texts that are sequences of lexical elements

If some element begins at every position in every state, then every text is a sequence of elements.
-/

namespace Ulight

open Spec

variable {σ : Type}

theorem total_of {E : σ → Bytes → List Token → Bytes → σ → Prop}
    (h : ∀ x src, src ≠ [] → ∃ a ts b y, src = a ++ b ∧ a ≠ [] ∧ E x a ts b y) (src : Bytes) (x : σ) :
    ∃ ts, ProgramIn E x src ts := by
  induction hn : src.length using Nat.strongRecOn generalizing src x with
  | ind n ih =>
    by_cases he : src = []
    · subst he
      exact ⟨[], .nil⟩
    · obtain ⟨a, ts, b, y, rfl, ha, hE⟩ := h x src he
      have := List.length_pos_iff.2 ha
      obtain ⟨us, hu⟩ := ih b.length (by simp at hn; omega) b y rfl
      exact ⟨_, .cons hE hu⟩

/-- The text up to the first position with a property that the end of the text has. -/
theorem split_where {P : Bytes → Prop} (h : P []) (s : Bytes) : ∃ t b, s = t ++ b ∧ Plain (fun s => ¬ P s) t b ∧ P b := by
  induction s with
  | nil => exact ⟨[], [], rfl, by simp [Plain], h⟩
  | cons c s ih =>
    by_cases hc : P (c :: s)
    · exact ⟨[], c :: s, rfl, by simp [Plain], hc⟩
    · obtain ⟨t, b, rfl, h1, h2⟩ := ih
      refine ⟨c :: t, b, rfl, ?_, h2⟩
      intro k hk
      cases k with
      | zero => exact hc
      | succ k => exact h1 k (by simpa using hk)

/-- The text up to the first position with a property that the end of the text has, if it is not empty. -/
theorem split_first {P : Bytes → Prop} (h : P []) {s : Bytes} (hs : ¬ P s) :
    ∃ t b, s = t ++ b ∧ t ≠ [] ∧ Plain (fun s => ¬ P s) t b ∧ P b := by
  obtain ⟨t, b, rfl, h1, h2⟩ := split_where h s
  refine ⟨t, b, rfl, ?_, h1, h2⟩
  rintro rfl
  exact hs h2

/-- The longest sequence of characters with a property. -/
theorem longest_split (P : UInt8 → Prop) (s : Bytes) : ∃ t b, s = t ++ b ∧ Longest P (t ++ b) t.length := by
  classical
  refine ⟨s.takeWhile (fun c => decide (P c)), s.dropWhile (fun c => decide (P c)), by simp, ?_⟩
  rw [List.takeWhile_append_dropWhile]
  exact takeWhile_longest _ P (by simp) s

theorem Spec.Longest.ne_nil {P : UInt8 → Prop} {c : UInt8} {t b s : Bytes} (h : Longest P (t ++ b) t.length) (e : c :: s = t ++ b)
    (hc : P c) : t ≠ [] := by
  rintro rfl
  rw [List.nil_append] at h e
  exact h.2 c (by rw [← e]; rfl) hc

/-- The text up to a character, or all of it. -/
theorem before_byte (c : UInt8) (s : Bytes) : c ∉ s ∨ ∃ t b, s = t ++ [c] ++ b ∧ c ∉ t := by
  induction s with
  | nil => simp
  | cons d s ih =>
    by_cases hd : d = c
    · exact .inr ⟨[], s, by simp [hd], by simp⟩
    · rcases ih with h | ⟨t, b, rfl, h⟩
      · exact .inl (by simp [h, Ne.symm hd])
      · exact .inr ⟨d :: t, b, by simp, by simp [h, Ne.symm hd]⟩

end Ulight
