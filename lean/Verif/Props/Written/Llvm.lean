import Verif.Hl.Fits
import Verif.Props.Compose.Llvm
import Verif.Spec.Elements.Llvm

/-!
# C57 for LLVM
-/

namespace Ulight.Llvm

open Spec Spec.Llvm

theorem digit_byte (c : UInt8) : isDigit c = true → b!" \t\r\n".contains c = false := by
  revert c; apply forall_byte; decide +kernel

/-- Numbers that begin with a digit. -/
theorem C57_llvm : WrittenNumbers highlight radixes := by
  intro R hR n b hn hb
  obtain ⟨hm, hd, hl, c, r, e, hc⟩ := written_facts' (o := numberOptions) (by decide +kernel) (by decide +kernel) (.inr rfl) hR hn hb
  have key := digit_byte c hc
  have hsep : R.separated = false := by
    simp [radixes] at hR
    rcases hR with rfl | rfl <;> rfl
  simp at key
  rw [← partsEmit_token]
  refine piece_of_step (by intro h; simp [h] at hl) fun debug opts => ok_of_wp ?_
  unfold step consumeAnything expectNumber
  rw [e] at hm ⊢
  simp [key, hc, hm, hl]
  rw [wp_written_iff e (.inr ⟨rfl, hsep⟩) hd]

/-- Hexadecimal integers with a sign. -/
theorem C57_llvm_signed : WrittenNumbers highlight signed := by
  intro R hR n b hn hb
  have fits : signed.all (fun R => FitsRadix numberOptions R && FitsSuffixes numberOptions R) = true := by decide +kernel
  have fits := List.all_eq_true.1 fits R hR
  simp only [Bool.and_eq_true] at fits
  obtain ⟨hm, hd⟩ := number_of_fits fits.1 hn hb (suffix_of_fits fits.2 hn hb) (.inr rfl)
  have hd := separated_of hn hd
  have hsep : R.separated = false := by
    simp [signed] at hR
    rcases hR with rfl | rfl <;> rfl
  obtain ⟨c, r, e, hc⟩ : ∃ c r, n.text ++ b = c :: r ∧ (c = c!"s" ∨ c = c!"u") := by
    have := hn.pre
    simp [signed] at hR
    rcases hR with rfl | rfl
    · exact ⟨c!"s", _, by simp [Written.text, Written.parts, this]; rfl, .inl rfl⟩
    · exact ⟨c!"u", _, by simp [Written.text, Written.parts, this]; rfl, .inr rfl⟩
  have hl : n.text.length ≠ 0 := by
    have := hn.pre
    simp [signed] at hR
    rcases hR with rfl | rfl <;> simp [Written.text, Written.parts, this]
  rw [← partsEmit_token]
  refine piece_of_step (by intro h; simp [h] at hl) fun debug opts => ok_of_wp ?_
  unfold step consumeAnything expectNumber
  rw [e] at hm ⊢
  have hc' : isDigit c = false := by rcases hc with rfl | rfl <;> rfl
  rcases hc with rfl | rfl
  all_goals
    simp [hc', hm, hl]
    rw [wp_written_iff e (.inr ⟨rfl, hsep⟩) hd]

example : Piece highlight b!"1.5e+3" [⟨0, 1, .number⟩, ⟨1, 1, .number_delim⟩, ⟨2, 1, .number⟩,
    ⟨3, 2, .number_delim⟩, ⟨5, 1, .number⟩] b!" x" ∧
    Piece highlight b!"s0xF" [⟨0, 3, .number_decor⟩, ⟨3, 1, .number⟩] b!" x" :=
  ⟨C57_llvm _ (by simp [radixes]; exact .inl rfl)
    { int := [b!"1"], point := b!".", frac := [b!"5"], exp := b!"e+", digits := b!"3" } b!" x"
    ⟨rfl, .inl (by decide), fun _ => .inr (by decide), .inr ⟨by simp, rfl, by decide⟩,
      .inr ⟨⟨_, rfl, c!"e", by decide, b!"+", by decide, rfl⟩, by decide⟩, .inl rfl⟩ (boundary_space _),
   C57_llvm_signed _ (by simp [signed]; exact .inl rfl) { pre := b!"s0x", int := [b!"F"] } b!" x"
    ⟨rfl, .inl (by decide), nofun, .inl ⟨rfl, rfl⟩, .inl ⟨rfl, rfl⟩, .inl rfl⟩ (boundary_space _)⟩

/-- The prefix `0xK` of hexadecimal floating-point numbers is not recognised: `0x` is found first, and is an error. -/
theorem C57_llvm_prefix : ¬ WrittenNumbers highlight [{ pre := b!"0xK", base := 16, separated := false }] := by
  intro h
  refine not_piece [] [⟨0, 2, .error, .normal⟩, ⟨2, 2, .keyword, .normal⟩] ?_ ?_ ?_
    (h _ (by simp; rfl) { pre := b!"0xK", int := [b!"1"] } []
      ⟨rfl, .inl (by decide), nofun, .inl ⟨rfl, rfl⟩, .inl ⟨rfl, rfl⟩, .inl rfl⟩ (by simp [Boundary]))
  · decide +kernel
  · decide +kernel
  · decide


end Ulight.Llvm
