import Verif.Hl.Fits
import Verif.Spec.Elements.Python
import Verif.Props.Compose.Python

/-!
# C57 for Python
-/

namespace Ulight.Python

open Spec Spec.Python

theorem digit_byte (c : UInt8) : isDigit c = true → (isWhitespace c || b!"#'\"".contains c || isAlpha c || c = c!"_") = false := by
  revert c; apply forall_byte; decide +kernel

/-- Numbers. -/
theorem C57_python : WrittenNumbers highlight radixes := by
  intro R hR n b hn hb
  obtain ⟨hm, hd, hl, c, r, e, hc⟩ := written_facts' (o := numberOptions) (by decide +kernel) (by decide +kernel) (.inl rfl) hR hn hb
  have key := digit_byte c hc
  simp at key
  obtain ⟨⟨⟨k1, k2⟩, k3⟩, k4⟩ := key
  have h1 := length_if_cons_neg (t := r) k1
  have h2 : Bash.matchIdentifier (c :: r) = 0 := by
    have : Bash.isIdStart c = false := by unfold Bash.isIdStart; simp [k3, k4]
    simp [Bash.matchIdentifier, Ascii.length_if_head_tail, this]
  have h3 : Cpp.matchIdentifier (c :: r) = 0 := Cpp.matchIdentifier_digit hc r
  rw [← partsEmit_token]
  refine piece_of_step (by intro h; simp [h] at hl) fun debug opts => ok_of_wp ?_
  unfold step consumeWhitespace HM.or expectComment expectStringLiteral expectIdentifier expectNumber
  rw [e] at hm ⊢
  simp
  rw [h1, wp_advance_iff (by simp)]
  simp [HS.adv, h2, h3, startsWith_cons_cons, Ne.symm k2.1, Ne.symm k2.2.1, Ne.symm k2.2.2, hm, hl]
  rw [wp_written_iff e (.inl rfl) hd]

example : Piece highlight b!"0.5e-3j" [⟨0, 1, .number⟩, ⟨1, 1, .number_delim⟩, ⟨2, 1, .number⟩,
    ⟨3, 2, .number_delim⟩, ⟨5, 1, .number⟩, ⟨6, 1, .number_decor⟩] b!" x" :=
  C57_python _ (by simp [radixes]; exact .inl rfl)
    { int := [b!"0"], point := b!".", frac := [b!"5"], exp := b!"e-", digits := b!"3", suf := b!"j" } b!" x"
    ⟨rfl, .inl (by decide), fun _ => .inl rfl, .inr ⟨by simp, rfl, by decide⟩,
      .inr ⟨⟨_, rfl, c!"e", by decide, b!"-", by decide, rfl⟩, by decide⟩, .inr (by simp)⟩ (boundary_space _)

end Ulight.Python
