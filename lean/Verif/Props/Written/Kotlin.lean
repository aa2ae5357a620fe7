import Verif.Hl.Fits
import Verif.Props.Compose.Kotlin
import Verif.Spec.Elements.Kotlin

/-!
# C57 for Kotlin
-/

namespace Ulight.Kotlin

open Spec Spec.Kotlin

theorem digit_byte (c : UInt8) : isDigit c = true ∨ c = c!"." → (Python.isWhitespace c || b!"/'\"{}".contains c) = false := by
  revert c; apply forall_byte; decide +kernel

/-- Numbers. -/
theorem C57_kotlin : WrittenNumbers highlight radixes := by
  intro R hR n b hn hb
  obtain ⟨hm, hd, hl, c, r, e, hc⟩ := written_facts (o := numberOptions) (by decide +kernel) (.inl rfl) hR hn hb
  have hm' : matchNumber (n.text ++ b) = n.result := by
    unfold matchNumber
    rw [hm]
    have h1 : joined n.frac = [] → n.point = [] := by
      intro h
      rcases hn.frac with h' | ⟨_, _, h', h2, _⟩
      · exact h'.1
      · exact absurd h (joined_ne h' fun g hg => (h2 g hg).1)
    have h2 : n.pre = [] ∨ n.point = [] ∧ n.frac = [] := by
      rcases hn.frac with h' | ⟨h', _⟩
      · exact .inr h'
      · rw [hn.pre]
        simp [radixes] at hR
        rcases hR with rfl | rfl | rfl | rfl | rfl <;> simp at h' ⊢
    have h3 : ((((joined n.frac).length != 0 || n.point.length != 0) && n.pre.length != 0)) = false := by
      rcases h2 with h | ⟨h, h'⟩ <;> simp [*]
    have h4 : ¬ (n.point.length ≠ 0 ∧ (joined n.frac).length = 0 ∧ (n.text ++ b)[n.text.length]? = some c!".") := by
      rintro ⟨h, h', _⟩
      exact h (by simp [h1 (List.length_eq_zero_iff.1 h')])
    simp only [Spec.Written.result, h3, Bool.or_false, h4]
    rfl
  have key := digit_byte c (hc.imp_right And.right)
  simp only [Bool.or_eq_false_iff] at key
  obtain ⟨k1, k2⟩ := key
  simp at k2
  have h1 := length_if_cons_neg (t := r) k1
  have h2 : Js.matchLineComment (c :: r) = 0 := by simp [Js.matchLineComment, startsWith_cons_cons, Ne.symm k2.1]
  have h3 : Js.matchBlockComment (c :: r) = ⟨0, false⟩ := by
    simp [Js.matchBlockComment, startsWith_cons_cons, Ne.symm k2.1]
  have h4 : terminator (c :: r) = [] := by
    simp [terminator, startsWith_cons_cons, Ne.symm k2.2.1, Ne.symm k2.2.2.1]
  rw [← partsEmit_token]
  refine piece_of_token (by intro h; simp [h] at hl) fun m debug opts => ?_
  unfold tokensStep consumeWhitespace expectToken HM.or expectLineComment expectBlockComment
    expectStringOrCharacter expectNumber
  rw [e] at hm' ⊢
  simp
  rw [h1, wp_advance_iff (by simp)]
  simp [HS.adv, h2, h3, h4, k2, hm', hl]
  rw [wp_written_iff e (.inl rfl) hd]

example : Piece highlight b!"1.5e+3f" [⟨0, 1, .number⟩, ⟨1, 1, .number_delim⟩, ⟨2, 1, .number⟩,
    ⟨3, 2, .number_delim⟩, ⟨5, 1, .number⟩, ⟨6, 1, .number_decor⟩] b!" x" :=
  C57_kotlin _ (by simp [radixes]; exact .inl rfl)
    { int := [b!"1"], point := b!".", frac := [b!"5"], exp := b!"e+", digits := b!"3", suf := b!"f" } b!" x"
    ⟨rfl, .inl (by decide), fun _ => .inr (by decide), .inr ⟨by simp, rfl, by decide⟩,
      .inr ⟨⟨_, rfl, c!"e", by decide, b!"+", by decide, rfl⟩, by decide⟩, .inr (by simp)⟩ (boundary_space _)

/-- The suffix `UL` is not recognised: `U` is found first, and `L` is highlighted as a name. -/
theorem C57_kotlin_suffix : ¬ WrittenNumbers highlight [{ exps := some b!"eE", ints := [b!"UL"] }] := by
  intro h
  refine not_piece [] [⟨0, 1, .number, .normal⟩, ⟨1, 1, .number_decor, .normal⟩, ⟨2, 1, .name, .normal⟩] ?_ ?_ ?_
    (h _ (by simp; rfl) { int := [b!"1"], suf := b!"UL" } []
      ⟨rfl, .inl (by decide), fun _ => .inr (by decide), .inl ⟨rfl, rfl⟩, .inl ⟨rfl, rfl⟩, .inr (by simp)⟩ (by simp [Boundary]))
  · decide +kernel
  · decide +kernel
  · decide

end Ulight.Kotlin
