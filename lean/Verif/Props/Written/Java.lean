import Verif.Spec.Elements.Java
import Verif.Hl.Fits
import Verif.Props.Compose.Java

/-!
# C57 for Java
-/

namespace Ulight.Java

open Spec Spec.Java

theorem digit_byte (c : UInt8) : isDigit c = true ∨ c = c!"." → (isWhitespace c || b!"/'\"".contains c) = false := by
  revert c; apply forall_byte; decide +kernel

/-- Numbers. -/
theorem C57_java : WrittenNumbers highlight radixes := by
  intro R hR n b hn hb
  obtain ⟨hm, hd, hl, c, r, e, hc⟩ := written_facts (o := numberOptions) (by decide +kernel) (.inl rfl) hR hn hb
  have key := digit_byte c (hc.imp_right And.right)
  simp only [Bool.or_eq_false_iff] at key
  obtain ⟨k1, k2⟩ := key
  simp at k2
  have h1 := length_if_cons_neg (t := r) k1
  have h2 : Js.matchLineComment (c :: r) = 0 := by simp [Js.matchLineComment, startsWith_cons_cons, Ne.symm k2.1]
  have h3 : Js.matchBlockComment (c :: r) = ⟨0, false⟩ := by
    simp [Js.matchBlockComment, startsWith_cons_cons, Ne.symm k2.1]
  rw [← partsEmit_token]
  refine piece_of_step (by intro h; simp [h] at hl) fun debug opts => ok_of_wp ?_
  unfold step consumeWhitespace expectToken HM.or expectLineComment expectBlockComment expectStringOrCharacterOrTextBlock expectNumber
  rw [e] at hm ⊢
  simp
  rw [h1, wp_advance_iff (by simp)]
  simp [HS.adv, h2, h3, startsWith_cons_cons, Ne.symm k2.2.1, Ne.symm k2.2.2, hm, hl]
  rw [wp_written_iff e (.inl rfl) hd]

example : Piece highlight b!"0x1.8p+3" [⟨0, 2, .number_decor⟩, ⟨2, 1, .number⟩, ⟨3, 1, .number_delim⟩, ⟨4, 1, .number⟩,
    ⟨5, 2, .number_delim⟩, ⟨7, 1, .number⟩] b!" x" :=
  C57_java _ (by simp [radixes]; exact .inr (.inl rfl))
    { pre := b!"0x", int := [b!"1"], point := b!".", frac := [b!"8"], exp := b!"p+", digits := b!"3" } b!" x"
    ⟨rfl, .inl (by decide), nofun, .inr ⟨by simp, rfl, by decide⟩, .inr ⟨⟨_, rfl, c!"p", by decide, b!"+", by decide, rfl⟩, by decide⟩,
      .inl rfl⟩ (boundary_space _)

example : Piece highlight b!"1_000.5f" [⟨0, 1, .number⟩, ⟨1, 1, .number_delim⟩, ⟨2, 3, .number⟩, ⟨5, 1, .number_delim⟩,
    ⟨6, 1, .number⟩, ⟨7, 1, .number_decor⟩] b!" x" ∧
    Piece highlight b!".5" [⟨0, 1, .number_delim⟩, ⟨1, 1, .number⟩] b!" x" :=
  ⟨C57_java _ (by simp [radixes]; exact .inl rfl)
    { int := [b!"1", b!"000"], point := b!".", frac := [b!"5"], suf := b!"f" } b!" x"
    ⟨rfl, .inl (by decide), fun _ => .inr (by simp), .inr ⟨by simp, rfl, by decide⟩, .inl ⟨rfl, rfl⟩,
      .inr (by simp)⟩ (boundary_space _),
   C57_java _ (by simp [radixes]; exact .inl rfl) { point := b!".", frac := [b!"5"] } b!" x"
    ⟨rfl, .inr ⟨rfl, rfl, by simp⟩, fun _ => .inr (by simp), .inr ⟨by simp, rfl, by decide⟩, .inl ⟨rfl, rfl⟩,
      .inl rfl⟩ (boundary_space _)⟩

end Ulight.Java
