import Verif.Hl.Fits
import Verif.Spec.Elements.Rust
import Verif.Props.Compose.Rust

/-!
# C57 for Rust
-/

namespace Ulight.Rust

open Spec Spec.Rust

theorem digit_byte (c : UInt8) : isDigit c = true → (b!"/'\"".contains c || isAlpha c || isWhitespace c.toNat || 128 ≤ c.toNat) = false := by
  revert c; apply forall_byte; decide +kernel

theorem prefix_first : ∀ p ∈ stringPrefixes, ∃ c t, p.1 = c :: t ∧ isDigit c = false := by
  have : stringPrefixes.all (fun p => match p.1 with | c :: _ => !isDigit c | [] => false) = true := by decide +kernel
  intro p hp
  have := List.all_eq_true.1 this p hp
  split at this
  · exact ⟨_, _, by assumption, by simpa using this⟩
  · cases this

/-- Numbers. -/
theorem C57_rust : WrittenNumbers highlight radixes := by
  intro R hR n b hn hb
  have fits : radixes.all (fun R => FitsRadix numberOptions R && ((R.pre = [] && R.base = 10) || startsWith R.pre b!"0") &&
    ((R.pre = []) || R.exps.isNone) &&
    !R.point && (R.ints ++ R.floats).all fun w => (w.all fun c => c.toNat < 0x80 && (isAlpha c || isDigit c)) &&
      (w.head?.any fun c => isAlpha c && c ≠ c!"e" && c ≠ c!"E")) = true := by decide +kernel
  have fits := List.all_eq_true.1 fits R hR
  simp only [Bool.and_eq_true, Bool.or_eq_true, decide_eq_true_eq] at fits
  obtain ⟨⟨⟨⟨f1, f2⟩, f3⟩, f5⟩, f4⟩ := fits
  have alpha : ∀ c : UInt8, isAlpha c = true → CppId.Start c.toNat := by
    unfold CppId.Start
    apply forall_byte; decide +kernel
  have alnum : ∀ c : UInt8, (isAlpha c || isDigit c) = true → CppId.Continue c.toNat := by
    unfold CppId.Continue
    apply forall_byte; decide +kernel
  have hsuf : n.suf = [] ∨ (∀ c ∈ n.suf, c.toNat < 0x80 ∧ CppId.Continue c.toNat) ∧
      ∃ c t, n.suf = c :: t ∧ CppId.Start c.toNat ∧ c ≠ c!"e" ∧ c ≠ c!"E" := by
    rcases hn.suf with h | h
    · exact .inl h
    · have hm : n.suf ∈ R.ints ++ R.floats := by split at h <;> simp [h]
      have := List.all_eq_true.1 f4 _ hm
      simp only [Bool.and_eq_true, List.all_eq_true] at this
      obtain ⟨h1, h2⟩ := this
      refine .inr ⟨fun c hc => ⟨by simpa using (h1 c hc).1, alnum c (h1 c hc).2⟩, ?_⟩
      cases hs : n.suf with
      | nil => simp [hs] at h2
      | cons c t =>
        simp [hs] at h2
        exact ⟨c, t, rfl, alpha c h2.1.1, h2.1.2, h2.2⟩
  obtain ⟨hm, hd⟩ := number_of_fits f1 hn hb (by
    intro hne
    show Cpp.matchIdentifier _ = _
    rcases hsuf with h | ⟨h1, c, t, h2, h3, _⟩
    · rw [h, List.nil_append] at hne ⊢
      exact Cpp.matchIdentifier_boundary hb
    · exact Cpp.matchIdentifier_ascii h1 ⟨c, t, h2, h3⟩ hb) (.inl rfl)
  obtain ⟨c, r, e, hc⟩ := hn.first (by
    rcases f2 with h | h
    · exact .inl h
    · obtain ⟨t, ht⟩ := startsWith_iff.1 h
      exact .inr ⟨t, ht⟩)
  have hc : isDigit c = true := by
    rcases hc with h | ⟨h, _⟩
    · exact h
    · rw [h] at f5; cases f5
  have hd := separated_of hn hd
  have hl : n.text.length ≠ 0 := by simp [e]
  have hm' : matchNumber (n.text ++ b) = .ok n.result := by
    unfold matchNumber
    rw [hm]
    by_cases hi : n.point = [] ∧ n.exp = []
    · have hni : n.result.isNonInteger = false := by
        have : n.digits = [] := by
          rcases hn.exp with h | ⟨⟨_, _, _, _, _, _, h⟩, _⟩
          · exact h.2
          · simp [h] at hi
        simp [NumberResult.isNonInteger, Spec.Written.result, hi, this]
      rcases hsuf with h | ⟨_, c', t', h2, _, h3, h4⟩
      · simp only [hni]
        simp [Spec.Written.result, h]
      · have : ((n.text ++ b).drop (n.result.length - n.result.suffix)).take n.result.suffix = c' :: t' := by
          have ht : n.text = (n.pre ++ joined n.int ++ n.point ++ joined n.frac ++ n.exp ++ n.digits) ++ n.suf := by
            simp [Written.text, Written.parts, joined]
          have hs : n.result.suffix = n.suf.length := rfl
          rw [Spec.Written.result_length, hs, ht, List.append_assoc _ n.suf, List.length_append, Nat.add_sub_cancel,
            List.drop_left, List.take_left, h2]
        simp only [hni, this]
        simp [Spec.Written.result, h2, h3, h4]
    · have hni : n.result.isNonInteger = true := by
        simp [NumberResult.isNonInteger, Spec.Written.result]
        by_cases n.point = [] <;> simp_all
      have hp : n.pre = [] := by
        rcases f3 with h | h
        · rw [hn.pre, h]
        · exfalso
          simp at h
          rcases hn.frac with h1 | ⟨h1, _⟩
          · rcases hn.exp with h2 | ⟨⟨_, h2, _⟩, _⟩
            · exact hi ⟨h1.1, h2.1⟩
            · simp [h] at h2
          · simp [h] at h1
      simp [hni]
      simp [Spec.Written.result, hp]
  have e : n.text ++ b = c :: (r ++ b) := by simp [e]
  generalize r ++ b = r at e
  have key := digit_byte c hc
  simp at key
  obtain ⟨⟨⟨k1, k2⟩, k3⟩, k4⟩ := key
  have h1 : Utf8.length_if (c :: r) isWhitespace = .ok 0 := utf8_length_if_zero
    ((noFirst_ascii k4).2 (by simp [k3]))
  have h2 : Js.matchLineComment (c :: r) = 0 := by simp [Js.matchLineComment, startsWith_cons_cons, Ne.symm k1.1]
  have h3 : Js.matchBlockComment (c :: r) = ⟨0, false⟩ := by
    simp [Js.matchBlockComment, startsWith_cons_cons, Ne.symm k1.1]
  have h4 : classifyStringPrefix (c :: r) = none := by
    unfold classifyStringPrefix
    rw [List.find?_eq_none.2, Option.map_none]
    intro p hpm
    obtain ⟨x, t, e1, e2⟩ := prefix_first p hpm
    rw [e1, startsWith_cons_cons]
    simp
    rintro rfl
    simp [hc] at e2
  have h5 : startsWith (c :: r) b!"b" = false := by
    simp [startsWith_cons_cons]
    rintro rfl
    exact absurd hc (by decide)
  rw [← partsEmit_token]
  refine piece_of_step (by intro h; simp [h] at hl) fun debug opts => ok_of_wp ?_
  unfold step consumeWhitespace expectToken HM.or expectLineComment expectBlockComment expectCharOrByte
    expectStringLiteral expectNumber
  rw [e] at hm' ⊢
  simp
  rw [h1]
  simp
  rw [wp_advance_iff (by simp)]
  simp [HS.adv, h2, h3, h4, h5, k1, hm', hl]
  rw [wp_written_iff e (.inl rfl) hd]

example : Piece highlight b!"0b11u8" [⟨0, 2, .number_decor⟩, ⟨2, 2, .number⟩, ⟨4, 2, .number_decor⟩] b!" x" :=
  C57_rust _ (by simp [radixes]; exact .inr (.inl rfl)) { pre := b!"0b", int := [b!"11"], suf := b!"u8" } b!" x"
    ⟨rfl, .inl (by decide), nofun, .inl ⟨rfl, rfl⟩, .inl ⟨rfl, rfl⟩, .inr (by simp [integerSuffixes])⟩ (boundary_space _)

end Ulight.Rust
