import Verif.Hl.Compose
import Verif.Props.Lang.Python

/-!
# C55 for Python
-/

namespace Ulight.Python

open Spec Spec.Python

instance : Uniform consumeWhitespace := by unfold consumeWhitespace; uniform
instance : Uniform expectComment := by unfold expectComment; uniform
instance : Uniform expectIdentifier := by unfold expectIdentifier; uniform
instance (p : StringPrefix) : Uniform (stringEscape p) := by unfold stringEscape; uniform
instance (p : StringPrefix) (t : Bytes) (l : Bool) (n : Nat) : Uniform (stringStep p t l n) := by
  unfold stringStep; uniform
instance (p : StringPrefix) : Uniform (consumeString p) := by unfold consumeString; uniform
instance : Uniform expectStringLiteral := by unfold expectStringLiteral; uniform
instance : Uniform expectNumber := by unfold expectNumber; uniform
instance : Uniform expectSymbol := by unfold expectSymbol; uniform
instance : Uniform step := by unfold step; uniform

/-- Comments extend to the end of the line. -/
theorem C55_python_comments : LineComments highlight b!"#" (Longest InLine) := by
  intro t b h
  have h0 := length_if_cons_neg (c := c!"#") (t := t ++ b) (p := isWhitespace) rfl
  have hm : Ascii.length_if_not (t ++ b) isNewline = t.length := length_if_not_eq newline_iff h (by simp)
  rw [← optEmit_token]
  refine piece_of_step (ts := ⟨0, 1, .comment_delim, .normal⟩ :: optEmit 1 t .comment) (by simp) fun debug opts =>
    ok_of_wp ?_
  unfold step consumeWhitespace HM.or expectComment
  simp
  rw [h0, wp_advance_iff (by simp)]
  simp [HS.adv, startsWith_cons_cons]
  rw [wp_emitAdv_iff (by simp) (by simp) (by simp)]
  simp [HS.emitted, hm]
  rw [wp_emitAdvIf_iff (by simp; omega) (by simp)]
  simp [optEmit]
  omega

example : Piece highlight b!"# x" [⟨0, 1, .comment_delim⟩, ⟨1, 2, .comment⟩] b!"\ny" :=
  C55_python_comments b!" x" b!"\ny" (by simp [Longest, InLine])

theorem wp_string {q t b : Bytes} {l : Bool} {fuel : Nat} {env : HEnv} {s : HS Unit} {Q : Unit → HS Unit → Prop}
    (h : s.rem = t ++ q ++ b) (hs : s.idx + s.rem.length = env.src.length)
    (h1 : c!"\\" ∉ t) (h2 : l = false → 0x0A ∉ t ∧ 0x0D ∉ t) (hu : UpTo q (t ++ q ++ b) t.length) (hq : q ≠ [])
    (h3 : Q () ⟨b, s.idx + (t.length + q.length), s.out ++ optEmit s.idx t .string ++
      [⟨s.idx + t.length, q.length, .string_delim, .normal⟩], s.ext⟩) :
    wp (HM.loop (fuel + 1 + t.length) (stringStep .unicode q l) 0) Q env s := by
  have hp := List.length_pos_iff.2 hq
  refine wp_loop_count t.length (fun k hk => ?_) (wp_loop_last ?_)
  · obtain ⟨x, hx, e⟩ := getElem?_plain (b := q ++ b) hk
    have e1 : x ≠ c!"\\" := fun e => h1 (e ▸ hx)
    have e2 : l = false → x ≠ 0x0A ∧ x ≠ 0x0D := fun hl => ⟨fun e => (h2 hl).1 (e ▸ hx), fun e => (h2 hl).2 (e ▸ hx)⟩
    have e3 := startsWith_before hu hk (by simp)
    unfold stringStep
    simp only [List.append_assoc] at h e3
    simp [h, e, e1, e3]
    rw [if_neg (by grind)]
    simp
  · obtain ⟨x, e4⟩ := getElem?_first (t := t) (b := b) hq
    have e5 : startsWith (q ++ b) q = true := startsWith_iff.2 ⟨b, rfl⟩
    unfold stringStep
    rw [List.append_assoc] at h
    simp [h, e4, e5]
    rw [wp_emitAdvIf_iff hs (by simp [h]), wp_emitAdv_iff (by simp [h] at hs ⊢; omega) hp (by simp [h])]
    exact ⟨(), by simpa [HS.emitted, h, optEmit, Nat.add_assoc] using h3⟩

theorem string_piece {c : UInt8} {l : Bool} {q t b : Bytes} (hc : c = c!"'" ∨ c = c!"\"")
    (hl : startsWith (q ++ t ++ q ++ b) [c, c, c] = l) (hq : q = if l then [c, c, c] else [c])
    (h1 : c!"\\" ∉ t) (h2 : l = false → 0x0A ∉ t ∧ 0x0D ∉ t) (hu : UpTo q (t ++ q ++ b) t.length) :
    Piece highlight (q ++ t ++ q) ((enclosedEmit q t q .string_delim .string).map Emit.token) b := by
  obtain ⟨r, e⟩ : ∃ r, q = c :: r := by
    subst hq
    cases l <;> exact ⟨_, rfl⟩
  have hp : 0 < q.length := by simp [e]
  refine piece_of_step (by simp [e]) fun debug opts => ok_of_wp ?_
  have hd : (q ++ t ++ q ++ b).drop q.length = t ++ q ++ b := by simp
  have hx : (q ++ t ++ q ++ b).length = b.length + q.length + q.length + t.length := by simp; omega
  have ⟨k1, k2, k3, k4, k5⟩ : Ascii.length_if (q ++ t ++ q ++ b) isWhitespace = 0 ∧
      Bash.matchIdentifier (q ++ t ++ q ++ b) = 0 ∧ startsWith (q ++ t ++ q ++ b) b!"#" = false ∧
      (∀ d, startsWith (q ++ t ++ q ++ b) [d] = (d == c)) ∧ startsWith (q ++ t ++ q ++ b) q = true := by
    refine ⟨?_, ?_, ?_, ?_, startsWith_iff.2 ⟨t ++ q ++ b, by simp⟩⟩
    · rw [e]
      exact length_if_cons_neg (by rcases hc with rfl | rfl <;> rfl)
    · rw [e]
      rcases hc with rfl | rfl <;> rfl
    · rw [e]
      rcases hc with rfl | rfl <;> simp [startsWith_cons_cons]
    · rw [e]
      simp [startsWith_cons_cons]
  have h7 : (if c!"'" = c then c!"'" else c!"\"") = c := by rcases hc with rfl | rfl <;> rfl
  have h8 : ¬ (¬ c!"'" = c ∧ ¬ c!"\"" = c) := by rcases hc with rfl | rfl <;> simp
  generalize q ++ t ++ q ++ b = x at *
  have hne : x ≠ [] := by
    rintro rfl
    simp at hx
    omega
  unfold step consumeWhitespace HM.or expectComment expectStringLiteral consumeString
  simp [k1]
  rw [wp_advance_iff (by simp)]
  simp [HS.adv, k2, k3, k4, h8, hne]
  rw [wp_emitAdvIf_iff (by simp) (by simp)]
  simp [k4, h7, hl, ← hq, k5]
  rw [wp_emitAdv_iff (by simp) hp (by simp; omega)]
  rw [hx, show b.length + q.length + q.length + t.length + 1 = b.length + q.length + q.length + 1 + t.length by omega]
  refine ⟨by rcases hc with rfl | rfl <;> simp, ?_⟩
  refine wp_string ?_ ?_ h1 h2 hu (by simp [e]) ?_
  · simpa [HS.emitted] using hd
  · simp [HS.emitted]
    omega
  · simp [HS.emitted, enclosedEmit]

/-- Strings in single quotation marks. -/
theorem C55_python_strings {q : UInt8} (hq : q = c!"'" ∨ q = c!"\"") :
    Enclosures highlight [q] [q] (fun t b => Without b!"\\\r\n" t ∧ (t = [] → ¬ [q] <+: b)) .string_delim .string := by
  intro t b ⟨h, hb⟩ hu
  rw [← enclosed_token]
  exact string_piece hq (by simpa using not_three (notMem_of_upTo hu) hb) rfl (fun hx => by have := h _ hx; simp at this)
    (fun _ => ⟨fun hx => by have := h _ hx; simp at this, fun hx => by have := h _ hx; simp at this⟩) hu

example : Piece highlight b!"'x y'" [⟨0, 1, .string_delim⟩, ⟨1, 3, .string⟩, ⟨4, 1, .string_delim⟩] b!" z" :=
  C55_python_strings (.inl rfl) b!"x y" b!" z" ⟨by unfold Without; decide, nofun⟩ (upTo_of_find (by decide +kernel))

/-- Strings in three quotation marks may contain line breaks and single quotation marks. -/
theorem C55_python_long_strings {q : UInt8} (hq : q = c!"'" ∨ q = c!"\"") :
    Enclosures highlight [q, q, q] [q, q, q] (fun t _ => Without b!"\\" t) .string_delim .string := by
  intro t b h hu
  rw [← enclosed_token]
  exact string_piece (l := true) hq (by simp [startsWith_cons_cons]) rfl (fun hx => by have := h _ hx; simp at this) nofun hu

example : Piece highlight b!"'''x'y'''" [⟨0, 3, .string_delim⟩, ⟨3, 3, .string⟩, ⟨6, 3, .string_delim⟩] b!" z" :=
  C55_python_long_strings (.inl rfl) b!"x'y" b!" z" (by unfold Without; decide) (upTo_of_find (by decide +kernel))

theorem key (c : UInt8) (h : c.toNat < 0x80 → CppId.Start c.toNat) : isWhitespace c = false ∧ ¬ c!"#" = c := by
  revert c
  unfold CppId.Start
  apply forall_byte
  decide +kernel

theorem prefixChar_continue (c : UInt8) (h : PrefixChar c) : c.toNat < 0x80 ∧ CppId.Continue c.toNat := by
  rw [← prefixChar_iff] at h
  revert c
  unfold CppId.Continue
  apply forall_byte
  decide +kernel

/-- Words, unless they are followed by a quotation mark. -/
theorem C55_python_names : Identifiers highlight
    (fun s n => Identifier CppId.Start CppId.Continue s n ∧ s[n]? ≠ some c!"'" ∧ s[n]? ≠ some c!"\"") words .name := by
  refine identifiers_of C33_python fun w b ⟨h, h', h''⟩ => ?_
  have hi := Cpp.matchIdentifier_eq h
  obtain ⟨c, r, e, h0, hc⟩ := Identifier.first h
  have hw : w ≠ [] := by rintro rfl; simp at h0
  have hq : ∀ q, q = c!"'" ∨ q = c!"\"" →
      startsWith ((w ++ b).drop (Bash.matchIdentifier (w ++ b))) [q] = false := by
    intro q hq
    have hf := prefix_facts (w ++ b)
    generalize Bash.matchIdentifier (w ++ b) = k at hf
    obtain ⟨i1, i2⟩ := identifier_bytes h
    cases hs : startsWith ((w ++ b).drop k) [q] with
    | false => rfl
    | true =>
      have hk := startsWith_drop_facts hs
      rcases Nat.lt_trichotomy k w.length with h1 | rfl | h1
      · have := i1 q (List.mem_iff_getElem?.2 ⟨k, by rw [List.getElem?_take_of_lt h1, hk]⟩)
        rcases hq with rfl | rfl <;> exact absurd (this (by decide)) (by unfold CppId.Start CppId.Continue; decide +kernel)
      · rcases hq with rfl | rfl
        · exact absurd hk h'
        · exact absurd hk h''
      · have hx : (w ++ b)[w.length]? = some (w ++ b)[w.length] := List.getElem?_eq_getElem (by omega)
        obtain ⟨k1, k2⟩ := prefixChar_continue _ ((hf.2 (by omega)).1.1 _
          (List.mem_iff_getElem?.2 ⟨w.length, by rw [List.getElem?_take_of_lt h1, hx]⟩))
        exact absurd k2 (i2 _ hx k1)
  have h1 : Ascii.length_if (w ++ b) isWhitespace = 0 := by
    rw [e]
    exact length_if_cons_neg (key c hc).1
  have h2 : startsWith (w ++ b) b!"#" = false := by
    rw [e]
    simp [startsWith_cons_cons, (key c hc).2]
  have hl : w.length ≤ (w ++ b).length := by simp
  generalize ht : (highlightByCode w).getD .name = ty
  refine piece_of_step (ts := [⟨0, w.length, ty, .normal⟩]) hw fun debug opts => ok_of_wp ?_
  unfold step consumeWhitespace HM.or expectComment expectStringLiteral expectIdentifier
  simp [h1]
  rw [wp_advance_iff (by simp)]
  simp [HS.adv, h2, hi, hw, hq]
  rw [wp_emitAdv_iff (by simp) h0 (by simp)]
  simp [HS.emitted, ht]

example : Piece highlight b!"if" [⟨0, 2, .keyword_control⟩] b!" x" ∧ Piece highlight b!"y1" [⟨0, 2, .name⟩] b!"+" :=
  ⟨(C55_python_names b!"if" b!" x" ⟨Cpp.identifier_of_match (by decide +kernel) (by decide), by decide⟩).1 _ (by decide +kernel),
    (C55_python_names b!"y1" b!"+" ⟨Cpp.identifier_of_match (by decide +kernel) (by decide), by decide⟩).2 (notWord (by decide +kernel))⟩

end Ulight.Python
