import Verif.Hl.Compose
import Verif.Props.Lang.Llvm

/-!
# C55 for LLVM
-/

namespace Ulight.Llvm

open Spec Spec.Llvm

instance : Uniform expectNumber := by unfold expectNumber; uniform
instance : Uniform consumeLineComment := by unfold consumeLineComment; uniform
instance : Uniform expectBlockComment := by unfold expectBlockComment; uniform
instance : Uniform consumeIdentifier := by unfold consumeIdentifier; uniform
instance : Uniform expectKeywordOrLabel := by unfold expectKeywordOrLabel; uniform
instance : Uniform stringEscape := by unfold stringEscape; uniform
instance (n : Nat) : Uniform (stringStep n) := by unfold stringStep; uniform
instance : Uniform consumeString := by unfold consumeString; uniform
instance : Uniform defaultCase := by unfold defaultCase; uniform
instance (c : UInt8) : Uniform (consumeAnything c) := by unfold consumeAnything; uniform
instance : Uniform step := by unfold step; uniform

/-- Comments after a semicolon extend to the end of the line. -/
theorem C55_llvm_comments : CommentLines highlight b!";" := by
  intro t e b h
  have hm := matchCrlfLine_at h
  rw [← optEmit_token]
  refine piece_of_step (ts := ⟨0, 1, .comment_delim, .normal⟩ :: optEmit 1 t .comment) (by simp) fun debug opts =>
    ok_of_wp ?_
  unfold step consumeAnything consumeLineComment
  simp at hm
  simp [startsWith_cons_cons, isDigit]
  rw [wp_emitAdv_iff (by simp) (by simp) (by simp)]
  simp [HS.emitted, hm]
  rw [wp_emitAdvIf_iff (by simp; omega) (by simp), wp_advance_iff (by simp)]
  simp [HS.adv, optEmit]
  omega

example : Piece highlight b!"; x\n" [⟨0, 1, .comment_delim⟩, ⟨1, 2, .comment⟩] b!"y" :=
  C55_llvm_comments b!" x" b!"\n" b!"y" ⟨rfl, by decide, by decide⟩

/-- Comments after `/*` extend to the next `*/`. -/
theorem C55_llvm_block_comments :
    Enclosures highlight b!"/*" b!"*/" (fun _ _ => True) .comment_delim .comment := by
  intro t b _ h
  have hm := matchEnclosed_at (o := b!"/*") h
  rw [← enclosed_token]
  refine piece_of_step (by simp) fun debug opts => ok_of_wp ?_
  unfold step consumeAnything expectBlockComment matchBlockComment HM.highlightEnclosedComment
  simp at hm
  simp [isDigit, hm]
  rw [wp_highlightEnclosed_iff' (o := b!"/*") (t := t) (c := b!"*/") (by simp) (by simp) (by simp) (by simp) (by simp; omega)]
  simp [enclosedEmit]
  have e : 2 + t.length = (t ++ b!"*/").length := by simp; omega
  have e2 : t ++ 42 :: 47 :: b = (t ++ b!"*/") ++ b := by simp
  rw [e, e2, List.drop_left]
  simp

example : Piece highlight b!"/* x*/" [⟨0, 2, .comment_delim⟩, ⟨2, 2, .comment⟩, ⟨4, 2, .comment_delim⟩] b!" y" :=
  C55_llvm_block_comments b!" x" b!" y" trivial (upTo_of_find (by decide +kernel))

/-- Strings, which may contain line breaks. -/
theorem C55_llvm_strings : Enclosures highlight b!"\"" b!"\"" (fun t _ => Without b!"\\" t) .string_delim .string := by
  intro t b h hu
  have hn := notMem_of_upTo hu
  rw [← enclosed_token]
  refine piece_of_step (by simp) fun debug opts => ok_of_wp ?_
  unfold step consumeAnything consumeString
  simp [isDigit, startsWith_cons_cons]
  rw [wp_emitAdv_iff (by simp) (by simp) (by simp)]
  simp [HS.emitted]
  rw [show t.length + (b.length + 1) + 1 + 1 = b.length + 1 + 1 + 1 + t.length by omega]
  refine wp_loop_count t.length (fun k hk => ?_) (wp_loop_last ?_)
  · obtain ⟨x, hx, e⟩ := getElem?_plain (b := c!"\"" :: b) hk
    have := h x hx
    have hc : x ≠ c!"\"" := fun e => hn (e ▸ hx)
    unfold stringStep
    simp at this
    simp [e, hc, this]
  · unfold stringStep
    simp
    rw [wp_emitAdvIf_iff (by simp; omega) (by simp), wp_emitAdv_iff (by simp; omega) (by simp) (by simp)]
    simp [HS.emitted, enclosedEmit, optEmit]
    omega

example : Piece highlight b!"\"x y\"" [⟨0, 1, .string_delim⟩, ⟨1, 3, .string⟩, ⟨4, 1, .string_delim⟩] b!" z" :=
  C55_llvm_strings b!"x y" b!" z" (by unfold Without; decide) (upTo_of_find (by decide +kernel))

/-- Names of variables and functions. -/
theorem C55_llvm_names (w b : Bytes) (h : Longest NameChar (w ++ b) w.length) :
    Piece highlight (b!"%" ++ w) (⟨0, 1, .name_var_delim⟩ :: opt 1 w .name_var) b ∧
    Piece highlight (b!"@" ++ w) (⟨0, 1, .name_function_delim⟩ :: opt 1 w .name_function) b := by
  have key : ∀ c, Ascii.length_if (c :: (w ++ b)) isIdentifier 1 = w.length + 1 := by
    intro c
    have h1 := length_if_longest (c :: (w ++ b)) isIdentifier _ name_iff 1 (by simp)
    have h2 := length_if_le (c :: (w ++ b)) isIdentifier 1 (by simp)
    have := Longest.unique h1 h (by simp at h2 ⊢; omega) (by simp)
    omega
  constructor
  · rw [← optEmit_token]
    refine piece_of_step (ts := ⟨0, 1, .name_var_delim, .normal⟩ :: optEmit 1 w .name_var) (by simp) fun debug opts =>
      ok_of_wp ?_
    unfold step consumeAnything consumeIdentifier matchIdentifier
    simp [isDigit, startsWith_cons_cons, key]
    rw [wp_emitAdv_iff (by simp) (by simp) (by simp), wp_emitAdvIf_iff (by simp [HS.emitted]; omega) (by simp [HS.emitted])]
    simp [HS.emitted, optEmit]
    omega
  · rw [← optEmit_token]
    refine piece_of_step (ts := ⟨0, 1, .name_function_delim, .normal⟩ :: optEmit 1 w .name_function) (by simp)
      fun debug opts => ok_of_wp ?_
    unfold step consumeAnything consumeIdentifier matchIdentifier
    simp [isDigit, startsWith_cons_cons, key]
    rw [wp_emitAdv_iff (by simp) (by simp) (by simp), wp_emitAdvIf_iff (by simp [HS.emitted]; omega) (by simp [HS.emitted])]
    simp [HS.emitted, optEmit]
    omega

example : Piece highlight b!"%x1" [⟨0, 1, .name_var_delim⟩, ⟨1, 2, .name_var⟩] b!" y" :=
  (C55_llvm_names b!"x1" b!" y" (by simp [Longest, NameChar, Letter, DecDigit])).1

theorem word_byte (c : UInt8) : isKeyword c = true → isDigit c = false →
    (b!" \t\r\n\"()[]{},:<=>;/%@".contains c) = false := by
  revert c; apply forall_byte; decide +kernel

theorem word_step {w b : Bytes} {c : UInt8} {r : Bytes} (hw : w = c :: r) (hl : Longest WordChar (w ++ b) w.length)
    (hd : ¬ DecDigit c) (hs : ¬ b!"s0x" <+: w) (hu : ¬ b!"u0x" <+: w) (Q : Unit → HS Unit → Prop) (env : HEnv) (s : HS Unit)
    (hr : s.rem = w ++ b) : wp expectKeywordOrLabel (fun x s => x = true ∧ Q () s) env s → wp step Q env s := by
  subst hw
  have hc : isKeyword c = true := (word_iff c).2 (hl.1 c (by simp))
  have h2 : isDigit c = false := by
    rw [← isDigit_iff] at hd
    simpa using hd
  have key := word_byte c hc h2
  simp at key
  have hn : (c = c!"s" ∨ c = c!"u") → matchCommonNumber (c :: (r ++ b)) numberOptions = {} := by
    intro h
    have longer : ∀ p : Bytes, p.length = 3 → (∀ x ∈ p, isKeyword x = true) → ¬ p <+: c :: r →
        startsWith (c :: (r ++ b)) p = false := by
      intro p hp hx h
      rw [Bool.eq_false_iff]
      intro hs
      obtain ⟨t, ht⟩ := startsWith_iff.1 hs
      by_cases hlen : p.length ≤ (c :: r).length
      · apply h
        refine List.prefix_of_prefix_length_le (l₃ := c :: (r ++ b)) ⟨t, ht.symm⟩ ⟨b, by simp⟩ hlen
      · have hg : (c :: r ++ b)[(c :: r).length]? = p[(c :: r).length]? := by
          have : c :: r ++ b = p ++ t := by simpa using ht
          rw [this, List.getElem?_append_left (by omega)]
        rw [List.getElem?_eq_getElem (l := p) (by omega)] at hg
        exact hl.2 _ hg ((word_iff _).1 (hx _ (List.getElem_mem _)))
    refine matchCommonNumber_none (by simp [numberOptions]) ?_ ?_ ?_ ?_ ?_ ?_
    · rcases h with rfl | rfl <;> simp
    · have e0 : c ≠ c!"0" := by rcases h with rfl | rfl <;> decide
      have e1 := longer b!"s0x" rfl (by decide) hs
      have e2 := longer b!"u0x" rfl (by decide) hu
      intro p hp
      simp [numberOptions] at hp
      rcases hp with rfl | rfl | rfl | rfl | rfl | rfl | rfl <;>
        first | exact e1 | exact e2 | simp [startsWith_cons_cons, Ne.symm e0]
    all_goals (rcases h with rfl | rfl <;> decide)
  intro hQ
  obtain ⟨rem, idx, out, ext⟩ := s
  simp only at hr
  subst hr
  unfold step
  rw [wp_bind, wp_rem]
  simp only [List.cons_append]
  unfold consumeAnything
  simp only [key, h2, or_self, if_false, Bool.false_eq_true]
  have hdef : wp defaultCase Q env ⟨c :: (r ++ b), idx, out, ext⟩ := by
    unfold defaultCase
    rw [wp_bind]
    refine wp_mono hQ ?_
    rintro x s ⟨rfl, h⟩
    simpa using h
  split
  · rename_i h
    unfold expectNumber
    simp [hn h]
    exact hdef
  · exact hdef

theorem matchKeyword_eq {w b : Bytes} (hl : Longest WordChar (w ++ b) w.length) : matchKeyword (w ++ b) = w.length :=
  length_if_eq (p := isKeyword) (s := w ++ b) (n := w.length)
    ⟨fun c h => (word_iff c).2 (hl.1 c h), fun c h h2 => hl.2 c h ((word_iff c).1 h2)⟩ (by simp)

/-- Keywords, types, and all other words that begin with no digit. -/
theorem C55_llvm_words (w b : Bytes) (ty : HT) (hw : w ≠ []) (hl : Longest WordChar (w ++ b) w.length) (ht : Word w ty)
    (hd : ∀ c r, w = c :: r → ¬ DecDigit c) (hs : ¬ b!"s0x" <+: w) (hu : ¬ b!"u0x" <+: w) (hb : ¬ b!":" <+: b) :
    Piece highlight w [⟨0, w.length, ty⟩] b := by
  have hk := (C33_llvm w hw ty).2 ht
  have hm := matchKeyword_eq hl
  refine piece_of_step (ts := [⟨0, w.length, ty, .normal⟩]) hw fun debug opts => ok_of_wp ?_
  obtain ⟨c, r, e⟩ := List.exists_cons_of_ne_nil hw
  refine word_step e hl (hd c r e) hs hu _ _ _ rfl ?_
  have hp := List.length_pos_iff.2 hw
  have hcolon : startsWith b b!":" = false := by
    rw [Bool.eq_false_iff, ne_eq, startsWith_iff]
    rintro ⟨t, rfl⟩
    exact hb ⟨t, rfl⟩
  unfold expectKeywordOrLabel
  simp [hm, hw, hcolon, hk]
  rw [wp_emitAdv_iff (by simp) hp (by simp)]
  simp [HS.emitted]

example : Piece highlight b!"i32" [⟨0, 3, .keyword_type⟩] b!" y" :=
  C55_llvm_words b!"i32" b!" y" _ (by simp) (by simp [Longest, WordChar, Letter, DecDigit])
    (.integer ⟨b!"32", rfl, by simp, by simp [DecDigit]⟩) (by simp [DecDigit]) (by decide) (by decide) (by decide)

/-- Labels. -/
theorem C55_llvm_labels (w b : Bytes) (hw : w ≠ []) (hl : Longest WordChar (w ++ b!":" ++ b) w.length)
    (hd : ∀ c r, w = c :: r → ¬ DecDigit c) (hs : ¬ b!"s0x" <+: w) (hu : ¬ b!"u0x" <+: w) :
    Piece highlight (w ++ b!":") [⟨0, w.length, .name_label_decl⟩, ⟨w.length, 1, .name_label_delim⟩] b := by
  have hl : Longest WordChar (w ++ (b!":" ++ b)) w.length := by simpa using hl
  have hm := matchKeyword_eq hl
  refine piece_of_step (ts := [⟨0, w.length, .name_label_decl, .normal⟩, ⟨w.length, 1, .name_label_delim, .normal⟩])
    (by simp) fun debug opts => ok_of_wp ?_
  obtain ⟨c, r, e⟩ := List.exists_cons_of_ne_nil hw
  refine word_step e hl (hd c r e) hs hu _ _ _ (by simp) ?_
  have hp := List.length_pos_iff.2 hw
  simp at hm
  unfold expectKeywordOrLabel
  simp [hm, hw, startsWith_cons_cons]
  rw [wp_emitAdv_iff (by simp) hp (by simp)]
  simp [HS.emitted]
  rw [wp_emitAdv_iff (by simp) (by simp) (by simp)]
  simp [HS.emitted]

example : Piece highlight b!"a:" [⟨0, 1, .name_label_decl⟩, ⟨1, 1, .name_label_delim⟩] b!" y" :=
  C55_llvm_labels b!"a" b!" y" (by simp) (by simp [Longest, WordChar, Letter, DecDigit]) (by simp [DecDigit])
    (by decide) (by decide)

end Ulight.Llvm
