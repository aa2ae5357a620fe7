import Verif.Hl.Compose
import Verif.Props.Lang.Java

/-!
# C55 for Java
-/

namespace Ulight.Java

open Spec Spec.Java

instance : Uniform consumeWhitespace := by unfold consumeWhitespace; uniform
instance : Uniform expectLineComment := by unfold expectLineComment; uniform
instance : Uniform expectBlockComment := by unfold expectBlockComment; uniform
instance : Uniform expectIdentifier := by unfold expectIdentifier; uniform
instance : Uniform consumeEscape := by unfold consumeEscape; uniform
instance : Uniform characterBody := by unfold characterBody; uniform
instance : Uniform expectCharacterLiteral := by unfold expectCharacterLiteral; uniform
instance (n : Nat) : Uniform (stringStep n) := by unfold stringStep; uniform
instance : Uniform expectStringLiteral := by unfold expectStringLiteral; uniform
instance (n : Nat) : Uniform (textStep n) := by unfold textStep; uniform
instance : Uniform expectTextBlock := by unfold expectTextBlock; uniform
instance : Uniform expectStringOrCharacterOrTextBlock := by unfold expectStringOrCharacterOrTextBlock; uniform
instance : Uniform expectNumber := by unfold expectNumber; uniform
instance (u : Unit) : Uniform (dottedStep u) := by unfold dottedStep; uniform
instance : Uniform expectAnnotation := by unfold expectAnnotation; uniform
instance : Uniform expectSymbol := by unfold expectSymbol; uniform
instance : Uniform expectToken := by unfold expectToken; uniform
instance : Uniform step := by unfold step; uniform

/-- Comments after `//` extend to the end of the line. -/
theorem C55_java_line_comments : LineComments highlight b!"//" Spec.Js.Line := by
  intro t b h
  have hm := Js.matchLineComment_eq h
  have h0 := length_if_cons_neg (c := c!"/") (t := c!"/" :: (t ++ b)) (p := isWhitespace) rfl
  rw [← optEmit_token]
  refine piece_of_step (ts := ⟨0, 2, .comment_delim, .normal⟩ :: optEmit 2 t .comment) (by simp) fun debug opts =>
    ok_of_wp ?_
  unfold step consumeWhitespace expectToken HM.or expectLineComment
  simp at hm ⊢
  rw [h0, wp_advance_iff (by simp)]
  simp [HS.adv, hm]
  rw [wp_emitAdv_iff (by simp) (by simp) (by simp), wp_emitAdvIf_iff (by simp [HS.emitted]; omega) (by simp [HS.emitted])]
  simp [HS.emitted, optEmit]
  omega

example : Piece highlight b!"// x" [⟨0, 2, .comment_delim⟩, ⟨2, 2, .comment⟩] b!"\ny" :=
  C55_java_line_comments b!" x" b!"\ny" (line_of_match (by decide +kernel))


/-- Comments after `/*` extend to the next `*/`. -/
theorem C55_java_block_comments : Enclosures highlight b!"/*" b!"*/" (fun _ _ => True) .comment_delim .comment := by
  intro t b _ h
  have hm := Cpp.matchBlockComment_at h
  rw [← Js.matchBlockComment_eq] at hm
  have h0 := length_if_cons_neg (c := c!"/") (t := c!"*" :: (t ++ c!"*" :: c!"/" :: b)) (p := isWhitespace) rfl
  have h1 : Js.matchLineComment (c!"/" :: c!"*" :: (t ++ c!"*" :: c!"/" :: b)) = 0 := by
    simp [Js.matchLineComment, startsWith_cons_cons]
  rw [← enclosed_token]
  refine piece_of_step (by simp) fun debug opts => ok_of_wp ?_
  unfold step consumeWhitespace expectToken HM.or expectLineComment expectBlockComment
  simp at hm ⊢
  rw [h0, wp_advance_iff (by simp)]
  simp [HS.adv, hm, h1]
  rw [Cpp.wp_highlightBlockComment_iff (by simp) (by simp)]
  simp [enclosedEmit]

example : Piece highlight b!"/* x*/" [⟨0, 2, .comment_delim⟩, ⟨2, 2, .comment⟩, ⟨4, 2, .comment_delim⟩] b!" y" :=
  C55_java_block_comments b!" x" b!" y" trivial (upTo_of_find (by decide +kernel))

/-- Strings. -/
theorem C55_java_strings : Enclosures highlight b!"\"" b!"\"" (fun t b => Without b!"\\\r\n" t ∧ (t = [] → ¬ b!"\"" <+: b))
    .string_delim .string := by
  intro t b ⟨h, hb⟩ hu
  have h0 := length_if_cons_neg (c := c!"\"") (t := t ++ c!"\"" :: b) (p := isWhitespace) rfl
  have h1 : Js.matchLineComment (c!"\"" :: (t ++ c!"\"" :: b)) = 0 := by
    simp [Js.matchLineComment, startsWith_cons_cons]
  have h2 : Js.matchBlockComment (c!"\"" :: (t ++ c!"\"" :: b)) = ⟨0, false⟩ := by
    simp [Js.matchBlockComment, startsWith_cons_cons]
  have hn := notMem_of_upTo hu
  have h3 : startsWith (c!"\"" :: (t ++ c!"\"" :: b)) b!"\"\"\"" = false := not_three hn hb
  rw [← enclosed_token]
  refine piece_of_step (by simp) fun debug opts => ok_of_wp ?_
  unfold step consumeWhitespace expectToken HM.or expectLineComment expectBlockComment
    expectStringOrCharacterOrTextBlock expectStringLiteral
  simp at ⊢
  rw [h0, wp_advance_iff (by simp)]
  simp [HS.adv, h1, h2, h3, startsWith_cons_cons]
  rw [wp_emitAdv_iff (by simp) (by simp) (by simp)]
  rw [show t.length + (b.length + 1) + 1 + 1 = b.length + 2 + 1 + t.length by omega]
  refine wp_loop_count t.length (fun k hk => ?_) (wp_loop_last ?_)
  · obtain ⟨x, hx, e⟩ := getElem?_plain (b := c!"\"" :: b) hk
    have := h x hx
    have hc : x ≠ c!"\"" := fun e => hn (e ▸ hx)
    unfold stringStep
    simp at this
    simp [HS.emitted, e, hc, this]
  · unfold stringStep
    simp [HS.emitted]
    rw [wp_emitAdvIf_iff (by simp; omega) (by simp), wp_emitAdv_iff (by simp; omega) (by simp) (by simp)]
    simp [HS.emitted, enclosedEmit, optEmit]
    omega

example : Piece highlight b!"\"x y\"" [⟨0, 1, .string_delim⟩, ⟨1, 3, .string⟩, ⟨4, 1, .string_delim⟩] b!" z" :=
  C55_java_strings b!"x y" b!" z" ⟨by unfold Without; decide, nofun⟩ (upTo_of_find (by decide +kernel))

theorem name_byte (c : UInt8) : (0x80 ≤ c.toNat ∨ isAlpha c = true ∨ c = c!"_") ∧ c ≠ c!"_" →
    (isWhitespace c || b!"/'\"0.@".contains c || isDigitBase c 10 || !sortedSymbols.all (·.head? != some c)) = false := by
  revert c
  apply forall_byte
  decide +kernel

/-- Words that do not begin with an underscore. -/
theorem C55_java_names : Identifiers highlight
    (fun s n => Identifier CppId.Start CppId.Continue s n ∧ s[0]? ≠ some c!"_") words .name := by
  refine identifiers_of C33_java fun w b ⟨h, hu⟩ => ?_
  have hi := Cpp.matchIdentifier_eq h
  obtain ⟨c, r, e, h0, hc⟩ := Identifier.first h
  rw [e] at hi hu
  have key := name_byte c ⟨cppStart_byte c hc, by simpa using hu⟩
  simp only [Bool.or_eq_false_iff, Bool.not_eq_false', and_assoc] at key
  obtain ⟨k1, k2, k8, k9⟩ := key
  have hw : w ≠ [] := by rintro rfl; simp at h0
  simp at k2
  obtain ⟨k2, k3, k4, k5, k6, k7⟩ := k2
  simp at hu
  have h1 := length_if_cons_neg (t := r) k1
  have h2 : Js.matchLineComment (c :: r) = 0 := by simp [Js.matchLineComment, startsWith_cons_cons, Ne.symm k2]
  have h3 : Js.matchBlockComment (c :: r) = ⟨0, false⟩ := by
    simp [Js.matchBlockComment, startsWith_cons_cons, Ne.symm k2]
  have h4 : matchCommonNumber (c :: r) numberOptions = {} :=
    matchCommonNumber_none (by simp [numberOptions]) (by simp [numberOptions])
      (by simp [numberOptions, startsWith_cons_cons, Ne.symm k5]) k8 k5 k6 hu
  have h5 : matchSymbol (c :: r) = none := by
    rw [matchSymbol_eq, find_none_of_head (by decide +kernel) k9]
  have hl : w.length ≤ (c :: r).length := by simp [← e]
  generalize ht : (highlightByCode w).getD .name = ty
  refine piece_of_step (ts := [⟨0, w.length, ty, .normal⟩]) hw
    fun debug opts => ok_of_wp ?_
  rw [e]
  unfold step consumeWhitespace expectToken HM.or expectLineComment expectBlockComment
    expectStringOrCharacterOrTextBlock expectNumber expectAnnotation expectSymbol expectIdentifier
  simp [h1]
  rw [wp_advance_iff (by simp)]
  simp [HS.adv, h2, h3, h4, h5, startsWith_cons_cons, Ne.symm k3, Ne.symm k4, Ne.symm k7, hi, hw]
  rw [wp_emitAdv_iff (by simp) h0 hl]
  simp [HS.emitted, ← e, ht]

example : Piece highlight b!"if" [⟨0, 2, .keyword_control⟩] b!" x" ∧ Piece highlight b!"y1" [⟨0, 2, .name⟩] b!"+" :=
  ⟨(C55_java_names b!"if" b!" x" ⟨Cpp.identifier_of_match (by decide +kernel) (by decide), by decide⟩).1 _ (by decide +kernel),
    (C55_java_names b!"y1" b!"+" ⟨Cpp.identifier_of_match (by decide +kernel) (by decide), by decide⟩).2 (notWord (by decide +kernel))⟩

/-- Words that begin with an underscore are highlighted as errors and names. -/
theorem C55_java_underscore :
    ¬ Identifiers highlight (Identifier CppId.Start CppId.Continue) words .name := by
  intro h
  refine not_piece [] [⟨0, 1, .error, .normal⟩, ⟨1, 1, .name, .normal⟩] ?_ ?_ ?_
    ((h b!"_x" [] (Cpp.identifier_of_match (by decide +kernel) (by decide))).2 ?_)
  · decide +kernel
  · decide +kernel
  · decide
  · intro ty
    rw [← C33_java, show highlightByCode b!"_x" = none by decide +kernel]
    exact nofun

end Ulight.Java
