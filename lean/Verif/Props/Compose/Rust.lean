import Verif.Hl.Compose
import Verif.Props.Lang.Rust

/-!
# C55 for Rust
-/

namespace Ulight.Rust

open Spec Spec.Rust

instance : Uniform consumeWhitespace := by unfold consumeWhitespace; uniform
instance : Uniform expectLineComment := by unfold expectLineComment; uniform
instance : Uniform expectBlockComment := by unfold expectBlockComment; uniform
instance : Uniform expectRawIdentifier := by unfold expectRawIdentifier; uniform
instance : Uniform expectIdentifierOrKeyword := by unfold expectIdentifierOrKeyword; uniform
instance : Uniform consumeSuffix := by unfold consumeSuffix; uniform
instance : Uniform expectCharOrByte := by unfold expectCharOrByte; uniform
instance (h n : Nat) : Uniform (rawStep h n) := by unfold rawStep; uniform
instance (type : StringType) : Uniform (consumeEscape type) := by unfold consumeEscape; uniform
instance (type : StringType) (n : Nat) : Uniform (stringStep type n) := by unfold stringStep; uniform
instance (type : StringType) (n : Nat) : Uniform (consumeStringContentAndSuffix type n) := by
  unfold consumeStringContentAndSuffix; uniform
instance : Uniform expectStringLiteral := by unfold expectStringLiteral; uniform
instance : Uniform expectNumber := by unfold expectNumber; uniform
instance (d n : Nat) : Uniform (emitLifetime d n) := by unfold emitLifetime; uniform
instance : Uniform expectLifetime := by unfold expectLifetime; uniform
instance : Uniform expectSymbol := by unfold expectSymbol; uniform
instance : Uniform expectToken := by unfold expectToken; uniform
instance : Uniform step := by unfold step; uniform

theorem space_zero {c : UInt8} {t : Bytes} (h : c.toNat < 0x80) (h' : isWhitespace c.toNat = false) :
    Utf8.length_if (c :: t) isWhitespace = .ok 0 :=
  utf8_length_if_zero ((noFirst_ascii h).2 (by simp [h']))

/-- Comments after `//` extend to the end of the line. -/
theorem C55_rust_line_comments : LineComments highlight b!"//" Spec.Js.Line := by
  intro t b h
  have hm := Js.matchLineComment_eq h
  have h0 := space_zero (c := c!"/") (t := c!"/" :: (t ++ b)) (by decide) rfl
  rw [← optEmit_token]
  refine piece_of_step (ts := ⟨0, 2, .comment_delim, .normal⟩ :: optEmit 2 t .comment) (by simp) fun debug opts =>
    ok_of_wp ?_
  unfold step consumeWhitespace expectToken HM.or expectLineComment
  simp at hm ⊢
  rw [h0]
  simp
  rw [wp_advance_iff (by simp)]
  simp [HS.adv, hm]
  rw [wp_emitAdv_iff (by simp) (by simp) (by simp), wp_emitAdvIf_iff (by simp [HS.emitted]; omega) (by simp [HS.emitted])]
  simp [HS.emitted, optEmit]
  omega

example : Piece highlight b!"// x" [⟨0, 2, .comment_delim⟩, ⟨2, 2, .comment⟩] b!"\ny" :=
  C55_rust_line_comments b!" x" b!"\ny" (line_of_match (by decide +kernel))

/-- Comments after `/*` extend to the next `*/`. -/
theorem C55_rust_block_comments :
    Enclosures highlight b!"/*" b!"*/" (fun _ _ => True) .comment_delim .comment := by
  intro t b _ h
  have hm := Cpp.matchBlockComment_at h
  rw [← Js.matchBlockComment_eq] at hm
  have h0 := space_zero (c := c!"/") (t := c!"*" :: (t ++ c!"*" :: c!"/" :: b)) (by decide) rfl
  have h1 : Js.matchLineComment (c!"/" :: c!"*" :: (t ++ c!"*" :: c!"/" :: b)) = 0 := by
    simp [Js.matchLineComment, startsWith_cons_cons]
  rw [← enclosed_token]
  refine piece_of_step (by simp) fun debug opts => ok_of_wp ?_
  unfold step consumeWhitespace expectToken HM.or expectLineComment expectBlockComment
  simp at hm ⊢
  rw [h0]
  simp
  rw [wp_advance_iff (by simp)]
  simp [HS.adv, hm, h1]
  rw [Cpp.wp_highlightBlockComment_iff (by simp) (by simp)]
  simp [enclosedEmit]

example : Piece highlight b!"/* x*/" [⟨0, 2, .comment_delim⟩, ⟨2, 2, .comment⟩, ⟨4, 2, .comment_delim⟩] b!" y" :=
  C55_rust_block_comments b!" x" b!" y" trivial (upTo_of_find (by decide +kernel))

theorem noId_iff {t : Bytes} : (∀ m, ¬ Id t m) → Cpp.matchIdentifier t = 0 := by
  intro h
  rcases Cpp.matchIdentifier_facts t with ⟨_, ⟨h2, _⟩ | ⟨_, h2⟩⟩
  · exact h2
  · exact absurd h2 (h _)

/-- Strings, which may contain line breaks. -/
theorem C55_rust_strings : Enclosures highlight b!"\"" b!"\"" (fun t b => Without b!"\\" t ∧ ∀ m, ¬ Id b m)
    .string_delim .string := by
  intro t b ⟨h, hb⟩ hu
  have hn := notMem_of_upTo hu
  have hi := noId_iff hb
  have h0 := space_zero (c := c!"\"") (t := t ++ c!"\"" :: b) (by decide) rfl
  have h1 : Js.matchLineComment (c!"\"" :: (t ++ c!"\"" :: b)) = 0 := by
    simp [Js.matchLineComment, startsWith_cons_cons]
  have h2 : Js.matchBlockComment (c!"\"" :: (t ++ c!"\"" :: b)) = ⟨0, false⟩ := by
    simp [Js.matchBlockComment, startsWith_cons_cons]
  have h3 : classifyStringPrefix (c!"\"" :: (t ++ c!"\"" :: b)) = some (0, .string) := by
    simp [classifyStringPrefix, stringPrefixes, startsWith_cons_cons]
  rw [← enclosed_token]
  refine piece_of_step (by simp) fun debug opts => ok_of_wp ?_
  unfold step consumeWhitespace expectToken HM.or expectLineComment expectBlockComment
    expectCharOrByte expectStringLiteral consumeStringContentAndSuffix
  simp
  rw [h0]
  simp
  rw [wp_advance_iff (by simp)]
  simp [HS.adv, h1, h2, h3, startsWith_cons_cons, StringType.isRaw]
  rw [wp_emitAdvIf_iff (by simp) (by simp), wp_emitAdv_iff (by simp) (by simp) (by simp)]
  simp [HS.emitted]
  rw [show t.length + (b.length + 1) + 1 = b.length + 1 + 1 + t.length by omega]
  refine wp_loop_count t.length (fun k hk => ?_) (wp_loop_last ?_)
  · obtain ⟨x, hx, e⟩ := getElem?_plain (b := c!"\"" :: b) hk
    have := h x hx
    have hc : x ≠ c!"\"" := fun e => hn (e ▸ hx)
    unfold stringStep
    simp at this
    simp [e, hc, this]
  · unfold stringStep
    simp
    rw [wp_emitAdvIf_iff (by simp; omega) (by simp), wp_emitAdv_iff (by simp; omega) (by simp) (by simp)]
    simp [HS.emitted, consumeSuffix, hi]
    rw [wp_emitAdvIf_iff (by simp; omega) (by simp)]
    simp [enclosedEmit, optEmit]
    omega

example : Piece highlight b!"\"x y\"" [⟨0, 1, .string_delim⟩, ⟨1, 3, .string⟩, ⟨4, 1, .string_delim⟩] b!" z" :=
  C55_rust_strings b!"x y" b!" z" ⟨by unfold Without; decide, fun m h => by
    have ⟨c, r, e, _, hc⟩ := Identifier.first h
    cases e
    exact absurd (cppStart_byte _ hc) (by decide)⟩ (upTo_of_find (by decide +kernel))

theorem start_space (c : Nat) (h : isWhitespace c = true) : ¬ CppId.Start c := by
  unfold isWhitespace at h
  simp only [Bool.or_eq_true, decide_eq_true_eq] at h
  unfold CppId.Start
  revert c
  intro c h
  have key : ∀ x ∈ [0x09, 0x0A, 0x0B, 0x0C, 0x0D, 0x20, 0x85, 0x200E, 0x200F, 0x2028, 0x2029], ¬ CppId.Start x := by
    unfold CppId.Start
    decide +kernel
  exact key c (by simp; omega)

theorem name_byte (c : UInt8) : (0x80 ≤ c.toNat ∨ isAlpha c = true ∨ c = c!"_") ∧ c ≠ c!"_" →
    (b!"/'\"0.".contains c || isDigitBase c 10) = false := by
  revert c
  apply forall_byte
  decide +kernel

theorem prefix_bytes : ∀ p ∈ stringPrefixes, p.1 = p.1.dropLast ++ [p.1.getLast!] ∧ p.1.getLast! ∈ b!"!'\"#" ∧
    p.1.getLast!.toNat < 0x80 ∧ (¬ CppId.Start p.1.getLast!.toNat ∧ ¬ CppId.Continue p.1.getLast!.toNat) ∧
      ∀ b ∈ p.1.dropLast, b.toNat < 0x80 ∧ CppId.Continue b.toNat := by
  unfold CppId.Start CppId.Continue
  decide +kernel

/-- Words, unless they begin with an underscore, or what follows makes them a macro, a literal or a raw identifier. -/
theorem C55_rust_names : Identifiers highlight
    (fun s n => Id s n ∧ s[0]? ≠ some c!"_" ∧ ∀ q ∈ b!"!'\"#", s[n]? ≠ some q) words .name := by
  refine identifiers_of C33_rust fun w b ⟨h, hu, hq⟩ => ?_
  have hi := Cpp.matchIdentifier_eq h
  obtain ⟨c, r, e, h0, hc⟩ := Identifier.first h
  have hw : w ≠ [] := by rintro rfl; simp at h0
  rw [e] at hu
  have key := name_byte c ⟨cppStart_byte c hc, by simpa using hu⟩
  simp at key hu
  obtain ⟨⟨k1, k2, k3, k4, k5⟩, k6⟩ := key
  have h1 : Utf8.length_if (w ++ b) isWhitespace = .ok 0 := utf8_length_if_zero (Identifier.noFirst h start_space)
  have h2 : Js.matchLineComment (w ++ b) = 0 := by
    rw [e]; simp [Js.matchLineComment, startsWith_cons_cons, Ne.symm k1]
  have h3 : Js.matchBlockComment (w ++ b) = ⟨0, false⟩ := by
    rw [e]; simp [Js.matchBlockComment, startsWith_cons_cons, Ne.symm k1]
  have h4 : matchCommonNumber (w ++ b) numberOptions = {} := by
    rw [e]
    exact matchCommonNumber_none (by simp [numberOptions]) (by simp [numberOptions])
      (by simp [numberOptions, startsWith_cons_cons, Ne.symm k4]) k6 k4 k5 hu
  have h5 : matchNumber (w ++ b) = .ok {} := by
    unfold matchNumber
    rw [h4]
    rfl
  have h6 : classifyStringPrefix (w ++ b) = none := by
    unfold classifyStringPrefix
    rw [List.find?_eq_none.2, Option.map_none]
    intro p hpm
    obtain ⟨e1, e2, e3, e4, e5⟩ := prefix_bytes p hpm
    rw [e1, not_prefix h e5 ⟨e3, e4⟩ (hq _ e2)]
    simp
  have h7 : (w ++ b)[if startsWith (w ++ b) b!"b" then 1 else 0]? ≠ some c!"'" := by
    refine not_at h ?_ (by unfold CppId.Start CppId.Continue; decide +kernel) (hq _ (by simp))
    split <;> omega
  have h8 : startsWith (w ++ b) b!"'" = false := by
    rw [e]; simp [startsWith_cons_cons, Ne.symm k2]
  have h9 : startsWith b b!"!" = false := by
    have := hq c!"!" (by simp)
    rw [List.getElem?_append_right (by omega)] at this
    exact startsWith_one_false (by simpa using this)
  generalize ht : (highlightByCode w).getD .name = ty
  refine piece_of_step (ts := [⟨0, w.length, ty, .normal⟩]) hw fun debug opts => ok_of_wp ?_
  unfold step consumeWhitespace expectToken HM.or expectLineComment expectBlockComment expectCharOrByte
    expectStringLiteral expectNumber expectLifetime expectIdentifierOrKeyword
  simp [h1]
  rw [wp_advance_iff (by simp)]
  simp [HS.adv, h2, h3, h5, h6, h7, h8, hi, hw, h9]
  cases hh : highlightByCode w with
  | none =>
    rw [hh] at ht
    simp
    rw [wp_emitAdv_iff (by simp) h0 (by simp)]
    simpa [HS.emitted] using ht
  | some ty' =>
    rw [hh] at ht
    simp
    rw [wp_emitAdv_iff (by simp) h0 (by simp)]
    simpa [HS.emitted] using ht

example : Piece highlight b!"if" [⟨0, 2, .keyword_control⟩] b!" x" ∧ Piece highlight b!"y1" [⟨0, 2, .name⟩] b!"+" :=
  ⟨(C55_rust_names b!"if" b!" x" ⟨Cpp.identifier_of_match (by decide +kernel) (by decide), by decide⟩).1 _ (by decide +kernel),
    (C55_rust_names b!"y1" b!"+" ⟨Cpp.identifier_of_match (by decide +kernel) (by decide), by decide⟩).2 (notWord (by decide +kernel))⟩

/-- Words that begin with an underscore are highlighted as errors. -/
theorem C55_rust_underscore : ¬ Identifiers highlight
    (fun s n => Id s n ∧ ∀ q ∈ b!"!'\"#", s[n]? ≠ some q) words .name := by
  intro h
  refine not_piece [] [⟨0, 2, .error, .normal⟩] ?_ ?_ ?_
    ((h b!"_x" [] ⟨Cpp.identifier_of_match (by decide +kernel) (by decide), by decide⟩).2 ?_)
  · decide +kernel
  · decide +kernel
  · decide
  · intro ty
    rw [← C33_rust, show highlightByCode b!"_x" = none by decide +kernel]
    exact nofun

end Ulight.Rust
