import Verif.Hl.Fuel
import Verif.Props.Lang.Kotlin

/-!
# C55 for Kotlin
-/

namespace Ulight.Kotlin

open Spec Spec.Kotlin

instance : Uniform consumeWhitespace := by unfold consumeWhitespace; uniform
instance : Uniform expectLineComment := by unfold expectLineComment; uniform
instance : Uniform expectBlockComment := by unfold expectBlockComment; uniform
instance (n : Nat) : Uniform (backtickStep n) := by unfold backtickStep; uniform
instance : Uniform expectBacktickIdentifier := by unfold expectBacktickIdentifier; uniform
instance : Uniform expectIdentifier := by unfold expectIdentifier; uniform
instance : Uniform consumeEscape := by unfold consumeEscape; uniform
instance : Uniform closeMultiline := by unfold closeMultiline; uniform
instance (m : HM Unit Unit) [Uniform m] : Uniform (consumeDollar m) := by unfold consumeDollar; uniform
instance (m : HM Unit Unit) [Uniform m] (q : Bytes) (n : Nat) : Uniform (stringStep m q n) := by unfold stringStep; uniform
instance (m : HM Unit Unit) [Uniform m] : Uniform (expectStringOrCharacter m) := by unfold expectStringOrCharacter; uniform
instance : Uniform expectNumber := by unfold expectNumber; uniform
instance (u : Unit) : Uniform (dottedStep u) := by unfold dottedStep; uniform
instance : Uniform consumeDotted := by unfold consumeDotted; uniform
instance (u : Unit) : Uniform (multiStep u) := by unfold multiStep; uniform
instance : Uniform consumeMulti := by unfold consumeMulti; uniform
instance : Uniform expectAnnotation := by unfold expectAnnotation; uniform
instance : Uniform expectSymbol := by unfold expectSymbol; uniform
instance (m : HM Unit Unit) [Uniform m] : Uniform (expectToken m) := by unfold expectToken; uniform
instance (m : HM Unit Unit) [Uniform m] (string : Bool) (level : Nat) : Uniform (tokensStep m string level) := by
  unfold tokensStep; uniform

instance uniform_tokens (fuel : Nat) (string : Bool) : Uniform (consumeTokens fuel string) := by
  induction fuel generalizing string with
  | zero => unfold consumeTokens; uniform
  | succ n ih =>
    unfold consumeTokens
    have := ih true
    uniform

theorem below_step {m m' : HM Unit Unit} (h : Below m m') (string : Bool) (level : Nat) :
    Below (tokensStep m string level) (tokensStep m' string level) := by
  have h1 : Below (consumeDollar m) (consumeDollar m') := by unfold consumeDollar; below
  have h2 : ∀ q n, Below (stringStep m q n) (stringStep m' q n) := by intro q n; unfold stringStep; below
  have h3 : Below (expectStringOrCharacter m) (expectStringOrCharacter m') := by
    unfold expectStringOrCharacter; below
    exact h2 _ _
  have h4 : Below (expectToken m) (expectToken m') := by unfold expectToken; below
  unfold tokensStep
  below

theorem below_tokens (fuel k : Nat) : Below (consumeTokens fuel true) (consumeTokens (fuel + k) true) := by
  induction fuel with
  | zero => exact below_fault _ _
  | succ n ih =>
    rw [Nat.add_right_comm]
    unfold consumeTokens
    have := fun b => below_step ih true b
    below
    exact this _

/-- The main loop. -/
theorem run_eq : run = (do
    let r ← HM.rem
    HM.loop (r.length + 1) (tokensStep (consumeTokens r.length true) false) 0
    pure true) := rfl

theorem piece_of_token {a b : Bytes} {ts : List Emit} (ha : a ≠ []) (h : ∀ m debug opts,
    wp (tokensStep m false 0) (fun r s => r = .inl 0 ∧ s = ⟨b, a.length, ts, ()⟩) ⟨debug, opts, a ++ b⟩ ⟨a ++ b, 0, [], ()⟩) :
    Piece highlight a (ts.map Emit.token) b := by
  unfold highlight
  rw [run_eq]
  refine piece_of_reach (body := fun d => tokensStep (consumeTokens d true) false) 1 (List.length_pos_iff.2 ha)
    (fun d d' c hd => ?_) fun debug opts => ⟨_, _, ok_of_wp (h _ debug opts), rfl, rfl⟩
  obtain ⟨k, rfl⟩ := Nat.exists_eq_add_of_le hd
  exact below_step (below_tokens d k) _ _

/-- Comments after `//` extend to the end of the line. -/
theorem C55_kotlin_line_comments : LineComments highlight b!"//" Spec.Js.Line := by
  intro t b h
  have hm := Js.matchLineComment_eq h
  have h0 := length_if_cons_neg (c := c!"/") (t := c!"/" :: (t ++ b)) (p := Python.isWhitespace) rfl
  rw [← optEmit_token]
  refine piece_of_token (ts := ⟨0, 2, .comment_delim, .normal⟩ :: optEmit 2 t .comment) (by simp) fun m debug opts => ?_
  unfold tokensStep consumeWhitespace expectToken HM.or expectLineComment
  simp at hm ⊢
  rw [h0, wp_advance_iff (by simp)]
  simp [HS.adv, hm]
  rw [wp_emitAdv_iff (by simp) (by simp) (by simp), wp_emitAdvIf_iff (by simp [HS.emitted]; omega) (by simp [HS.emitted])]
  simp [HS.emitted, optEmit]
  omega

example : Piece highlight b!"// x" [⟨0, 2, .comment_delim⟩, ⟨2, 2, .comment⟩] b!"\ny" :=
  C55_kotlin_line_comments b!" x" b!"\ny" (line_of_match (by decide +kernel))

/-- Comments after `/*` extend to the next `*/`. -/
theorem C55_kotlin_block_comments : Enclosures highlight b!"/*" b!"*/" (fun _ _ => True) .comment_delim .comment := by
  intro t b _ h
  have hm := Cpp.matchBlockComment_at h
  rw [← Js.matchBlockComment_eq] at hm
  have h0 := length_if_cons_neg (c := c!"/") (t := c!"*" :: (t ++ c!"*" :: c!"/" :: b)) (p := Python.isWhitespace) rfl
  have h1 : Js.matchLineComment (c!"/" :: c!"*" :: (t ++ c!"*" :: c!"/" :: b)) = 0 := by
    simp [Js.matchLineComment, startsWith_cons_cons]
  rw [← enclosed_token]
  refine piece_of_token (by simp) fun m debug opts => ?_
  unfold tokensStep consumeWhitespace expectToken HM.or expectLineComment expectBlockComment
  simp at hm ⊢
  rw [h0, wp_advance_iff (by simp)]
  simp [HS.adv, hm, h1]
  rw [Cpp.wp_highlightBlockComment_iff (by simp) (by simp)]
  simp [enclosedEmit]

example : Piece highlight b!"/* x*/" [⟨0, 2, .comment_delim⟩, ⟨2, 2, .comment⟩, ⟨4, 2, .comment_delim⟩] b!" y" :=
  C55_kotlin_block_comments b!" x" b!" y" trivial (upTo_of_find (by decide +kernel))

/-- Strings. -/
theorem C55_kotlin_strings : Enclosures highlight b!"\"" b!"\""
    (fun t b => Without b!"\\$\r\n" t ∧ (t = [] → ¬ b!"\"" <+: b)) .string_delim .string := by
  intro t b ⟨h, hb⟩ hu
  have h0 := length_if_cons_neg (c := c!"\"") (t := t ++ c!"\"" :: b) (p := Python.isWhitespace) rfl
  have h1 : Js.matchLineComment (c!"\"" :: (t ++ c!"\"" :: b)) = 0 := by
    simp [Js.matchLineComment, startsWith_cons_cons]
  have h2 : Js.matchBlockComment (c!"\"" :: (t ++ c!"\"" :: b)) = ⟨0, false⟩ := by
    simp [Js.matchBlockComment, startsWith_cons_cons]
  have hn := notMem_of_upTo hu
  have h3 : startsWith (c!"\"" :: (t ++ c!"\"" :: b)) b!"\"\"\"" = false := not_three hn hb
  have h4 : terminator (c!"\"" :: (t ++ c!"\"" :: b)) = b!"\"" := by
    simp [terminator, h3, startsWith_cons_cons]
  rw [← enclosed_token]
  refine piece_of_token (by simp) fun m debug opts => ?_
  unfold tokensStep consumeWhitespace expectToken HM.or expectLineComment expectBlockComment expectStringOrCharacter
  simp at ⊢
  rw [h0, wp_advance_iff (by simp)]
  simp [HS.adv, h1, h2, h4, startsWith_cons_cons]
  rw [wp_emitAdv_iff (by simp) (by simp) (by simp)]
  rw [show t.length + (b.length + 1) + 1 + 1 = b.length + 2 + 1 + t.length by omega]
  refine wp_loop_count t.length (fun k hk => ?_) (wp_loop_last ?_)
  · obtain ⟨x, hx, e⟩ := getElem?_plain (b := c!"\"" :: b) hk
    have := h x hx
    have hc : x ≠ c!"\"" := fun e => hn (e ▸ hx)
    have hs := startsWith_before hu hk (by simp)
    unfold stringStep
    simp at this hs
    simp [HS.emitted, e, hs, this]
  · unfold stringStep
    simp [HS.emitted, startsWith_cons_cons]
    rw [wp_emitAdvIf_iff (by simp; omega) (by simp), wp_emitAdv_iff (by simp; omega) (by simp) (by simp)]
    simp [HS.emitted, enclosedEmit, optEmit]
    omega

example : Piece highlight b!"\"x y\"" [⟨0, 1, .string_delim⟩, ⟨1, 3, .string⟩, ⟨4, 1, .string_delim⟩] b!" z" :=
  C55_kotlin_strings b!"x y" b!" z" ⟨by unfold Without; decide, nofun⟩ (upTo_of_find (by decide +kernel))

theorem name_byte (c : UInt8) : (0x80 ≤ c.toNat ∨ isAlpha c = true ∨ c = c!"_") ∧ c ≠ c!"_" →
    (Python.isWhitespace c || b!"/'\"0.@`{}".contains c || isDigitBase c 10) = false := by
  revert c
  apply forall_byte
  decide +kernel

/-- The symbols that begin like a word end with a character that belongs to no word. -/
theorem symbol_bytes : ∀ w ∈ sortedSymbols, (∃ q t, w = q :: t ∧ q.toNat < 0x80 ∧ ¬ CppId.Start q.toNat) ∨
    (w = w.dropLast ++ [w.getLast!] ∧ w.getLast! ∈ b!"@?" ∧ w.getLast!.toNat < 0x80 ∧
      (¬ CppId.Start w.getLast!.toNat ∧ ¬ CppId.Continue w.getLast!.toNat) ∧
      ∀ b ∈ w.dropLast, b.toNat < 0x80 ∧ CppId.Continue b.toNat) := by
  have key : sortedSymbols.all (fun w => (w.head?.any fun q => q.toNat < 0x80 && !(q.toNat = 0x5F || isXidStart q.toNat)) ||
    (w = w.dropLast ++ [w.getLast!] && b!"@?".contains w.getLast! && w.getLast!.toNat < 0x80 &&
      !(w.getLast!.toNat = 0x5F || isXidStart w.getLast!.toNat) && !(w.getLast!.toNat = 0x5F || isXidContinue w.getLast!.toNat) &&
      w.dropLast.all fun b => b.toNat < 0x80 && (b.toNat = 0x5F || isXidContinue b.toNat))) = true := by decide +kernel
  intro w hw
  have := List.all_eq_true.1 key w hw
  rw [Bool.or_eq_true] at this
  rcases this with h | h
  · left
    cases w with
    | nil => cases h
    | cons q t =>
      refine ⟨q, t, rfl, ?_⟩
      unfold CppId.Start
      simpa using h
  · right
    unfold CppId.Start CppId.Continue
    simp only [Bool.and_eq_true, decide_eq_true_eq, List.all_eq_true, Bool.or_eq_true, Bool.not_eq_true',
      Bool.or_eq_false_iff, decide_eq_false_iff_not, List.contains_iff_mem] at h
    obtain ⟨⟨⟨⟨⟨h1, h2⟩, h3⟩, h4⟩, h5⟩, h6⟩ := h
    exact ⟨h1, h2, h3, ⟨by grind, by grind⟩, h6⟩

/-- Words, unless they begin with an underscore, or what follows can make them a symbol. -/
theorem C55_kotlin_names : Identifiers highlight
    (fun s n => Identifier CppId.Start CppId.Continue s n ∧ s[0]? ≠ some c!"_" ∧ ∀ q ∈ b!"@?", s[n]? ≠ some q) words .name := by
  refine identifiers_of C33_kotlin fun w b ⟨h, hu, hq⟩ => ?_
  have hi := Cpp.matchIdentifier_eq h
  obtain ⟨c, r, e, h0, hc⟩ := Identifier.first h
  have hw : w ≠ [] := by rintro rfl; simp at h0
  have h5 : matchSymbol (w ++ b) = none := by
    rw [matchSymbol_eq, List.find?_eq_none]
    intro p hp
    rcases symbol_bytes p (List.mem_reverse.1 hp) with ⟨q, t, rfl, k1, k2⟩ | ⟨e1, e2, e3, e4, e5⟩
    · rw [e, startsWith_cons_cons]
      simp
      rintro rfl
      exact absurd (hc k1) k2
    · rw [e1, not_prefix h e5 ⟨e3, e4⟩ (hq _ e2)]
      simp
  rw [e] at hi hu h5
  have key := name_byte c ⟨cppStart_byte c hc, by simpa using hu⟩
  simp only [Bool.or_eq_false_iff] at key
  obtain ⟨⟨k1, k2⟩, k8⟩ := key
  simp at k2 hu
  obtain ⟨k2, k3, k4, k5, k6, k7, k9, k10, k11⟩ := k2
  have h1 := length_if_cons_neg (t := r) k1
  have h2 : Js.matchLineComment (c :: r) = 0 := by simp [Js.matchLineComment, startsWith_cons_cons, Ne.symm k2]
  have h3 : Js.matchBlockComment (c :: r) = ⟨0, false⟩ := by
    simp [Js.matchBlockComment, startsWith_cons_cons, Ne.symm k2]
  have h4 : matchNumber (c :: r) = {} := by
    unfold matchNumber
    rw [matchCommonNumber_none (by simp [numberOptions]) (by simp [numberOptions])
      (by simp [numberOptions, startsWith_cons_cons, Ne.symm k5]) k8 k5 k6 hu]
    rfl
  have h6 : terminator (c :: r) = [] := by
    simp [terminator, startsWith_cons_cons, Ne.symm k3, Ne.symm k4]
  have hl : w.length ≤ (c :: r).length := by simp [← e]
  generalize ht : (highlightByCode w).getD .name = ty
  refine piece_of_token (ts := [⟨0, w.length, ty, .normal⟩]) hw fun m debug opts => ?_
  rw [e]
  unfold tokensStep consumeWhitespace expectToken HM.or expectLineComment expectBlockComment
    expectStringOrCharacter expectNumber expectAnnotation expectSymbol expectBacktickIdentifier expectIdentifier
  simp [h1]
  rw [wp_advance_iff (by simp)]
  simp [HS.adv, h2, h3, h4, h5, h6, startsWith_cons_cons, k10, k11, Ne.symm k7, Ne.symm k9, hi, hw]
  rw [wp_emitAdv_iff (by simp) h0 hl]
  simp [HS.emitted, ← e, ht]

example : Piece highlight b!"if" [⟨0, 2, .keyword_control⟩] b!" x" ∧ Piece highlight b!"y1" [⟨0, 2, .name⟩] b!"+" :=
  ⟨(C55_kotlin_names b!"if" b!" x" ⟨Cpp.identifier_of_match (by decide +kernel) (by decide), by decide⟩).1 _ (by decide +kernel),
   (C55_kotlin_names b!"y1" b!"+" ⟨Cpp.identifier_of_match (by decide +kernel) (by decide), by decide⟩).2 (notWord (by decide +kernel))⟩

/-- Words that begin with an underscore are highlighted as errors and names. -/
theorem C55_kotlin_underscore :
    ¬ Identifiers highlight (Identifier CppId.Start CppId.Continue) words .name := by
  intro h
  refine not_piece [] [⟨0, 1, .error, .normal⟩, ⟨1, 1, .name, .normal⟩] ?_ ?_ ?_
    ((h b!"_x" [] (Cpp.identifier_of_match (by decide +kernel) (by decide))).2 ?_)
  · decide +kernel
  · decide +kernel
  · decide
  · intro ty
    rw [← C33_kotlin, show highlightByCode b!"_x" = none by decide +kernel]
    exact nofun

end Ulight.Kotlin
